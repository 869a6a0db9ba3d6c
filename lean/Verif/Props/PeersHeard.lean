import Verif.Props.PeersPing

/-!
# Properties of the connections between nodes, continued (C92): when a peer counts as heard of
-/

namespace Bedrock.Peers.Props
open Bedrock Bedrock.Text Bedrock.Http Bedrock.Peers Bedrock.Peers.Node
open Bedrock.Sockets (State)

theorem attach_soft (w : World) (n : Node) (u : Sk) (i j : Nat) (hij : i ≠ j) (a b c : Ev) (raw : Bytes) (m : Msg) (p : Peer)
    (hp : n.peers[i]? = some p) :
    ∃ q, (handle w ((((n.setSock j (some u)).add a).add b).add c) j raw m).peers[i]? = some q ∧ Soft p q := by
  have h1 : ((((n.setSock j (some u)).add a).add b).add c).peers[i]? = some p := by
    show (n.peers.modify j _)[i]? = some p
    rw [List.getElem?_modify, hp]
    simp [Ne.symm hij]
  obtain ⟨v, g1, g2, _⟩ := (frame_handle w _ j raw m i).peer i p h1
  exact ⟨v, g1, g2⟩

/-- Connections on the node port do nothing to a peer that has a connection, but for shutdowns. -/
theorem authOne_soft (w : World) (r : Round) (n : Node) (s₀ : Sk) (i : Nat) (p : Peer) (hp : n.peers[i]? = some p)
    (hs : p.sock ≠ none) : ∃ q, (n.authOne w r s₀).peers[i]? = some q ∧ Soft p q := by
  unfold authOne
  split
  · exact ⟨p, hp, soft_refl p⟩
  · dsimp only
    split
    · exact ⟨p, hp, soft_refl p⟩
    · split
      · split
        · split
          · rename_i j _
            split
            · rename_i hn
              have hij : i ≠ j := by
                intro e
                subst e
                rw [sockOf_eq hp] at hn
                exact hs (by simpa using hn)
              exact attach_soft w n _ i j hij _ _ _ _ _ p hp
            · exact ⟨p, hp, soft_refl p⟩
          · exact ⟨p, hp, soft_refl p⟩
        · exact ⟨p, hp, soft_refl p⟩
      all_goals first
        | exact ⟨p, hp, soft_refl p⟩
        | (split <;> exact ⟨p, hp, soft_refl p⟩)

theorem soft_some {p q : Peer} (h : Soft p q) (hs : p.sock ≠ none) : q.sock ≠ none := by
  intro e
  have := h.sock
  rw [e] at this
  cases hp : p.sock with
  | none => exact hs hp
  | some s => rw [hp] at this; exact this

theorem auths_soft (w : World) (r : Round) (i : Nat) : ∀ (l : List Sk) (n : Node) (p : Peer), n.peers[i]? = some p →
    p.sock ≠ none → ∃ q, (l.foldl (authOne w r) n).peers[i]? = some q ∧ Soft p q
  | [], _, p, hp, _ => ⟨p, hp, soft_refl p⟩
  | s :: l, n, p, hp, hs => by
    obtain ⟨q, h1, h2⟩ := authOne_soft w r n s i p hp hs
    obtain ⟨u, g1, g2⟩ := auths_soft w r i l _ q h1 (soft_some h2 hs)
    exact ⟨u, g1, soft_trans h2 g2⟩

theorem okay_soft (w : World) (r : Round) (i : Nat) (n : Node) (p : Peer) (hp : n.peers[i]? = some p) :
    ∃ q, (n.okay w r i).peers[i]? = some q ∧ SockSoft p.sock q.sock := by
  unfold okay
  dsimp only
  split
  · have hp1 : ((n.setPeer i (fun p => { p with lastPing := r.now })).add (.ping i)).peers[i]? =
        some { p with lastPing := r.now } := setPeer_at hp _
    obtain ⟨_, g, _, _⟩ := some100_frame w r ((n.setPeer i (fun p => { p with lastPing := r.now })).add (.ping i)) i
    obtain ⟨q, g1, g2, _⟩ := g i _ hp1
    exact ⟨q, g1, g2.sock⟩
  · obtain ⟨_, g, _, _⟩ := some100_frame w r n i
    obtain ⟨q, g1, g2, _⟩ := g i _ hp
    exact ⟨q, g1, g2.sock⟩

/-- The turn of a peer with a connection: the connection is polled, shut down or let go. -/
theorem peerOne_sock (w : World) (r : Round) (i : Nat) (n : Node) (p : Peer) (s : Sk) (hp : n.peers[i]? = some p)
    (hs : p.sock = some s) (hd : (n.peerOne w r i).dead = false) :
    ∃ q, (n.peerOne w r i).peers[i]? = some q ∧
      (q.sock = none ∨ SockSoft (some (s.poll r.now (r.io s.id))) q.sock) := by
  have hd0 : n.dead = false := peerOne_dead hd
  unfold peerOne at hd ⊢
  rw [hd0, hp] at hd ⊢
  simp only [Bool.false_eq_true, if_false] at hd ⊢
  rw [hs] at hd ⊢
  dsimp only at hd ⊢
  generalize s.poll r.now (r.io s.id) = u at hd ⊢
  have hp1 : (n.setSock i (some u)).peers[i]? = some { p with sock := some u } := setPeer_at hp _
  split
  · split
    · split
      · rename_i hc ht hx
        rw [if_pos hc, if_pos ht, if_pos hx, hx] at hd
        cases hd
      · obtain ⟨q, g1, g2, _⟩ := (frame_all w i (n.setSock i (some u))).peer i _ hp1
        obtain ⟨q', k1, k2, _⟩ := (frame_shutdown i i (((n.setSock i (some u)).all w i).add (.reconnect i))).peer i q g1
        exact ⟨q', k1, .inr (sockSoft_trans g2.sock k2.sock)⟩
    · obtain ⟨q, g1, g2⟩ := okay_soft w r i _ _ hp1
      exact ⟨q, g1, .inr g2⟩
  · split
    · split
      · rename_i hc ht hx
        rw [if_neg hc, if_pos ht, if_pos hx, hx] at hd
        cases hd
      · have hp2 := setPeer_at hp1 (fun p => { p with nextReconnect := r.now + r.delay i })
        generalize hn : ({ (n.setSock i (some u)).setPeer i (fun p => { p with nextReconnect := r.now + r.delay i }) with
          next := min (n.setSock i (some u)).next (r.now + r.delay i) } : Node) = n2 at *
        have hp3 : n2.peers[i]? = some { p with sock := some u, nextReconnect := r.now + r.delay i } := by
          rw [← hn]; exact hp2
        obtain ⟨q, g1, g2, _⟩ := (frame_all w i n2).peer i _ hp3
        exact ⟨_, setPeer_at g1 _, .inl rfl⟩
    · obtain ⟨q, g1, g2⟩ := okay_soft w r i _ _ hp1
      exact ⟨q, g1, .inr g2⟩

theorem peers_sock (w : World) (r : Round) (n₀ : Node) (i : Nat) (p : Peer) (s : Sk) (hp : n₀.peers[i]? = some p)
    (hs : p.sock = some s) : ∀ (k : Nat), ((List.range k).foldl (peerOne w r) n₀).dead = false →
    ∃ q, ((List.range k).foldl (peerOne w r) n₀).peers[i]? = some q ∧
      (k ≤ i → SockSoft (some s) q.sock) ∧
      (i < k → q.sock = none ∨ ∃ s', SockSoft (some s) (some s') ∧ SockSoft (some (s'.poll r.now (r.io s'.id))) q.sock)
  | 0, _ => ⟨p, hp, fun _ => by rw [hs]; exact sockSoft_refl _, fun h => absurd h (Nat.not_lt_zero _)⟩
  | k + 1, hd => by
    rw [List.range_succ, List.foldl_append] at hd ⊢
    simp only [List.foldl_cons, List.foldl_nil] at hd ⊢
    obtain ⟨q, g1, g2, g3⟩ := peers_sock w r n₀ i p s hp hs k (peerOne_dead hd)
    generalize (List.range k).foldl (peerOne w r) n₀ = n at *
    by_cases hik : i = k
    · subst hik
      have h := g2 (Nat.le_refl _)
      cases hq : q.sock with
      | none => rw [hq] at h; exact h.elim
      | some s' =>
        rw [hq] at h
        obtain ⟨u, k1, k2⟩ := peerOne_sock w r i n q s' g1 hq hd
        refine ⟨u, k1, fun h => absurd h (by omega), fun _ => ?_⟩
        rcases k2 with k2 | k2
        · exact .inl k2
        · exact .inr ⟨s', h, k2⟩
    · obtain ⟨u, k1, k2, _⟩ := (step_peerOne w r k n).others i q hik g1
      refine ⟨u, k1, fun h => sockSoft_trans (g2 (by omega)) k2.sock, fun h => ?_⟩
      rcases g3 (by omega) with h | ⟨s', h1, h2⟩
      · refine .inl ?_
        have := k2.sock
        rw [h] at this
        cases hu : u.sock with
        | none => rfl
        | some t => rw [hu] at this; exact this.elim
      · exact .inr ⟨s', h1, sockSoft_trans h2 k2.sock⟩

/-- C92.  A peer whose connection is there before and after a round has the same connection, and counts as heard of in this
round if, and only if, bytes arrived on it. -/
theorem c92_heard (w : World) (n : Node) (r : Round) (hk : r.killed = false) (hd : (n.round w r).dead = false)
    (i : Nat) (p q : Peer) (s t : Sk) (hp : n.peers[i]? = some p) (hs : p.sock = some s)
    (hq : (n.round w r).peers[i]? = some q) (ht : q.sock = some t) :
    t.id = s.id ∧ ((r.io s.id).bytes = [] → t.lastRecv = s.lastRecv) ∧
      ((r.io s.id).bytes ≠ [] → s.state ≠ .closed → t.lastRecv = r.now) := by
  obtain ⟨_, he, hd1⟩ := round_parts w n r hk hd
  rw [he] at hd hq
  obtain ⟨p1, a1, a2⟩ := auths_soft w r i (n.incoming r)
    { n with waiting := [], next := r.until_, fresh := n.fresh + r.accepted.length } p hp (by rw [hs]; simp)
  generalize (n.incoming r).foldl (authOne w r)
    { n with waiting := [], next := r.until_, fresh := n.fresh + r.accepted.length } = n1 at *
  have hi : i < n1.peers.length := (List.getElem?_eq_some_iff.mp a1).1
  have h1 := a2.sock
  rw [hs] at h1
  cases hp1 : p1.sock with
  | none => rw [hp1] at h1; exact h1.elim
  | some s1 =>
    rw [hp1] at h1
    obtain ⟨q', g1, _, g3⟩ := peers_sock w r n1 i p1 s1 a1 hp1 _ hd
    rw [hq] at g1
    injection g1 with e
    subst e
    rcases g3 hi with h | ⟨s', h2, h3⟩
    · rw [ht] at h; cases h
    · rw [ht] at h3
      obtain ⟨b1, b2, b3⟩ := h1
      obtain ⟨c1, c2, c3⟩ := h2
      obtain ⟨d1, d2, _⟩ := h3
      have hid : s'.id = s.id := by rw [c1, b1]
      rw [hid] at d1 d2
      refine ⟨?_, ?_, ?_⟩
      · rw [d1]
        unfold Sk.poll
        split <;> exact hid
      · intro h
        rw [d2]
        unfold Sk.poll
        split
        · rw [c2, b2]
        · show s'.lastRecv = _
          rw [c2, b2]
      · intro h hc
        rw [d2]
        unfold Sk.poll
        have : s'.state ≠ .closed := by
          rcases c3 with c3 | c3
          · rcases b3 with b3 | b3
            · rw [c3, b3]; exact hc
            · rw [c3, b3]; simp
          · rw [c3]; simp
        rw [if_neg this]
        exact if_neg h

/-- A peer that has a connection after each of the rounds. -/
def Keeps (w : World) (i : Nat) : Node → List Round → Prop
  | _, [] => True
  | n, r :: rs => ((n.round w r).sockOf i).isSome ∧ Keeps w i (n.round w r) rs

/-- C92.  A connection on which nothing arrives is not established any more 30 seconds after something last did. -/
theorem c92_silent_cut (w : World) (i : Nat) (rs : List Round) (r : Round) : ∀ (n : Node) (p : Peer) (s : Sk),
    n.peers[i]? = some p → p.sock = some s → (∀ x ∈ rs ++ [r], x.killed = false ∧ (x.io s.id).bytes = []) →
    (n.run w (rs ++ [r])).dead = false → Keeps w i n (rs ++ [r]) → s.lastRecv + 30000000 < r.now →
    ∃ t, (n.run w (rs ++ [r])).sockOf i = some t ∧ t.id = s.id ∧ t.lastRecv = s.lastRecv ∧ t.state ≠ .connected := by
  have dead_run : ∀ (l : List Round) (n : Node), (n.run w l).dead = false → n.dead = false := by
    intro l
    induction l with
    | nil => exact fun _ h => h
    | cons x l ih =>
      intro n h
      have := ih _ h
      cases hd : n.dead with
      | false => rfl
      | true => unfold round at this; rw [if_pos (.inl hd), hd] at this; exact this
  have one : ∀ (x : Round) (l : List Round) (n : Node) (p : Peer) (s : Sk), n.peers[i]? = some p → p.sock = some s →
      x.killed = false → (x.io s.id).bytes = [] → ((n.round w x).run w l).dead = false → ((n.round w x).sockOf i).isSome →
      ∃ q t, (n.round w x).peers[i]? = some q ∧ q.sock = some t ∧ t.id = s.id ∧ t.lastRecv = s.lastRecv := by
    intro x l n p s hp hs hk hio hd hsome
    cases hq : (n.round w x).peers[i]? with
    | none => unfold sockOf at hsome; rw [hq] at hsome; cases hsome
    | some q =>
      rw [sockOf_eq hq] at hsome
      obtain ⟨t, ht⟩ := Option.isSome_iff_exists.mp hsome
      obtain ⟨h1, h2, _⟩ := c92_heard w n x hk (dead_run l _ hd) i p q s t hp hs hq ht
      exact ⟨q, t, rfl, ht, h1, h2 hio⟩
  induction rs with
  | nil =>
    intro n p s hp hs hr hd hkeep hlate
    obtain ⟨hk, hio⟩ := hr r (by simp)
    obtain ⟨q, t, h1, h2, h3, h4⟩ := one r [] n p s hp hs hk hio hd hkeep.1
    refine ⟨t, by show (n.round w r).sockOf i = _; rw [sockOf_eq h1, h2], h3, h4, fun hc => ?_⟩
    have := (c92_connected w n r hk (dead_run [] _ hd) i q h1 t h2 (List.getElem?_eq_some_iff.mp hp).1).2.1 hc
    omega
  | cons x rs ih =>
    intro n p s hp hs hr hd hkeep hlate
    obtain ⟨hk, hio⟩ := hr x (by simp)
    obtain ⟨q, t, h1, h2, h3, h4⟩ := one x (rs ++ [r]) n p s hp hs hk hio hd hkeep.1
    obtain ⟨u, k1, k2, k3, k4⟩ := ih (n.round w x) q t h1 h2 (fun y hy => by rw [h3]; exact hr y (by simp at hy ⊢; exact .inr hy))
      hd hkeep.2 (by rw [h4]; exact hlate)
    exact ⟨u, k1, by rw [k2, h3], by rw [k3, h4], k4⟩

/-- C92, limits: a peer, too, can end the process with one message. -/
theorem c92_peer_kills (w : World) (n : Node) (i : Nat) (s : Sk) (f : Nat) (hs : n.sockOf i = some s)
    (hp : parse s.buf = .throws) (he : w.exc s.buf ≠ .outOfRange) : (n.pop w (f + 1) i).1.dead = true := by
  unfold pop
  rw [hs]
  dsimp only
  rw [hp]
  dsimp only
  rw [if_neg he]

/-- In a world where nothing reacts, one peer connected and heard of at time 1. -/
def lone : Node := { peers := [{ name := str "a", sock := some { id := 0, state := .connected, lastRecv := 1 } }], fresh := 1 }

def idleWorld : World := { react := fun _ _ _ => [], exc := fun _ => .other }

def quiet (now : Nat) : Round := { now, until_ := now + 1000000 }

example : ∃ t, (lone.run idleWorld ([quiet 20000000, quiet 27000000] ++ [quiet 31000000])).sockOf 0 = some t ∧ t.id = 0 ∧
    t.lastRecv = 1 ∧ t.state ≠ .connected :=
  c92_silent_cut idleWorld 0 [quiet 20000000, quiet 27000000] (quiet 31000000) lone _ _ rfl rfl
    (by intro x hx; simp at hx; rcases hx with rfl | rfl | rfl <;> exact ⟨rfl, rfl⟩)
    (by decide +kernel) ⟨by decide +kernel, by decide +kernel, by decide +kernel, trivial⟩ (by decide)

example : ((lone.round idleWorld { quiet 2 with io := fun _ => { bytes := str "X" } }).sockOf 0).map (·.lastRecv) = some 2 := by
  decide +kernel

example : ((lone.setSock 0 (some { id := 0, state := .connected, buf := badLength, lastRecv := 1 })).pop idleWorld 100 0).1.dead = true :=
  c92_peer_kills idleWorld _ 0 _ 99 rfl (by decide +kernel) (by decide)

end Bedrock.Peers.Props
