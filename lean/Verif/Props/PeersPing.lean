import Verif.Props.PeersTime

/-!
# C92: no PING and no RECONNECT without need; who may connect; what a stranger can do
-/

namespace Bedrock.Peers.Props
open Bedrock Bedrock.Text Bedrock.Http Bedrock.Peers Bedrock.Peers.Node
open Bedrock.Sockets (State)

/-- The weight of a log: the sum of the weights of what happened. -/
def weight (f : Ev → Int) (l : List Ev) : Int := (l.map f).sum

theorem weight_append (f : Ev → Int) (a b : List Ev) : weight f (a ++ b) = weight f a + weight f b := by
  unfold weight
  rw [List.map_append, List.sum_append]

/-- Weights that see only PINGs that do not belong to a new connection, and RECONNECTs. -/
structure Sees (f : Ev → Int) : Prop where
  message : ∀ i raw m, f (.message i raw m) = 0
  opened : ∀ i id, f (.opened i id) + f (.login i) + f (.ping i) = 0
  attached : ∀ i id, f (.attached i id) + f (.login i) + f (.ping i) = 0
  disconnected : ∀ i got, f (.disconnected i got) = 0
  refused : ∀ id, f (.refused id) = 0

theorem weight_add (f : Ev → Int) (n : Node) (e : Ev) : weight f (n.add e).log = weight f n.log + f e := by
  show weight f (n.log ++ [e]) = _
  rw [weight_append]
  simp [weight]

theorem weight_handle {f : Ev → Int} (hf : Sees f) (w : World) (n : Node) (i : Nat) (raw : Bytes) (m : Msg) :
    weight f (n.handle w i raw m).log = weight f n.log := by
  unfold handle
  rw [log_shutdowns, weight_add, hf.message]
  omega

theorem weight_pop {f : Ev → Int} (hf : Sees f) (w : World) (i : Nat) : ∀ (k : Nat) (n : Node),
    weight f (n.pop w k i).1.log = weight f n.log
  | 0, n => rfl
  | k + 1, n => by
    unfold pop
    split
    · rfl
    · split
      · rw [weight_pop hf w i k, weight_handle hf]
        rfl
      · rfl
      · rfl
      · split <;> rfl
      · rfl

theorem weight_some100 {f : Ev → Int} (hf : Sees f) (w : World) (r : Round) (i : Nat) (n : Node) :
    weight f (n.some100 w r i).log = weight f n.log := by
  unfold some100
  dsimp only
  split <;> exact weight_pop hf w i 100 n

theorem weight_all {f : Ev → Int} (hf : Sees f) (w : World) (i : Nat) (n : Node) :
    weight f (n.all w i).log = weight f n.log := weight_pop hf w i _ n

theorem weight_authOne {f : Ev → Int} (hf : Sees f) (w : World) (r : Round) (n : Node) (s₀ : Sk) :
    weight f (n.authOne w r s₀).log = weight f n.log := by
  have href : ∀ s, weight f (n.refuse s).log = weight f n.log := by
    intro s
    unfold refuse
    rw [weight_add, hf.refused]
    omega
  unfold authOne
  split
  · rfl
  · dsimp only
    generalize s₀.poll r.now (r.ioWaiting s₀.id) = s
    split
    · exact href s
    · split
      · split
        · split
          · rename_i i hi
            split
            · rw [weight_handle hf, weight_add, weight_add, weight_add]
              have := hf.attached i s.id
              show weight f n.log + _ + _ + _ = _
              omega
            · exact href s
          · exact href s
        · exact href s
      · split
        · exact href s
        · rfl
      · split
        · exact href s
        · rfl
      · rfl
      · rfl

/-- The turn of one peer: what is added, and when. -/
theorem weight_peerOne {f : Ev → Int} (hf : Sees f) (w : World) (r : Round) (i : Nat) (n : Node) (p : Peer)
    (hp : n.peers[i]? = some p) (hd : (n.peerOne w r i).dead = false) :
    weight f (n.peerOne w r i).log = weight f n.log ∨
    (weight f (n.peerOne w r i).log = weight f n.log + f (.ping i) ∧ p.lastPing + second < r.now ∧
      ∃ t, (n.peerOne w r i).sockOf i = some t ∧ t.lastRecv + 25 * second < r.now) ∨
    (weight f (n.peerOne w r i).log = weight f n.log + f (.reconnect i) ∧
      ∃ t, (n.peerOne w r i).sockOf i = some t ∧ t.lastRecv + 30 * second < r.now) := by
  -- the case `OK`
  have hok : ∀ (n1 : Node) (p1 : Peer), n1.peers[i]? = some p1 →
      weight f (n1.okay w r i).log = weight f n1.log ∨
      (weight f (n1.okay w r i).log = weight f n1.log + f (.ping i) ∧ p1.lastPing + second < r.now ∧
        ∃ t, (n1.okay w r i).sockOf i = some t ∧ t.lastRecv + 25 * second < r.now) := by
    intro n1 p1 hp1
    unfold okay
    dsimp only
    rw [weight_some100 hf]
    by_cases hping : ((n1.sockOf i).elim 0 (·.lastRecv)) ≠ 0 ∧
      recvTimeout - 5 * second < r.now - ((n1.sockOf i).elim 0 (·.lastRecv)) ∧
      ((n1.peers[i]?).elim 0 (·.lastPing)) + second < r.now
    · rw [if_pos hping, weight_add]
      refine .inr ⟨rfl, ?_, ?_⟩
      · have := hping.2.2
        rw [hp1] at this
        exact this
      · cases hs : n1.sockOf i with
        | none => rw [hs] at hping; exact absurd rfl hping.1
        | some s =>
          rw [hs] at hping
          have h2 : recvTimeout - 5 * second < r.now - s.lastRecv := hping.2.1
          have hp2 := setPeer_at hp1 (fun p => { p with lastPing := r.now })
          obtain ⟨_, g, _, _⟩ := some100_frame w r ((n1.setPeer i (fun p => { p with lastPing := r.now })).add (.ping i)) i
          obtain ⟨q, g1, g2, _⟩ := g i _ hp2
          have hk := g2.sock
          have hs1 : p1.sock = some s := by rw [← sockOf_eq hp1]; exact hs
          cases hq : q.sock with
          | none => rw [hq] at hk; dsimp only at hk; rw [hs1] at hk; exact hk.elim
          | some t =>
            rw [hq] at hk
            dsimp only at hk
            rw [hs1] at hk
            refine ⟨t, by rw [sockOf_eq g1, hq], ?_⟩
            have h3 : recvTimeout - 5 * second = 25 * second := by decide
            rw [hk.2.1]
            omega
    · rw [if_neg hping]
      exact .inl rfl
  have hd0 : n.dead = false := peerOne_dead hd
  unfold peerOne at hd ⊢
  rw [hd0, hp] at hd ⊢
  simp only [Bool.false_eq_true, if_false] at hd ⊢
  cases hs₀ : p.sock with
  | some s₀ =>
    rw [hs₀] at hd
    dsimp only at hd ⊢
    generalize hsp : s₀.poll r.now (r.io s₀.id) = s at hd ⊢
    have hp1 : (n.setSock i (some s)).peers[i]? = some { p with sock := some s } := setPeer_at hp _
    by_cases hc : s.state = .connected
    · rw [if_pos hc] at hd ⊢
      by_cases ht : s.lastRecv + recvTimeout < r.now
      · rw [if_pos ht] at hd ⊢
        cases hdd : ((n.setSock i (some s)).all w i).dead with
        | true => rw [if_pos hdd, hdd] at hd; cases hd
        | false =>
          simp only [Bool.false_eq_true, if_false]
          refine .inr (.inr ⟨?_, ?_⟩)
          · show weight f (((n.setSock i (some s)).all w i).add (.reconnect i)).log = _
            rw [weight_add, weight_all hf]
            rfl
          · obtain ⟨q, g1, g2, _⟩ := (frame_all w i (n.setSock i (some s))).peer i _ hp1
            have hk := g2.sock
            cases hq : q.sock with
            | none => rw [hq] at hk; exact hk.elim
            | some t =>
              rw [hq] at hk
              have := setPeer_at (n := ((n.setSock i (some s)).all w i).add (.reconnect i)) g1
                (fun p => { p with sock := p.sock.map (fun s => { s with state := .shuttingDown }) })
              rw [hq] at this
              refine ⟨{ t with state := .shuttingDown }, by unfold shutdown; rw [sockOf_eq this]; rfl, ?_⟩
              show t.lastRecv + _ < _
              rw [hk.2.1]
              exact ht
      · rw [if_neg ht] at hd ⊢
        rcases hok _ _ hp1 with h | h
        · exact .inl h
        · exact .inr (.inl h)
    · rw [if_neg hc] at hd ⊢
      by_cases hcl : s.state = .closed
      · rw [if_pos hcl] at hd ⊢
        refine .inl ?_
        split
        · rw [weight_all hf]; rfl
        · rw [weight_add, hf.disconnected]
          show weight f (Node.all _ _ _).log + 0 = _
          rw [weight_all hf]
          show weight f n.log + 0 = _
          omega
      · rw [if_neg hcl] at hd ⊢
        rcases hok _ _ hp1 with h | h
        · exact .inl h
        · exact .inr (.inl h)
  | none =>
    refine .inl ?_
    dsimp only
    split
    · have hp1 := setPeer_at hp (fun p => { p with lastPing := 0 })
      split
      · rw [weight_some100 hf, weight_add, weight_add, weight_add]
        have := hf.opened i (n.setPeer i (fun p => { p with lastPing := 0 })).fresh
        show weight f n.log + _ + _ + _ = _
        omega
      · have hp2 := setPeer_at hp1 (fun p => { p with nextReconnect := r.now + minute })
        rw [okay_none w r i _ _ hp2 (by exact hs₀)]
        rfl
    · rw [okay_none w r i _ p (by exact hp) hs₀]

theorem weight_auths {f : Ev → Int} (hf : Sees f) (w : World) (r : Round) : ∀ (l : List Sk) (n : Node),
    weight f (l.foldl (authOne w r) n).log = weight f n.log
  | [], _ => rfl
  | s :: l, n => by rw [List.foldl_cons, weight_auths hf w r l, weight_authOne hf]

/-- The loop over the peers, for a weight that sees only one peer. -/
theorem weight_peers {f : Ev → Int} (hf : Sees f) (w : World) (r : Round) (i : Nat) (hi : ∀ j, j ≠ i → f (.ping j) = 0 ∧ f (.reconnect j) = 0)
    (n₀ : Node) (p : Peer) (hp : n₀.peers[i]? = some p) : ∀ (k : Nat),
    k ≤ n₀.peers.length → ((List.range k).foldl (peerOne w r) n₀).dead = false →
    weight f ((List.range k).foldl (peerOne w r) n₀).log = weight f n₀.log ∨
    (i < k ∧ weight f ((List.range k).foldl (peerOne w r) n₀).log = weight f n₀.log + f (.ping i) ∧ p.lastPing + second < r.now ∧
      ∃ t, ((List.range k).foldl (peerOne w r) n₀).sockOf i = some t ∧ t.lastRecv + 25 * second < r.now) ∨
    (i < k ∧ weight f ((List.range k).foldl (peerOne w r) n₀).log = weight f n₀.log + f (.reconnect i) ∧
      ∃ t, ((List.range k).foldl (peerOne w r) n₀).sockOf i = some t ∧ t.lastRecv + 30 * second < r.now)
  | 0, _, _ => .inl rfl
  | k + 1, hk, hd => by
    rw [List.range_succ, List.foldl_append] at hd ⊢
    simp only [List.foldl_cons, List.foldl_nil] at hd ⊢
    have hd' := peerOne_dead hd
    have ih := weight_peers hf w r i hi n₀ p hp k (by omega) hd'
    have hset := peers_settled w r n₀ k (by omega) hd'
    generalize (List.range k).foldl (peerOne w r) n₀ = n at *
    obtain ⟨hlen, _, h3, _⟩ := hset
    obtain ⟨pk, hpk⟩ : ∃ pk, n.peers[k]? = some pk := ⟨_, List.getElem?_eq_getElem (by omega)⟩
    have hw := weight_peerOne hf w r k n pk hpk hd
    by_cases hik : i = k
    · subst hik
      have hn : weight f n.log = weight f n₀.log := by
        rcases ih with h | h | h
        · exact h
        · omega
        · omega
      obtain ⟨q, g1, g2⟩ := h3 i p (Nat.le_refl _) hp
      rw [hpk] at g1
      injection g1 with e
      subst e
      rw [hn] at hw
      rcases hw with h | ⟨h1, h2, h3⟩ | ⟨h1, h2⟩
      · exact .inl h
      · exact .inr (.inl ⟨by omega, h1, by rw [← g2.ping]; exact h2, h3⟩)
      · exact .inr (.inr ⟨by omega, h1, h2⟩)
    · have h0 := hi k (fun e => hik e.symm)
      have hn : weight f (n.peerOne w r k).log = weight f n.log := by
        rcases hw with h | ⟨h1, _⟩ | ⟨h1, _⟩
        · exact h
        · rw [h1, h0.1]; omega
        · rw [h1, h0.2]; omega
      have hst := step_peerOne w r k n
      have keep : ∀ t x, n.sockOf i = some t → t.lastRecv + x < r.now →
          ∃ t', (n.peerOne w r k).sockOf i = some t' ∧ t'.lastRecv + x < r.now := by
        intro t x ht hx
        obtain ⟨p', g1, g2⟩ := peer_of_sock ht
        obtain ⟨q, k1, k2, _⟩ := hst.others i p' hik g1
        have hk := k2.sock
        rw [g2] at hk
        cases hq : q.sock with
        | none => rw [hq] at hk; exact hk.elim
        | some t' =>
          rw [hq] at hk
          exact ⟨t', by rw [sockOf_eq k1, hq], by rw [hk.2.1]; exact hx⟩
      rw [hn]
      rcases ih with h | ⟨h1, h2, h3, t, h4, h5⟩ | ⟨h1, h2, t, h4, h5⟩
      · exact .inl h
      · exact .inr (.inl ⟨by omega, h2, h3, keep t _ h4 h5⟩)
      · exact .inr (.inr ⟨by omega, h2, keep t _ h4 h5⟩)

/-- PINGs to a peer, less those that go with LOGIN on a new connection. -/
def pings (i : Nat) : Ev → Int
  | .ping j => if j = i then 1 else 0
  | .login j => if j = i then -1 else 0
  | _ => 0

/-- RECONNECTs to a peer. -/
def cuts (i : Nat) : Ev → Int
  | .reconnect j => if j = i then 1 else 0
  | _ => 0

theorem sees_pings (i : Nat) : Sees (pings i) := by
  refine ⟨fun _ _ _ => rfl, ?_, ?_, fun _ _ => rfl, fun _ => rfl⟩ <;>
  · intro j id
    simp only [pings]
    split <;> omega

theorem sees_cuts (i : Nat) : Sees (cuts i) :=
  ⟨fun _ _ _ => rfl, fun _ _ => rfl, fun _ _ => rfl, fun _ _ => rfl, fun _ => rfl⟩

/-- C92.  In a round a peer gets no PING besides the one with LOGIN on a new connection, or just one; and that only if
the last one was more than a second ago and nothing has come from the peer for 25 seconds. -/
theorem c92_ping_rare (w : World) (n : Node) (r : Round) (hk : r.killed = false) (hd : (n.round w r).dead = false)
    (i : Nat) (p : Peer) (hp : n.peers[i]? = some p) :
    weight (pings i) (n.round w r).log = weight (pings i) n.log ∨
    (weight (pings i) (n.round w r).log = weight (pings i) n.log + 1 ∧ p.lastPing + 1000000 < r.now ∧
      ∃ t, (n.round w r).sockOf i = some t ∧ t.lastRecv + 25000000 < r.now) := by
  obtain ⟨_, he, hd1⟩ := round_parts w n r hk hd
  obtain ⟨_, _, h3, _⟩ := auths_spec w r _ _ hd1
  obtain ⟨q, a1, _, a3, _⟩ := h3 i p hp
  rw [he] at hd ⊢
  have := weight_peers (sees_pings i) w r i (fun j hj => by simp [pings, hj]) _ q a1 _ (Nat.le_refl _) hd
  rw [weight_auths (sees_pings i), a3] at this
  rcases this with h | ⟨_, h1, h2, h3⟩ | ⟨_, h1, _⟩
  · exact .inl h
  · refine .inr ⟨?_, h2, h3⟩
    rw [h1]
    simp [pings]
  · refine .inl ?_
    rw [h1]
    simp [pings]

/-- C92.  A connection is not cut for silence unless nothing has come from the peer for 30 seconds. -/
theorem c92_not_cut_early (w : World) (n : Node) (r : Round) (hk : r.killed = false) (hd : (n.round w r).dead = false)
    (i : Nat) (p : Peer) (hp : n.peers[i]? = some p) :
    weight (cuts i) (n.round w r).log = weight (cuts i) n.log ∨
    (weight (cuts i) (n.round w r).log = weight (cuts i) n.log + 1 ∧
      ∃ t, (n.round w r).sockOf i = some t ∧ t.lastRecv + 30000000 < r.now) := by
  obtain ⟨_, he, hd1⟩ := round_parts w n r hk hd
  obtain ⟨_, _, h3, _⟩ := auths_spec w r _ _ hd1
  obtain ⟨q, a1, _, a3, _⟩ := h3 i p hp
  rw [he] at hd ⊢
  have := weight_peers (sees_cuts i) w r i (fun j hj => by simp [cuts, hj]) _ q a1 _ (Nat.le_refl _) hd
  rw [weight_auths (sees_cuts i)] at this
  rcases this with h | ⟨_, h1, _⟩ | ⟨_, h1, h2⟩
  · exact .inl h
  · refine .inl ?_
    rw [h1]
    simp [cuts]
  · refine .inr ⟨?_, h2⟩
    rw [h1]
    simp [cuts]

/-! ## Who may connect -/

def names (n : Node) : List Bytes := n.peers.map (·.name)

/-- Things happen, but no connection is accepted. -/
def Ext (n n' : Node) : Prop := names n' = names n ∧ ∃ new, n'.log = n.log ++ new ∧ ∀ i id, .attached i id ∉ new

theorem ext_refl (n : Node) : Ext n n := ⟨rfl, [], by simp, by simp⟩

theorem ext_trans {a b c : Node} (h : Ext a b) (g : Ext b c) : Ext a c := by
  obtain ⟨h1, x, h2, h3⟩ := h
  obtain ⟨g1, y, g2, g3⟩ := g
  refine ⟨by rw [g1, h1], x ++ y, by rw [g2, h2, List.append_assoc], ?_⟩
  intro i id hm
  rcases List.mem_append.mp hm with hm | hm
  · exact h3 i id hm
  · exact g3 i id hm

theorem ext_add (n : Node) (e : Ev) (he : ∀ i id, e ≠ .attached i id) : Ext n (n.add e) := by
  refine ⟨rfl, [e], rfl, ?_⟩
  intro i id hm
  rw [List.mem_singleton] at hm
  exact he i id hm.symm

theorem ext_setPeer (n : Node) (i : Nat) (f : Peer → Peer) (hf : ∀ p, (f p).name = p.name) : Ext n (n.setPeer i f) := by
  refine ⟨?_, [], by simp [setPeer], by simp⟩
  unfold names setPeer
  dsimp only
  apply List.ext_getElem?
  intro j
  rw [List.getElem?_map, List.getElem?_map, List.getElem?_modify]
  cases n.peers[j]? with
  | none => rfl
  | some p =>
    show some _ = some _
    by_cases h : i = j
    · simp [h, hf]
    · simp [h]

theorem add_ext {a n : Node} (h : Ext a n) {e : Ev} (he : ∀ i id, e ≠ .attached i id) : Ext a (n.add e) :=
  ext_trans h (ext_add n e he)

theorem setPeer_ext {a n : Node} (h : Ext a n) {i : Nat} {f : Peer → Peer} (hf : ∀ p, (f p).name = p.name) :
    Ext a (n.setPeer i f) :=
  ext_trans h (ext_setPeer n i f hf)

theorem setSock_ext {a n : Node} (h : Ext a n) {i : Nat} {t : Option Sk} : Ext a (n.setSock i t) := by
  unfold setSock
  exact setPeer_ext h (fun _ => rfl)

theorem shutdown_ext {a n : Node} (h : Ext a n) {i : Nat} : Ext a (n.shutdown i) := by
  unfold shutdown
  exact setPeer_ext h (fun _ => rfl)

theorem ext_shutdowns (is : List Nat) : ∀ n : Node, Ext n (is.foldl shutdown n) := by
  induction is with
  | nil => exact fun n => ext_refl n
  | cons k is ih => exact fun n => ext_trans (shutdown_ext (ext_refl n)) (ih _)

theorem ext_handle (w : World) (n : Node) (i : Nat) (raw : Bytes) (m : Msg) : Ext n (n.handle w i raw m) :=
  ext_trans (ext_add n (.message i raw m) (by simp)) (ext_shutdowns _ _)

theorem ext_pop (w : World) (i : Nat) : ∀ (k : Nat) (n : Node), Ext n (n.pop w k i).1
  | 0, n => ext_refl n
  | k + 1, n => by
    unfold pop
    split
    · exact ext_refl n
    · split
      · refine ext_trans ?_ (ext_pop w i k _)
        refine ext_trans ?_ (ext_handle ..)
        exact setSock_ext (ext_refl n)
      · exact ext_refl n
      · exact ext_refl n
      · split
        · exact ext_refl n
        · exact ⟨rfl, [], by simp, by simp⟩
      · exact ⟨rfl, [], by simp, by simp⟩

theorem ext_some100 (w : World) (r : Round) (i : Nat) (n : Node) : Ext n (n.some100 w r i) := by
  have h := ext_pop w i 100 n
  unfold some100
  dsimp only
  split
  · exact h
  · exact h

theorem ext_okay (w : World) (r : Round) (i : Nat) (n : Node) : Ext n (n.okay w r i) := by
  unfold okay
  dsimp only
  refine ext_trans ?_ (ext_some100 w r i _)
  split
  · refine add_ext (setPeer_ext (ext_refl n) ?_) ?_
    · exact fun _ => rfl
    · simp
  · exact ext_refl n

theorem ext_next (n : Node) (x : Nat) : Ext n { n with next := x } := ⟨rfl, [], by simp, by simp⟩

theorem ext_fresh (n : Node) (x : Nat) : Ext n { n with fresh := x } := ⟨rfl, [], by simp, by simp⟩

theorem ext_all (w : World) (i : Nat) (n : Node) : Ext n (n.all w i) := ext_pop w i _ n

theorem ext_peerOne (w : World) (r : Round) (i : Nat) (n : Node) : Ext n (n.peerOne w r i) := by
  unfold peerOne
  split
  · exact ext_refl n
  · split
    · exact ext_refl n
    · split
      · rename_i s₀ hs₀
        dsimp only
        generalize s₀.poll r.now (r.io s₀.id) = s
        have h0 : Ext n (n.setSock i (some s)) := setSock_ext (ext_refl n)
        generalize n.setSock i (some s) = n1 at *
        split
        · split
          · have h1 := ext_trans h0 (ext_all w i n1)
            split
            · exact h1
            · exact shutdown_ext (add_ext h1 (by simp))
          · exact ext_trans h0 (ext_okay w r i _)
        · split
          · have h1 : Ext n (n1.setPeer i (fun p => { p with nextReconnect := r.now + r.delay i })) :=
              setPeer_ext h0 (fun _ => rfl)
            have h2 := ext_trans h1 (ext_next _ (min n1.next (r.now + r.delay i)))
            generalize ({ n1.setPeer i (fun p => { p with nextReconnect := r.now + r.delay i }) with
              next := min n1.next (r.now + r.delay i) } : Node) = n2 at *
            have h3 := ext_trans h2 (ext_all w i n2)
            split
            · exact h3
            · refine add_ext (setPeer_ext h3 ?_) ?_
              · exact fun _ => rfl
              · simp
          · exact ext_trans h0 (ext_okay w r i _)
      · split
        · dsimp only
          have h0 : Ext n (n.setPeer i (fun p => { p with lastPing := 0 })) := setPeer_ext (ext_refl n) (fun _ => rfl)
          generalize n.setPeer i (fun p => { p with lastPing := 0 }) = n1 at *
          split
          · refine ext_trans ?_ (ext_some100 w r i _)
            have h1 := ext_trans h0 (ext_fresh n1 (n1.fresh + 1))
            exact add_ext (add_ext (add_ext (setSock_ext h1) (by simp)) (by simp)) (by simp)
          · refine ext_trans ?_ (ext_okay w r i _)
            exact setPeer_ext h0 (fun _ => rfl)
        · exact ext_trans (ext_next n _) (ext_okay w r i _)

theorem ext_peers (w : World) (r : Round) : ∀ (l : List Nat) (n : Node), Ext n (l.foldl (peerOne w r) n)
  | [], n => ext_refl n
  | i :: l, n => ext_trans (ext_peerOne w r i n) (ext_peers w r l _)

/-- Every connection accepted for a peer came with a LOGIN that named the peer. -/
def Announced (ns : List Bytes) (log : List Ev) : Prop :=
  ∀ a i id b, log = a ++ .attached i id :: b → ∃ raw m b', b = .login i :: .ping i :: .message i raw m :: b' ∧
    sIEquals m.methodLine (str "LOGIN") = true ∧ ns[i]? = some (m.table.get (str "Name"))

theorem announced_append {ns : List Bytes} {log new : List Ev} (h : Announced ns log) (g : Announced ns new) :
    Announced ns (log ++ new) := by
  intro a i id b e
  rcases List.append_eq_append_iff.mp e with ⟨x, h1, h2⟩ | ⟨x, h1, h2⟩
  · exact g x i id b h2
  · cases x with
    | nil => exact g [] i id b (by simpa using h2.symm)
    | cons y x =>
      injection h2 with h3 h4
      subst h3
      obtain ⟨raw, m, b', k1, k2, k3⟩ := h a i id x h1
      exact ⟨raw, m, b' ++ new, by rw [h4, k1]; simp, k2, k3⟩

theorem announced_plain {ns : List Bytes} {new : List Ev} (h : ∀ i id, .attached i id ∉ new) : Announced ns new := by
  intro a i id b e
  exact absurd (by rw [e]; simp) (h i id)

theorem announced_ext {ns : List Bytes} {n n' : Node} (hx : Ext n n') (h : Announced ns n.log) : Announced ns n'.log := by
  obtain ⟨_, new, h2, h3⟩ := hx
  rw [h2]
  exact announced_append h (announced_plain h3)

theorem announced_authOne (w : World) (r : Round) (n : Node) (s₀ : Sk) (h : Announced (names n) n.log) :
    names (n.authOne w r s₀) = names n ∧ Announced (names n) (n.authOne w r s₀).log := by
  have href : ∀ s, names (n.refuse s) = names n ∧ Announced (names n) (n.refuse s).log := by
    intro s
    have := ext_add n (.refused s.id) (by simp)
    exact ⟨this.1, announced_ext this h⟩
  unfold authOne
  split
  · exact ⟨rfl, h⟩
  · dsimp only
    generalize s₀.poll r.now (r.ioWaiting s₀.id) = s
    split
    · exact href s
    · split
      · rename_i k m hp
        split
        · rename_i hlogin
          split
          · rename_i i hi
            split
            · refine ⟨?_, ?_⟩
              · refine Eq.trans (ext_handle w _ i _ m).1 ?_
                exact (ext_setPeer n i (fun p => { p with sock := some { s with buf := s.buf.drop (k + 1) } }) (fun _ => rfl)).1
              · rw [log_handle]
                refine announced_append h ?_
                intro a i' id b e
                have : a = [] := by
                  cases a with
                  | nil => rfl
                  | cons x a =>
                    injection e with _ e
                    have : (.attached i' id : Ev) ∈ [.login i, .ping i, .message i (s.buf.take (k + 1)) m] := by rw [e]; simp
                    simp at this
                subst this
                injection e with e1 e2
                injection e1 with e3 e4
                subst e3
                refine ⟨_, m, [], e2.symm, hlogin, ?_⟩
                unfold byName at hi
                obtain ⟨hlt, hx⟩ := List.findIdx?_eq_some_iff_getElem.mp hi
                unfold names
                rw [List.getElem?_map, List.getElem?_eq_getElem hlt]
                simp only [Option.map_some]
                have := hx.1
                simp only [beq_iff_eq] at this
                rw [this]
            · exact href s
          · exact href s
        · exact href s
      · split
        · exact href s
        · exact ⟨rfl, h⟩
      · split
        · exact href s
        · exact ⟨rfl, h⟩
      · exact ⟨rfl, h⟩
      · exact ⟨rfl, h⟩

theorem announced_round (w : World) (n : Node) (r : Round) (h : Announced (names n) n.log) :
    names (n.round w r) = names n ∧ Announced (names n) (n.round w r).log := by
  have auths : ∀ (l : List Sk) (m : Node), Announced (names m) m.log →
      names (l.foldl (authOne w r) m) = names m ∧ Announced (names m) (l.foldl (authOne w r) m).log := by
    intro l
    induction l with
    | nil => exact fun m h => ⟨rfl, h⟩
    | cons s l ih =>
      intro m hm
      obtain ⟨h1, h2⟩ := announced_authOne w r m s hm
      have := ih (m.authOne w r s) (by rw [h1]; exact h2)
      rw [h1] at this
      exact this
  unfold round
  split
  · exact ⟨rfl, h⟩
  · dsimp only
    obtain ⟨h1, h2⟩ := auths (n.incoming r) { n with waiting := [], next := r.until_, fresh := n.fresh + r.accepted.length } h
    have h3 := ext_peers w r (List.range ((n.incoming r).foldl (authOne w r)
      { n with waiting := [], next := r.until_, fresh := n.fresh + r.accepted.length }).peers.length) ((n.incoming r).foldl (authOne w r)
      { n with waiting := [], next := r.until_, fresh := n.fresh + r.accepted.length })
    exact ⟨h3.1.trans h1, announced_ext h3 h2⟩

/-- C92.  A connection that was not opened by the node becomes the connection of a peer only with a LOGIN as its first
message that carries the configured name of the peer; LOGIN and PING are sent in answer before that message is handled. -/
theorem c92_announced (w : World) (ns : List Bytes) (rs : List Round) (a b : List Ev) (i id : Nat)
    (h : ((start ns).run w rs).log = a ++ .attached i id :: b) :
    ∃ raw m b', b = .login i :: .ping i :: .message i raw m :: b' ∧ sIEquals m.methodLine (str "LOGIN") = true ∧
      ns[i]? = some (m.table.get (str "Name")) := by
  have key : ∀ (l : List Round) (n : Node), Announced (names n) n.log → Announced (names n) (n.run w l).log := by
    intro l
    induction l with
    | nil => exact fun _ h => h
    | cons r l ih =>
      intro n hn
      obtain ⟨h1, h2⟩ := announced_round w n r hn
      have := ih (n.round w r) (by rw [h1]; exact h2)
      rw [h1] at this
      exact this
  have hs : names (start ns) = ns := by
    unfold names start
    dsimp only
    rw [List.map_map]
    exact List.map_id ns
  have := key rs (start ns) (announced_plain (by simp [start]))
  rw [hs] at this
  exact this a i id b h

/-! ## What a stranger can do -/

/-- A message whose length is no number. -/
def badLength : Bytes := str "X\r\nContent-Length: x\r\n\r\n"

/-- C92, limits: anybody who can reach the node port can end the process with one message. -/
theorem c92_stranger_kills (w : World) (n : Node) (r : Round) (hk : r.killed = false) (hw : n.waiting = [])
    (ha : r.accepted = [badLength]) (hio : r.ioWaiting n.fresh = {}) : (n.round w r).dead = true := by
  have hp : parse badLength = .throws := by decide +kernel
  unfold round
  split
  · rename_i h
    rcases h with h | h
    · exact h
    · rw [hk] at h; cases h
  · rename_i h
    have h0 : n.dead = false := by
      cases hd : n.dead with
      | false => rfl
      | true => exact absurd (.inl hd) h
    dsimp only
    have h1 : ((n.incoming r).foldl (authOne w r)
        { n with waiting := [], next := r.until_, fresh := n.fresh + r.accepted.length }).dead = true := by
      unfold incoming
      rw [hw, ha]
      simp only [List.nil_append, List.mapIdx_cons, List.mapIdx_nil, List.foldl_cons, List.foldl_nil, Nat.add_zero]
      unfold authOne
      dsimp only
      rw [h0]
      simp only [Bool.false_eq_true, if_false]
      have e : Sk.poll { id := n.fresh, state := .connected, buf := badLength, got := badLength, lastRecv := r.now } r.now
          (r.ioWaiting n.fresh) = { id := n.fresh, state := .connected, buf := badLength, got := badLength, lastRecv := r.now } := by
        rw [hio]
        simp [Sk.poll]
      rw [e]
      simp only [ne_eq, not_true_eq_false, if_false]
      rw [hp]
    have : ∀ (l : List Nat) (m : Node), m.dead = true → (l.foldl (peerOne w r) m).dead = true := by
      intro l
      induction l with
      | nil => exact fun _ h => h
      | cons i l ih =>
        intro m hm
        refine ih _ ?_
        unfold peerOne
        rw [hm]
        simp [hm]
    exact this _ _ h1

theorem parse_no_line (b : Bytes) (h : ∀ c ∈ b, isEol c = false) : parse b = .incomplete := by
  have drop : ∀ b : Bytes, (∀ c ∈ b, isEol c = false) → b.dropWhile (fun c => !isEol c) = [] := by
    intro b h
    induction b with
    | nil => rfl
    | cons c b ih =>
      rw [List.dropWhile_cons_of_pos (by simp [h c (by simp)])]
      exact ih (fun x hx => h x (by simp [hx]))
  unfold parse
  rw [Http.run]
  split
  · rfl
  · have hd := drop b h
    have : onInput b.length {} b = .stop .incomplete := by
      unfold onInput
      simp only [hd, if_true]
    split
    · rename_i r hr
      rw [this] at hr
      injection hr with hr
      exact hr.symm
    · rename_i st rest hr
      rw [this] at hr
      cases hr

/-- C92, limits: a connection that never announces itself stays as long as it sends a byte now and then; there is no limit
to the time, nor to the number of bytes kept. -/
theorem c92_trickle (w : World) (id : Nat) (rs : List Round) : ∀ (n : Node) (s : Sk), n.dead = false → n.peers = [] →
    n.waiting = [s] → s.id = id → s.state = .connected → (∀ c ∈ s.buf, c = 65) →
    (∀ r ∈ rs, r.killed = false ∧ r.accepted = [] ∧ r.ioWaiting id = { bytes := [65] }) →
    ∃ t, (n.run w rs).waiting = [t] ∧ t.id = id ∧ t.buf.length = s.buf.length + rs.length := by
  induction rs with
  | nil => intro n s _ _ hw hid _ _ _; exact ⟨s, hw, hid, rfl⟩
  | cons r rs ih =>
    intro n s hd hp hw hid hst hb hr
    obtain ⟨k1, k2, k3⟩ := hr r (by simp)
    have hpoll : s.poll r.now (r.ioWaiting s.id) =
        { s with buf := s.buf ++ [65], got := s.got ++ [65], lastRecv := r.now, state := .connected } := by
      rw [hid, k3]
      unfold Sk.poll
      rw [hst]
      simp [hid]
    have hbuf : ∀ c ∈ s.buf ++ [65], c = 65 := by
      intro c hc
      rcases List.mem_append.mp hc with h | h
      · exact hb c h
      · simpa using h
    have hparse : parse (s.buf ++ [65]) = .incomplete := parse_no_line _ (fun c hc => by rw [hbuf c hc]; rfl)
    have hround : n.round w r = { n with
        waiting := [{ s with buf := s.buf ++ [65], got := s.got ++ [65], lastRecv := r.now, state := .connected }]
        next := r.until_ } := by
      unfold round
      rw [if_neg (by rw [hd, k1]; simp)]
      unfold incoming
      rw [hw, k2]
      simp only [List.mapIdx_nil, List.append_nil, List.foldl_cons, List.foldl_nil, List.length_nil, Nat.add_zero]
      unfold authOne
      dsimp only
      rw [hd, hpoll]
      simp only [Bool.false_eq_true, if_false, ne_eq, not_true_eq_false]
      rw [hparse]
      dsimp only
      rw [if_neg (by omega), hp]
      simp
    have := ih (n.round w r) { s with buf := s.buf ++ [65], got := s.got ++ [65], lastRecv := r.now, state := .connected }
      (by rw [hround]; exact hd) (by rw [hround]; exact hp) (by rw [hround]) hid rfl hbuf (fun x hx => hr x (by simp [hx]))
    obtain ⟨t, h1, h2, h3⟩ := this
    refine ⟨t, h1, h2, ?_⟩
    rw [h3]
    simp only [List.length_append, List.length_cons, List.length_nil]
    omega

/-- A message whose length does not fit in 64 bits. -/
def bigLength : Bytes := str "X\r\nContent-Length: 99999999999999999999\r\n\r\n"

theorem parse_big (x : Bytes) : parse (bigLength ++ x) = .throws := by
  have key : ∀ (total : Nat) (st : St) (input : Bytes) (st' : St) (rest : Bytes), input ≠ [] →
      onInput total st input = .go st' rest → Http.run total st input = Http.run total st' rest := by
    intro total st input st' rest hne h
    rw [Http.run, if_neg hne]
    split
    · rename_i r hr; rw [h] at hr; cases hr
    · rename_i a b hr
      rw [h] at hr
      injection hr with h1 h2
      rw [h1, h2]
  have stop : ∀ (total : Nat) (st : St) (input : Bytes) (r : Parsed), input ≠ [] →
      onInput total st input = .stop r → Http.run total st input = r := by
    intro total st input r hne h
    rw [Http.run, if_neg hne]
    split
    · rename_i r' hr
      rw [h] at hr
      injection hr with hr
      exact hr.symm
    · rename_i a b hr
      rw [h] at hr
      cases hr
  unfold parse
  rw [key _ _ _ { methodLine := str "X" } (str "Content-Length: 99999999999999999999\r\n\r\n" ++ x) (by simp [bigLength, str]) ?_,
    key _ _ _ (headerLine { methodLine := str "X" } (str "Content-Length: 99999999999999999999")) (str "\r\n" ++ x)
      (by simp [str]) ?_,
    stop _ _ _ .throws (by simp [str]) ?_]
  · have h1 : (headerLine { methodLine := str "X" } (str "Content-Length: 99999999999999999999")).methodLine ≠ [] := by
      decide +kernel
    have h2 : (headerLine { methodLine := str "X" } (str "Content-Length: 99999999999999999999")).chunked = false := by
      decide +kernel
    have h3 : (headerLine { methodLine := str "X" } (str "Content-Length: 99999999999999999999")).table.find sTransferEncoding
        = none := by decide +kernel
    have h4 : (headerLine { methodLine := str "X" } (str "Content-Length: 99999999999999999999")).table.find sContentLength
        = some (str "99999999999999999999") := by decide +kernel
    have h5 : stoll (str "99999999999999999999") = none := by decide +kernel
    generalize headerLine { methodLine := str "X" } (str "Content-Length: 99999999999999999999") = st at *
    show onBlank _ st (str "\r\n" ++ x) = _
    unfold onBlank
    rw [if_neg h1, h2, h3]
    simp only [Bool.false_eq_true, if_false]
    unfold finish
    rw [h4]
    dsimp only
    rw [h5]
  · rfl
  · show onLine {} (str "X") (str "\r\nContent-Length: 99999999999999999999\r\n\r\n" ++ x)
      ((bigLength ++ x).length == (bigLength ++ x).length) = _
    unfold onLine
    rw [if_pos rfl, if_neg (by simp [str])]
    rfl

/-- C92, limits: a message of a peer with such a length blocks the connection: none of the messages after it is ever
handled, however many arrive, until the connection ends. -/
theorem c92_peer_blocked (w : World) (n : Node) (i : Nat) (s : Sk) (x : Bytes) (hs : n.sockOf i = some s)
    (hb : s.buf = bigLength ++ x) (rs : List Round) :
    ∃ new, (n.run w rs).log = n.log ++ new ∧
      ((∃ got, .disconnected i got ∈ new) ∨ ∀ raw m, .message i raw m ∉ new) := by
  have key := Star.inv (I := fun v => ∃ new, v.log = n.log ++ new ∧
      ((∃ got, .disconnected i got ∈ new) ∨
        ((∀ raw m, .message i raw m ∉ new) ∧ ∃ s x, v.sock i = some s ∧ s.buf = bigLength ++ x))) ?_ (run_star w rs n)
      ⟨[], by simp [view], .inr ⟨by simp, s, x, hs, hb⟩⟩
  · obtain ⟨new, h1, h2⟩ := key
    exact ⟨new, h1, h2.imp id (·.1)⟩
  · rintro u v hm ⟨new, hu, hc⟩
    -- events that are neither messages of the peer nor the end of its connection
    have more : ∀ (y : List Ev) (f : Nat → Option Sk), (∀ raw m, .message i raw m ∉ y) →
        (∀ t, u.sock i = some t → ∃ t', f i = some t' ∧ ∃ z, t'.buf = t.buf ++ z) →
        ((∃ got, .disconnected i got ∈ new ++ y) ∨
          ((∀ raw m, .message i raw m ∉ new ++ y) ∧ ∃ s x, f i = some s ∧ s.buf = bigLength ++ x)) := by
      intro y f hy hf
      rcases hc with ⟨got, hg⟩ | ⟨h1, s, x, h2, h3⟩
      · exact .inl ⟨got, List.mem_append.mpr (.inl hg)⟩
      · obtain ⟨t', g1, z, g2⟩ := hf s h2
        refine .inr ⟨?_, t', x ++ z, g1, by rw [g2, h3, List.append_assoc]⟩
        intro raw m hm
        rcases List.mem_append.mp hm with hm | hm
        · exact h1 raw m hm
        · exact hy raw m hm
    have same : ∀ t, u.sock i = some t → ∃ t', u.sock i = some t' ∧ ∃ z, t'.buf = t.buf ++ z :=
      fun t ht => ⟨t, ht, [], by simp⟩
    have ended : ∀ y : List Ev, (∃ got, .disconnected i got ∈ new) → ∃ got, .disconnected i got ∈ new ++ y :=
      fun y ⟨got, h⟩ => ⟨got, List.mem_append.mpr (.inl h)⟩
    cases hm with
    | touch f hg =>
      have := more [] f (by simp) (by
        intro t ht
        have := hg i
        rw [ht] at this
        cases hf : f i with
        | none => rw [hf] at this; exact this.elim
        | some t' =>
          rw [hf] at this
          obtain ⟨_, z, h, _⟩ := this
          exact ⟨t', rfl, z, h⟩)
      rw [List.append_nil] at this
      exact ⟨new, hu, this⟩
    | ping j hs => exact ⟨new ++ [.ping j], by dsimp only; rw [hu, List.append_assoc], more _ _ (by simp) same⟩
    | reconnect j hs => exact ⟨new ++ [.reconnect j], by dsimp only; rw [hu, List.append_assoc], more _ _ (by simp) same⟩
    | message j s' k m hs' hp =>
      refine ⟨new ++ [.message j (s'.buf.take (k + 1)) m], by dsimp only; rw [hu, List.append_assoc], ?_⟩
      by_cases hj : i = j
      · subst hj
        rcases hc with h | ⟨_, s, x, h2, h3⟩
        · exact .inl (ended _ h)
        · rw [hs'] at h2
          injection h2 with h2
          rw [h2, h3, parse_big] at hp
          cases hp
      · exact more _ _ (by simp [hj]) (fun t ht => ⟨t, by dsimp only; rw [upd_ne hj]; exact ht, [], by simp⟩)
    | attach j s₀ s' rest k m hn hpend hg hp =>
      refine ⟨new ++ [.attached j s'.id, .login j, .ping j, .message j (s'.buf.take (k + 1)) m],
        by dsimp only; rw [hu, List.append_assoc], ?_⟩
      by_cases hj : i = j
      · subst hj
        rcases hc with h | ⟨_, s, x, h2, _⟩
        · exact .inl (ended _ h)
        · rw [hn] at h2; cases h2
      · exact more _ _ (by simp [hj]) (fun t ht => ⟨t, by dsimp only; rw [upd_ne hj]; exact ht, [], by simp⟩)
    | opened j s' hn hid hb hg =>
      refine ⟨new ++ [.opened j u.fresh, .login j, .ping j], by dsimp only; rw [hu, List.append_assoc], ?_⟩
      by_cases hj : i = j
      · subst hj
        rcases hc with h | ⟨_, s, x, h2, _⟩
        · exact .inl (ended _ h)
        · rw [hn] at h2; cases h2
      · exact more _ _ (by simp) (fun t ht => ⟨t, by dsimp only; rw [upd_ne hj]; exact ht, [], by simp⟩)
    | disconnect j s' hs' hno =>
      refine ⟨new ++ [.disconnected j s'.got], by dsimp only; rw [hu, List.append_assoc], ?_⟩
      by_cases hj : i = j
      · subst hj; exact .inl ⟨s'.got, by simp⟩
      · exact more _ _ (by simp) (fun t ht => ⟨t, by dsimp only; rw [upd_ne hj]; exact ht, [], by simp⟩)
    | refuse s' rest hpend =>
      exact ⟨new ++ [.refused s'.id], by dsimp only; rw [hu, List.append_assoc], more _ _ (by simp) same⟩
    | drop s' rest hpend => exact ⟨new, hu, hc⟩
    | keep s₀ s' rest hpend hg => exact ⟨new, hu, hc⟩
    | accept new' hpend hgot hids => exact ⟨new, hu, hc⟩

/-! ## Examples -/

/-- Nothing is shut down by messages. -/
def calm : World := { react := fun _ _ _ => [], exc := fun b => if b.take bigLength.length = bigLength then .outOfRange else .other }

/-- A message without content. -/
def note (s : String) : Bytes := str s ++ str "\r\nContent-Length: 0\r\n\r\n"

def loginA : Bytes := str "LOGIN\r\nName: a\r\nContent-Length: 0\r\n\r\n"

/-- What happened, without the messages themselves. -/
def brief : Ev → String × Nat × Nat
  | .message i raw m => ("message", i, raw.length + m.content.length)
  | .opened i id => ("opened", i, id)
  | .attached i id => ("attached", i, id)
  | .login i => ("login", i, 0)
  | .ping i => ("ping", i, 0)
  | .reconnect i => ("reconnect", i, 0)
  | .disconnected i got => ("disconnected", i, got.length)
  | .refused id => ("refused", id, 0)

def day : Nat := 86400000000

/-- Two peers.  `a` connects and sends a message with its LOGIN, `b` is called; a second connection in the name of `a` is
refused.  Then `a` sends half a message and is silent: PING, RECONNECT, and at last the connection is gone. -/
def story : List Round :=
  [{ now := day, until_ := day + second, accepted := [loginA ++ note "X"], opens := fun _ => true },
   { now := day + second, until_ := day + 2 * second, accepted := [loginA],
     io := fun id => if id = 0 then { bytes := note "Y" ++ str "Z\r\n" } else { bytes := note "P" } },
   { now := day + 27 * second, until_ := day + 28 * second,
     io := fun id => if id = 1 then { bytes := note "Q" } else {} },
   { now := day + 32 * second, until_ := day + 33 * second },
   { now := day + 33 * second, until_ := day + 34 * second,
     io := fun id => if id = 0 then { state := .closed } else {}, delay := fun _ => 7 }]

example : (((start [str "a", str "b"]).run calm story).log.map brief,
    ((start [str "a", str "b"]).run calm story).dead, ((start [str "a", str "b"]).run calm story).next) =
  ([("attached", 0, 0), ("login", 0, 0), ("ping", 0, 0), ("message", 0, 37), ("message", 0, 24),
    ("opened", 1, 1), ("login", 1, 0), ("ping", 1, 0),
    ("refused", 2, 0), ("message", 0, 24), ("message", 1, 24),
    ("ping", 0, 0), ("message", 1, 24),
    ("reconnect", 0, 0),
    ("disconnected", 0, 88)], false, day + 33 * second + 7) := by decide +kernel

/-- A peer whose message claims a length that does not fit: what follows is not handled, and nobody notices. -/
def blocked : Node := (start [str "a"]).run calm
    [{ now := day, until_ := day + second, accepted := [loginA ++ bigLength ++ note "X"] },
     { now := day + second, until_ := day + 2 * second, io := fun _ => { bytes := note "Y" } }]

example : (blocked.log.map brief, blocked.dead, (blocked.sockOf 0).map (·.state)) =
      ([("attached", 0, 0), ("login", 0, 0), ("ping", 0, 0), ("message", 0, 37)], false, some .connected) := by
  decide +kernel

/-- While connections cannot be opened, one attempt a minute. -/
def alone : Node := (start [str "a"]).run calm
    [{ now := day, until_ := day + second }, { now := day + second, until_ := day + 2 * second }]

example : (alone.log, alone.peers.map (·.nextReconnect), alone.next) = ([], [day + 60 * second], day + 2 * second) := by decide +kernel

end Bedrock.Peers.Props
