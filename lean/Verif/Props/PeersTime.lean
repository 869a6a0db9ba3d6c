import Verif.Props.Peers

/-!
# C92: when connections between nodes are made, kept, tested and given up
-/

namespace Bedrock.Peers.Props
open Bedrock Bedrock.Text Bedrock.Http Bedrock.Peers Bedrock.Peers.Node
open Bedrock.Sockets (State)

/-! ## What handling messages leaves alone -/

def SockSoft : Option Sk → Option Sk → Prop
  | none, none => True
  | some s, some t => t.id = s.id ∧ t.lastRecv = s.lastRecv ∧ (t.state = s.state ∨ t.state = .shuttingDown)
  | _, _ => False

structure Soft (p q : Peer) : Prop where
  name : q.name = p.name
  reconnect : q.nextReconnect = p.nextReconnect
  ping : q.lastPing = p.lastPing
  sock : SockSoft p.sock q.sock

/-- Only messages of peer `i` are taken, and sockets shut down. -/
structure Frame (i : Nat) (n n' : Node) : Prop where
  len : n'.peers.length = n.peers.length
  peer : ∀ (j : Nat) (p : Peer), n.peers[j]? = some p → ∃ q, n'.peers[j]? = some q ∧ Soft p q ∧
    (j ≠ i → q.sock.map (·.buf) = p.sock.map (·.buf))
  next : n'.next = n.next
  waiting : n'.waiting = n.waiting

theorem sockSoft_refl (o : Option Sk) : SockSoft o o := by
  cases o with
  | none => trivial
  | some s => exact ⟨rfl, rfl, .inl rfl⟩

theorem sockSoft_trans {a b c : Option Sk} (h : SockSoft a b) (g : SockSoft b c) : SockSoft a c := by
  cases a with
  | none =>
    cases b with
    | none => exact g
    | some _ => exact h.elim
  | some x =>
    cases b with
    | none => exact h.elim
    | some y =>
      cases c with
      | none => exact g.elim
      | some z =>
        obtain ⟨h1, h2, h3⟩ := h
        obtain ⟨g1, g2, g3⟩ := g
        refine ⟨by rw [g1, h1], by rw [g2, h2], ?_⟩
        rcases g3 with g3 | g3
        · rw [g3]; exact h3
        · exact .inr g3

theorem soft_refl (p : Peer) : Soft p p := ⟨rfl, rfl, rfl, sockSoft_refl _⟩

theorem soft_trans {p q r : Peer} (h : Soft p q) (g : Soft q r) : Soft p r :=
  ⟨by rw [g.name, h.name], by rw [g.reconnect, h.reconnect], by rw [g.ping, h.ping], sockSoft_trans h.sock g.sock⟩

theorem frame_refl (i : Nat) (n : Node) : Frame i n n := ⟨rfl, fun _ p hp => ⟨p, hp, soft_refl p, fun _ => rfl⟩, rfl, rfl⟩

theorem frame_trans {i : Nat} {a b c : Node} (h : Frame i a b) (g : Frame i b c) : Frame i a c := by
  refine ⟨by rw [g.len, h.len], ?_, by rw [g.next, h.next], by rw [g.waiting, h.waiting]⟩
  intro j p hp
  obtain ⟨q, h1, h2, h3⟩ := h.peer j p hp
  obtain ⟨r, g1, g2, g3⟩ := g.peer j q h1
  exact ⟨r, g1, soft_trans h2 g2, fun hj => by rw [g3 hj, h3 hj]⟩

theorem frame_add (i : Nat) (n : Node) (e : Ev) : Frame i n (n.add e) :=
  ⟨rfl, fun _ p hp => ⟨p, hp, soft_refl p, fun _ => rfl⟩, rfl, rfl⟩

theorem frame_dead (i : Nat) (n : Node) : Frame i n { n with dead := true } :=
  ⟨rfl, fun _ p hp => ⟨p, hp, soft_refl p, fun _ => rfl⟩, rfl, rfl⟩

theorem frame_setPeer (i k : Nat) (n : Node) (f : Peer → Peer) (hs : ∀ p, n.peers[k]? = some p → Soft p (f p))
    (hb : k ≠ i → ∀ p, (f p).sock.map (·.buf) = p.sock.map (·.buf)) : Frame i n (n.setPeer k f) := by
  refine ⟨by simp [setPeer], ?_, rfl, rfl⟩
  intro j p hp
  unfold setPeer
  dsimp only
  rw [List.getElem?_modify, hp]
  by_cases hk : k = j
  · subst hk
    simp only [if_true]
    exact ⟨f p, rfl, hs p hp, fun hj => hb hj p⟩
  · simp only [if_neg hk]
    exact ⟨p, rfl, soft_refl p, fun _ => rfl⟩

theorem frame_shutdown (i k : Nat) (n : Node) : Frame i n (n.shutdown k) := by
  refine frame_setPeer i k n _ ?_ ?_
  · intro p _
    refine ⟨rfl, rfl, rfl, ?_⟩
    dsimp only
    cases p.sock with
    | none => trivial
    | some s => exact ⟨rfl, rfl, .inr rfl⟩
  · intro _ p
    dsimp only
    cases p.sock <;> rfl

theorem frame_shutdowns (i : Nat) (is : List Nat) : ∀ n : Node, Frame i n (is.foldl shutdown n) := by
  induction is with
  | nil => exact fun n => frame_refl i n
  | cons k is ih => exact fun n => frame_trans (frame_shutdown i k n) (ih _)

theorem dead_shutdowns (is : List Nat) : ∀ n : Node, (is.foldl shutdown n).dead = n.dead := by
  induction is with
  | nil => exact fun _ => rfl
  | cons k is ih => exact fun n => ih _

theorem dead_handle (w : World) (n : Node) (i : Nat) (raw : Bytes) (m : Msg) : (n.handle w i raw m).dead = n.dead :=
  dead_shutdowns _ _

theorem frame_handle (w : World) (n : Node) (i : Nat) (raw : Bytes) (m : Msg) (k : Nat) : Frame k n (n.handle w i raw m) :=
  frame_trans (frame_add k n _) (frame_shutdowns k _ _)

theorem frame_pop (w : World) (i : Nat) : ∀ (f : Nat) (n : Node), Frame i n (n.pop w f i).1
  | 0, n => frame_refl i n
  | f + 1, n => by
    unfold pop
    split
    · exact frame_refl i n
    · rename_i s hs
      split
      · rename_i k m hp
        refine frame_trans ?_ (frame_pop w i f _)
        refine frame_trans ?_ (frame_handle w _ i _ m i)
        refine frame_setPeer i i n _ ?_ (fun h => absurd rfl h)
        intro p hp1
        obtain ⟨p', g1, g2⟩ := peer_of_sock hs
        rw [g1] at hp1
        injection hp1 with e
        subst e
        refine ⟨rfl, rfl, rfl, ?_⟩
        dsimp only
        rw [g2]
        exact ⟨rfl, rfl, .inl rfl⟩
      · exact frame_refl i n
      · exact frame_refl i n
      · split
        · exact frame_refl i n
        · exact frame_dead i n
      · exact frame_dead i n

theorem frame_all (w : World) (i : Nat) (n : Node) : Frame i n (n.all w i) := frame_pop w i _ n

/-- When the loop ends before its limit, no complete message is left. -/
theorem pop_done (w : World) (i : Nat) : ∀ (f : Nat) (n : Node) (t : Sk), (n.pop w f i).2 = false →
    (n.pop w f i).1.dead = false → (n.pop w f i).1.sockOf i = some t → ∀ k m, parse t.buf ≠ .ok (k + 1) m
  | 0, n, t, h, _, _ => by cases h
  | f + 1, n, t, h, hd, ht => by
    unfold pop at h hd ht
    cases hs : n.sockOf i with
    | none =>
      rw [hs] at h hd ht
      dsimp only at ht
      rw [hs] at ht
      cases ht
    | some s =>
      rw [hs] at h hd ht
      dsimp only at h hd ht
      cases hp : parse s.buf with
      | ok k m =>
        rw [hp] at h hd ht
        cases k with
        | zero =>
          dsimp only at ht
          rw [hs] at ht
          injection ht with ht
          subst ht
          rw [hp]
          intro k m h; cases h
        | succ k => exact pop_done w i f _ t h hd ht
      | incomplete =>
        rw [hp] at ht
        dsimp only at ht
        rw [hs] at ht
        injection ht with ht
        subst ht
        rw [hp]
        intro k m h; cases h
      | throws =>
        rw [hp] at ht
        dsimp only at ht
        have ht' : n.sockOf i = some t := by split at ht <;> exact ht
        rw [hs] at ht'
        injection ht' with ht'
        subst ht'
        rw [hp]
        intro k m h; cases h
      | ub =>
        rw [hp] at hd
        cases hd

/-! ## Death -/

theorem pop_dead (w : World) (i : Nat) : ∀ (f : Nat) (n : Node), (n.pop w f i).1.dead = false → n.dead = false
  | 0, n, h => h
  | f + 1, n, h => by
    unfold pop at h
    split at h
    · exact h
    · split at h
      · have := pop_dead w i f _ h
        rw [dead_handle] at this
        exact this
      · exact h
      · exact h
      · split at h
        · exact h
        · cases h
      · cases h

theorem some100_dead {w : World} {r : Round} {n : Node} {i : Nat} (h : (n.some100 w r i).dead = false) : n.dead = false := by
  refine pop_dead w i 100 n ?_
  unfold some100 at h
  dsimp only at h
  split at h <;> exact h

theorem authOne_dead {w : World} {r : Round} {n : Node} {s : Sk} (h : (n.authOne w r s).dead = false) : n.dead = false := by
  cases hd : n.dead with
  | false => rfl
  | true => unfold authOne at h; rw [hd] at h; exact absurd h (by simp [hd])

theorem peerOne_dead {w : World} {r : Round} {n : Node} {i : Nat} (h : (n.peerOne w r i).dead = false) : n.dead = false := by
  cases hd : n.dead with
  | false => rfl
  | true => unfold peerOne at h; rw [hd] at h; exact absurd h (by simp [hd])

/-! ## One peer -/

/-- What holds of a peer when a round is over; `p₀` is the peer before, `A` that it got a connection since. -/
def Settled (A : Prop) (r : Round) (i : Nat) (next : Nat) (p₀ p : Peer) : Prop :=
  match p.sock with
  | some s =>
    s.state ≠ .closed ∧
    (s.state = .connected → r.now ≤ s.lastRecv + 30 * second) ∧
    (s.state ≠ .shuttingDown → s.lastRecv ≠ 0 → s.lastRecv + 25 * second < r.now → r.now ≤ p.lastPing + second) ∧
    ((∀ k m, parse s.buf ≠ .ok (k + 1) m) ∨ next ≤ r.now)
  | none =>
    (p₀.sock = none ∧ p.nextReconnect = p₀.nextReconnect ∧ r.now ≤ p.nextReconnect ∧ next ≤ p.nextReconnect) ∨
    ((p₀.sock ≠ none ∨ A) ∧ p.nextReconnect = r.now + r.delay i ∧ next ≤ p.nextReconnect) ∨
    (p₀.sock = none ∧ p₀.nextReconnect < r.now ∧ r.opens i = false ∧ p.nextReconnect = r.now + minute)

/-- What has been settled stays settled when the messages of another peer are handled. -/
theorem settled_soft {A : Prop} {r : Round} {i : Nat} {next next' : Nat} {p₀ p q : Peer} (h : Settled A r i next p₀ p) (hs : Soft p q)
    (hb : q.sock.map (·.buf) = p.sock.map (·.buf)) (hn : ∀ x, r.now ≤ x → next ≤ x → next' ≤ x) : Settled A r i next' p₀ q := by
  unfold Settled at h ⊢
  have hk := hs.sock
  cases hp : p.sock with
  | none =>
    cases hq : q.sock with
    | some t => rw [hp, hq] at hk; exact hk.elim
    | none =>
      rw [hp] at h
      dsimp only at h ⊢
      rw [hs.reconnect]
      rcases h with ⟨h1, h2, h3, h4⟩ | ⟨h0, h1, h2⟩ | h
      · exact .inl ⟨h1, h2, h3, hn _ h3 h4⟩
      · exact .inr (.inl ⟨h0, h1, hn _ (by omega) h2⟩)
      · exact .inr (.inr h)
  | some s =>
    cases hq : q.sock with
    | none => rw [hp, hq] at hk; exact hk.elim
    | some t =>
      rw [hp, hq] at hk
      rw [hp, hq] at hb
      rw [hp] at h
      dsimp only at h ⊢
      obtain ⟨_, k2, k3⟩ := hk
      obtain ⟨h1, h2, h3, h4⟩ := h
      simp only [Option.map_some, Option.some.injEq] at hb
      refine ⟨?_, ?_, ?_, ?_⟩
      · rcases k3 with k3 | k3
        · rw [k3]; exact h1
        · rw [k3]; simp
      · intro hc
        rw [k2]
        rcases k3 with k3 | k3
        · exact h2 (by rw [← k3]; exact hc)
        · rw [k3] at hc; cases hc
      · intro hc
        rw [k2, hs.ping]
        rcases k3 with k3 | k3
        · exact h3 (by rw [← k3]; exact hc)
        · exact absurd k3 hc
      · rw [hb]
        rcases h4 with h4 | h4
        · exact .inl h4
        · exact .inr (hn _ (Nat.le_refl _) h4)

theorem some100_frame (w : World) (r : Round) (n : Node) (i : Nat) :
    (n.some100 w r i).peers.length = n.peers.length ∧
    (∀ (j : Nat) (p : Peer), n.peers[j]? = some p → ∃ q, (n.some100 w r i).peers[j]? = some q ∧ Soft p q ∧
      (j ≠ i → q.sock.map (·.buf) = p.sock.map (·.buf))) ∧
    ((n.some100 w r i).next = n.next ∨ (n.some100 w r i).next = r.now) ∧
    (n.some100 w r i).waiting = n.waiting := by
  have h := frame_pop w i 100 n
  unfold some100
  dsimp only
  split
  · exact ⟨h.len, h.peer, .inr rfl, h.waiting⟩
  · exact ⟨h.len, h.peer, .inl h.next, h.waiting⟩

theorem some100_done {w : World} {r : Round} {n : Node} {i : Nat} {t : Sk} (hd : (n.some100 w r i).dead = false)
    (ht : (n.some100 w r i).sockOf i = some t) : (∀ k m, parse t.buf ≠ .ok (k + 1) m) ∨ (n.some100 w r i).next ≤ r.now := by
  unfold some100 at hd ht ⊢
  dsimp only at hd ht ⊢
  cases hx : (n.pop w 100 i).2 with
  | true => exact .inr (by simp)
  | false =>
    rw [hx] at hd ht
    simp only [Bool.false_eq_true, if_false] at hd ht
    exact .inl (pop_done w i 100 n t hx hd ht)

/-- The peers other than `i` are left alone but for shutdowns, and `next` moves only to an earlier time or to now. -/
structure Step (r : Round) (i : Nat) (n n' : Node) : Prop where
  len : n'.peers.length = n.peers.length
  others : ∀ (j : Nat) (p : Peer), j ≠ i → n.peers[j]? = some p → ∃ q, n'.peers[j]? = some q ∧ Soft p q ∧
    q.sock.map (·.buf) = p.sock.map (·.buf)
  next : ∀ x, r.now ≤ x → n.next ≤ x → n'.next ≤ x
  waiting : n'.waiting = n.waiting

theorem step_trans {r : Round} {i : Nat} {a b c : Node} (h : Step r i a b) (g : Step r i b c) : Step r i a c := by
  refine ⟨by rw [g.len, h.len], ?_, fun x hx hn => g.next x hx (h.next x hx hn), by rw [g.waiting, h.waiting]⟩
  intro j p hj hp
  obtain ⟨q, h1, h2, h3⟩ := h.others j p hj hp
  obtain ⟨u, g1, g2, g3⟩ := g.others j q hj h1
  exact ⟨u, g1, soft_trans h2 g2, by rw [g3, h3]⟩

theorem step_refl (r : Round) (i : Nat) (n : Node) : Step r i n n :=
  ⟨rfl, fun _ p _ hp => ⟨p, hp, soft_refl p, rfl⟩, fun _ _ h => h, rfl⟩

theorem step_of_frame {r : Round} {i : Nat} {n n' : Node} (h : Frame i n n') : Step r i n n' := by
  refine ⟨h.len, ?_, fun x _ hn => by rw [h.next]; exact hn, h.waiting⟩
  intro j p hj hp
  obtain ⟨q, h1, h2, h3⟩ := h.peer j p hp
  exact ⟨q, h1, h2, h3 hj⟩

theorem step_some100 (w : World) (r : Round) (i : Nat) (n : Node) : Step r i n (n.some100 w r i) := by
  obtain ⟨h1, h2, h3, h4⟩ := some100_frame w r n i
  refine ⟨h1, ?_, ?_, h4⟩
  · intro j p hj hp
    obtain ⟨q, g1, g2, g3⟩ := h2 j p hp
    exact ⟨q, g1, g2, g3 hj⟩
  · intro x hx hn
    rcases h3 with h3 | h3 <;> rw [h3] <;> assumption

theorem step_setPeer (r : Round) (i : Nat) (n : Node) (f : Peer → Peer) : Step r i n (n.setPeer i f) := by
  refine ⟨by simp [setPeer], ?_, fun _ _ h => h, rfl⟩
  intro j p hj hp
  unfold setPeer
  dsimp only
  rw [List.getElem?_modify, hp]
  have hj' : ¬ i = j := fun e => hj e.symm
  simp only [if_neg hj']
  exact ⟨p, rfl, soft_refl p, rfl⟩

theorem step_add (r : Round) (i : Nat) (n : Node) (e : Ev) : Step r i n (n.add e) := step_of_frame (frame_add i n e)

theorem step_okay (w : World) (r : Round) (i : Nat) (n : Node) : Step r i n (n.okay w r i) := by
  unfold okay
  dsimp only
  refine step_trans ?_ (step_some100 w r i _)
  split
  · exact step_trans (step_setPeer r i n _) (step_add r i _ _)
  · exact step_refl r i n

theorem step_peerOne (w : World) (r : Round) (i : Nat) (n : Node) : Step r i n (n.peerOne w r i) := by
  unfold peerOne
  split
  · exact step_refl r i n
  · split
    · exact step_refl r i n
    · rename_i p hp
      split
      · rename_i s₀ hs₀
        dsimp only
        refine step_trans (step_setPeer r i n (fun p => { p with sock := some (s₀.poll r.now (r.io s₀.id)) })) ?_
        split
        · split
          · refine step_trans (step_of_frame (frame_all w i _)) ?_
            split
            · exact step_refl r i _
            · exact step_trans (step_add r i _ _) (step_of_frame (frame_shutdown i i _))
          · exact step_okay w r i _
        · split
          · have h1 : Step r i (n.setSock i (some (s₀.poll r.now (r.io s₀.id))))
                { (n.setSock i (some (s₀.poll r.now (r.io s₀.id)))).setPeer i
                    (fun p => { p with nextReconnect := r.now + r.delay i }) with
                  next := min (n.setSock i (some (s₀.poll r.now (r.io s₀.id)))).next (r.now + r.delay i) } := by
              have := step_setPeer r i (n.setSock i (some (s₀.poll r.now (r.io s₀.id))))
                (fun p => { p with nextReconnect := r.now + r.delay i })
              exact ⟨this.len, this.others, fun x _ h => Nat.le_trans (Nat.min_le_left _ _) h, this.waiting⟩
            refine step_trans h1 (step_trans (step_of_frame (frame_all w i _)) ?_)
            split
            · exact step_refl r i _
            · exact step_trans (step_setPeer r i _ _) (step_add r i _ _)
          · exact step_okay w r i _
      · split
        · dsimp only
          refine step_trans (step_setPeer r i n (fun p => { p with lastPing := 0 })) ?_
          split
          · refine step_trans ?_ (step_some100 w r i _)
            have := step_setPeer r i (n.setPeer i (fun p => { p with lastPing := 0 }))
              (fun p => { p with sock := some { id := (n.setPeer i (fun p => { p with lastPing := 0 })).fresh, state := .connecting, lastRecv := r.now } })
            exact ⟨this.len, this.others, this.next, this.waiting⟩
          · exact step_trans (step_setPeer r i _ _) (step_okay w r i _)
        · refine step_trans ?_ (step_okay w r i _)
          exact ⟨rfl, fun _ p _ hp => ⟨p, hp, soft_refl p, rfl⟩, fun x _ h => Nat.le_trans (Nat.min_le_left _ _) h, rfl⟩

theorem sockOf_eq {n : Node} {i : Nat} {p : Peer} (h : n.peers[i]? = some p) : n.sockOf i = p.sock := by
  unfold sockOf; rw [h]; rfl

theorem setPeer_at {n : Node} {i : Nat} {p : Peer} (h : n.peers[i]? = some p) (f : Peer → Peer) :
    (n.setPeer i f).peers[i]? = some (f p) := by
  unfold setPeer
  dsimp only
  rw [List.getElem?_modify, h]
  simp

/-- After `okay` on a socket that is open. -/
theorem okay_settled (w : World) (r : Round) (i : Nat) (n : Node) (p p₀ : Peer) (s : Sk) (hp : n.peers[i]? = some p)
    (hs : p.sock = some s) (h1 : s.state ≠ .closed) (h2 : s.state = .connected → r.now ≤ s.lastRecv + 30 * second)
    (hd : (n.okay w r i).dead = false) :
    ∃ q, (n.okay w r i).peers[i]? = some q ∧ Settled False r i (n.okay w r i).next p₀ q := by
  unfold okay at hd ⊢
  dsimp only at hd ⊢
  -- the peer after the PING
  have key : ∀ (n1 : Node) (p1 : Peer), n1.peers[i]? = some p1 → p1.sock = some s →
      (s.lastRecv ≠ 0 → s.lastRecv + 25 * second < r.now → r.now ≤ p1.lastPing + second) →
      (n1.some100 w r i).dead = false →
      ∃ q, (n1.some100 w r i).peers[i]? = some q ∧ Settled False r i (n1.some100 w r i).next p₀ q := by
    intro n1 p1 hp1 hs1 h3 hd1
    obtain ⟨_, g, _, _⟩ := some100_frame w r n1 i
    obtain ⟨q, g1, g2, _⟩ := g i p1 hp1
    refine ⟨q, g1, ?_⟩
    have hk := g2.sock
    rw [hs1] at hk
    unfold Settled
    cases hq : q.sock with
    | none => rw [hq] at hk; exact hk.elim
    | some t =>
      rw [hq] at hk
      obtain ⟨_, k2, k3⟩ := hk
      dsimp only
      refine ⟨?_, ?_, ?_, some100_done hd1 (by rw [sockOf_eq g1, hq])⟩
      · rcases k3 with k3 | k3
        · rw [k3]; exact h1
        · rw [k3]; simp
      · intro hc
        rw [k2]
        rcases k3 with k3 | k3
        · exact h2 (by rw [← k3]; exact hc)
        · rw [k3] at hc; cases hc
      · intro _
        rw [k2, g2.ping]
        exact h3
  rw [sockOf_eq hp, hs, hp] at hd ⊢
  by_cases hping : ((some s).elim 0 (·.lastRecv)) ≠ 0 ∧
      recvTimeout - 5 * second < r.now - ((some s).elim 0 (·.lastRecv)) ∧ ((some p).elim 0 (·.lastPing)) + second < r.now
  · rw [if_pos hping] at hd ⊢
    refine key _ { p with lastPing := r.now } (setPeer_at hp _) hs ?_ hd
    intro _ _
    show r.now ≤ r.now + second
    omega
  · rw [if_neg hping] at hd ⊢
    refine key n p hp hs ?_ hd
    intro g1 g2
    rcases Nat.lt_or_ge (p.lastPing + second) r.now with h | h
    · exfalso
      refine hping ⟨g1, ?_, h⟩
      have : recvTimeout - 5 * second = 25 * second := by decide
      show recvTimeout - 5 * second < r.now - s.lastRecv
      omega
    · exact h

/-- `okay` without a socket only reads the time of the last PING. -/
theorem okay_none (w : World) (r : Round) (i : Nat) (n : Node) (p : Peer) (hp : n.peers[i]? = some p) (hs : p.sock = none) :
    n.okay w r i = n := by
  have h0 : n.sockOf i = none := by rw [sockOf_eq hp]; exact hs
  unfold okay
  dsimp only
  rw [h0]
  simp only [Option.elim_none, ne_eq, not_true_eq_false, false_and, if_false]
  unfold some100
  dsimp only
  have : n.pop w 100 i = (n, false) := by
    unfold pop
    rw [h0]
  rw [this]
  rfl

/-- One peer after its turn. -/
theorem peerOne_settled (w : World) (r : Round) (i : Nat) (n : Node) (p : Peer) (hp : n.peers[i]? = some p)
    (hd : (n.peerOne w r i).dead = false) :
    ∃ q, (n.peerOne w r i).peers[i]? = some q ∧ Settled False r i (n.peerOne w r i).next p q := by
  have hd0 : n.dead = false := peerOne_dead hd
  unfold peerOne at hd ⊢
  rw [hd0, hp] at hd ⊢
  simp only [Bool.false_eq_true, if_false] at hd ⊢
  cases hs₀ : p.sock with
  | some s₀ =>
    rw [hs₀] at hd
    dsimp only at hd ⊢
    generalize hsp : s₀.poll r.now (r.io s₀.id) = s at hd ⊢
    have hp1 : (n.setSock i (some s)).peers[i]? = some { p with sock := some s } := setPeer_at hp _
    split
    · rename_i hc
      rw [if_pos hc] at hd
      split
      · rename_i ht
        rw [if_pos ht] at hd
        split
        · rename_i hdd
          rw [if_pos hdd] at hd
          rw [hd] at hdd
          cases hdd
        · rename_i hdd
          -- RECONNECT
          obtain ⟨q, g1, g2, _⟩ := (frame_all w i (n.setSock i (some s))).peer i _ hp1
          have hk := g2.sock
          cases hq : q.sock with
          | none => rw [hq] at hk; exact hk.elim
          | some t =>
            have hso : (n.setSock i (some s)).sockOf i = some s := by rw [sockOf_eq hp1]
            refine ⟨{ q with sock := some { t with state := .shuttingDown } }, ?_, ?_⟩
            · have := setPeer_at (n := ((n.setSock i (some s)).all w i).add (.reconnect i)) g1
                (fun p => { p with sock := p.sock.map (fun s => { s with state := .shuttingDown }) })
              rw [hq] at this
              exact this
            · unfold Settled
              dsimp only
              refine ⟨by simp, fun h => (by cases h), fun h => absurd rfl h, .inl ?_⟩
              obtain ⟨u, k1, _, _, k4⟩ := pop_drained w i _ (n.setSock i (some s)) s hso (Nat.lt_succ_self _)
                (by simp only [all, hso] at hdd; exact Bool.eq_false_iff.mpr hdd)
              have : ((n.setSock i (some s)).all w i).sockOf i = some u := by unfold all; rw [hso]; exact k1
              rw [sockOf_eq g1, hq] at this
              injection this with this
              rw [this]
              exact k4
      · rename_i ht
        rw [if_neg ht] at hd
        exact okay_settled w r i _ _ p s hp1 rfl (by rw [hc]; simp) (fun _ => by
          have : recvTimeout = 30 * second := rfl
          omega) hd
    · rename_i hc
      rw [if_neg hc] at hd
      split
      · rename_i hcl
        rw [if_pos hcl] at hd
        split
        · rename_i hdd
          rw [if_pos hdd] at hd
          rw [hd] at hdd
          cases hdd
        · have hp2 := setPeer_at hp1 (fun p => { p with nextReconnect := r.now + r.delay i })
          have hfr := frame_all w i ({ (n.setSock i (some s)).setPeer i (fun p => { p with nextReconnect := r.now + r.delay i }) with
            next := min (n.setSock i (some s)).next (r.now + r.delay i) } : Node)
          obtain ⟨q, g1, g2, _⟩ := hfr.peer i _ hp2
          refine ⟨{ q with sock := none, lastPing := 0 }, setPeer_at g1 _, ?_⟩
          unfold Settled
          dsimp only
          refine .inr (.inl ⟨.inl (by rw [hs₀]; simp), g2.reconnect, ?_⟩)
          rw [g2.reconnect]
          show (Node.all _ _ _).next ≤ _
          rw [hfr.next]
          exact Nat.min_le_right _ _
      · rename_i hcl
        rw [if_neg hcl] at hd
        exact okay_settled w r i _ _ p s hp1 rfl hcl (fun h => absurd h hc) hd
  | none =>
    rw [hs₀] at hd
    dsimp only at hd ⊢
    split
    · rename_i hr
      rw [if_pos hr] at hd
      have hp1 := setPeer_at hp (fun p => { p with lastPing := 0 })
      split
      · rename_i ho
        rw [if_pos ho] at hd
        generalize hn1 : (((({ n.setPeer i (fun p => { p with lastPing := 0 }) with
            fresh := (n.setPeer i (fun p => { p with lastPing := 0 })).fresh + 1 } : Node).setSock i
          (some { id := (n.setPeer i (fun p => { p with lastPing := 0 })).fresh, state := .connecting, lastRecv := r.now })).add
            (.opened i (n.setPeer i (fun p => { p with lastPing := 0 })).fresh)).add (.login i)).add (.ping i) = n1 at hd ⊢
        have hp2 : n1.peers[i]? = some { p with lastPing := 0, sock := some { id := (n.setPeer i (fun p => { p with lastPing := 0 })).fresh, state := .connecting, lastRecv := r.now } } := by
          rw [← hn1]
          exact setPeer_at (n := { n.setPeer i (fun p => { p with lastPing := 0 }) with
            fresh := (n.setPeer i (fun p => { p with lastPing := 0 })).fresh + 1 }) hp1 _
        obtain ⟨_, g, _, _⟩ := some100_frame w r n1 i
        obtain ⟨q, g1, g2, _⟩ := g i _ hp2
        refine ⟨q, g1, ?_⟩
        have hk := g2.sock
        unfold Settled
        cases hq : q.sock with
        | none => rw [hq] at hk; exact hk.elim
        | some t =>
          rw [hq] at hk
          obtain ⟨_, k2, k3⟩ := hk
          dsimp only at k2 k3 ⊢
          refine ⟨?_, ?_, ?_, some100_done hd (by rw [sockOf_eq g1, hq])⟩
          · rcases k3 with k3 | k3 <;> rw [k3] <;> simp
          · intro _; rw [k2]; omega
          · intro _ _ h; rw [k2] at h; omega
      · rename_i ho
        rw [if_neg ho] at hd
        have hp2 := setPeer_at hp1 (fun p => { p with nextReconnect := r.now + minute })
        rw [okay_none w r i _ _ hp2 (by exact hs₀)]
        refine ⟨_, hp2, ?_⟩
        unfold Settled
        dsimp only
        rw [hs₀]
        exact .inr (.inr ⟨rfl, hr, by simpa using ho, rfl⟩)
    · rename_i hr
      rw [okay_none w r i _ p (by exact hp) hs₀]
      refine ⟨p, hp, ?_⟩
      unfold Settled
      rw [hs₀]
      dsimp only
      exact .inl ⟨rfl, rfl, by omega, Nat.min_le_right _ _⟩

/-- The loop over the peers. -/
theorem peers_settled (w : World) (r : Round) (n₀ : Node) : ∀ (k : Nat),
    k ≤ n₀.peers.length → ((List.range k).foldl (peerOne w r) n₀).dead = false →
    let n := (List.range k).foldl (peerOne w r) n₀
    n.peers.length = n₀.peers.length ∧ n.waiting = n₀.waiting ∧
    (∀ (j : Nat) (p : Peer), k ≤ j → n₀.peers[j]? = some p → ∃ q, n.peers[j]? = some q ∧ Soft p q) ∧
    (∀ (j : Nat) (p : Peer), j < k → n₀.peers[j]? = some p → ∃ q, n.peers[j]? = some q ∧ Settled False r j n.next p q)
  | 0, _, _ => ⟨rfl, rfl, fun _ p _ hp => ⟨p, hp, soft_refl p⟩, fun _ _ h => absurd h (Nat.not_lt_zero _)⟩
  | k + 1, hk, hd => by
    rw [List.range_succ, List.foldl_append] at hd ⊢
    simp only [List.foldl_cons, List.foldl_nil] at hd ⊢
    have hd' := peerOne_dead hd
    obtain ⟨h1, h2, h3, h4⟩ := peers_settled w r n₀ k (by omega) hd'
    generalize (List.range k).foldl (peerOne w r) n₀ = n at *
    have hst := step_peerOne w r k n
    refine ⟨by rw [hst.len, h1], by rw [hst.waiting, h2], ?_, ?_⟩
    · intro j p hj hp
      obtain ⟨q, g1, g2⟩ := h3 j p (by omega) hp
      obtain ⟨u, k1, k2, _⟩ := hst.others j q (by omega) g1
      exact ⟨u, k1, soft_trans g2 k2⟩
    · intro j p hj hp
      by_cases hjk : j = k
      · subst hjk
        obtain ⟨q, g1, g2⟩ := h3 j p (Nat.le_refl _) hp
        obtain ⟨u, k1, k2⟩ := peerOne_settled w r j n q g1 hd
        refine ⟨u, k1, ?_⟩
        -- the peer before its turn and the peer before the round
        unfold Settled at k2 ⊢
        cases hu : u.sock with
        | some s => rw [hu] at k2; exact k2
        | none =>
          rw [hu] at k2
          dsimp only at k2 ⊢
          have hqp : q.sock = none → p.sock = none := by
            intro hq
            have := g2.sock
            rw [hq] at this
            cases hps : p.sock with
            | none => rfl
            | some s => rw [hps] at this; exact this.elim
          have hpq : p.sock = none → q.sock = none := by
            intro hp
            have := g2.sock
            rw [hp] at this
            cases hqs : q.sock with
            | none => rfl
            | some s => rw [hqs] at this; exact this.elim
          rcases k2 with ⟨a1, a2, a3⟩ | ⟨a1, a2⟩ | ⟨a1, a2, a3⟩
          · exact .inl ⟨hqp a1, by rw [a2, g2.reconnect], a3⟩
          · exact .inr (.inl ⟨a1.imp (fun h e => h (hpq e)) id, a2⟩)
          · exact .inr (.inr ⟨hqp a1, by rw [← g2.reconnect]; exact a2, a3⟩)
      · obtain ⟨q, g1, g2⟩ := h4 j p (by omega) hp
        obtain ⟨u, k1, k2, k3⟩ := hst.others j q hjk g1
        exact ⟨u, k1, settled_soft g2 k2 k3 hst.next⟩

/-! ## Connections on the node port -/

/-- What holds of a connection that goes on waiting. -/
def Waits (r : Round) (s : Sk) : Prop :=
  s.state = .connected ∧ r.now ≤ s.lastRecv + 5 * second ∧ ∀ k m, parse s.buf ≠ .ok (k + 1) m

/-- Each peer keeps its name and times, loses no connection, and gets one only with an event. -/
def Kept (n n' : Node) : Prop := ∀ (j : Nat) (p : Peer), n.peers[j]? = some p → ∃ q : Peer, n'.peers[j]? = some q ∧
  q.nextReconnect = p.nextReconnect ∧ q.lastPing = p.lastPing ∧ q.name = p.name ∧ (q.sock = none → p.sock = none) ∧
  (q.sock ≠ none → p.sock ≠ none ∨ ∃ id new, n'.log = n.log ++ new ∧ .attached j id ∈ new)

theorem log_shutdowns (is : List Nat) : ∀ n : Node, (is.foldl shutdown n).log = n.log := by
  induction is with
  | nil => exact fun _ => rfl
  | cons k is ih => exact fun n => ih _

theorem log_handle (w : World) (n : Node) (i : Nat) (raw : Bytes) (m : Msg) (s : Sk) (t : Option Sk) :
    (handle w ((((n.setSock i t).add (.attached i s.id)).add (.login i)).add (.ping i)) i raw m).log
      = n.log ++ [.attached i s.id, .login i, .ping i, .message i raw m] := by
  unfold handle
  rw [log_shutdowns]
  show ((((n.log ++ _) ++ _) ++ _) ++ _) = _
  simp

/-- What happened stays. -/
theorem star_log {a b : View} (h : Star a b) : ∃ new, b.log = a.log ++ new := by
  refine Star.inv (I := fun v => ∃ new, v.log = a.log ++ new) ?_ h ⟨[], by simp⟩
  rintro u v hm ⟨new, hu⟩
  cases hm <;> first
    | exact ⟨new, hu⟩
    | (dsimp only; rw [hu, List.append_assoc]; exact ⟨_, rfl⟩)

theorem authOne_spec (w : World) (r : Round) (n : Node) (s₀ : Sk) (hd : (n.authOne w r s₀).dead = false) :
    (n.authOne w r s₀).peers.length = n.peers.length ∧ (n.authOne w r s₀).next = n.next ∧
    Kept n (n.authOne w r s₀) ∧
    ((∀ s ∈ n.waiting, Waits r s) → ∀ s ∈ (n.authOne w r s₀).waiting, Waits r s) := by
  have hd0 : n.dead = false := authOne_dead hd
  have sameK : Kept n n := fun _ p hp => ⟨p, hp, rfl, rfl, rfl, id, .inl⟩
  have same : ∀ s, (n.refuse s).peers.length = n.peers.length ∧ (n.refuse s).next = n.next ∧ Kept n (n.refuse s) ∧
    ((∀ s ∈ n.waiting, Waits r s) → ∀ x ∈ (n.refuse s).waiting, Waits r x) :=
    fun _ => ⟨rfl, rfl, fun _ p hp => ⟨p, hp, rfl, rfl, rfl, id, .inl⟩, id⟩
  unfold authOne at hd ⊢
  rw [hd0] at hd ⊢
  simp only [Bool.false_eq_true, if_false] at hd ⊢
  generalize hsp : s₀.poll r.now (r.ioWaiting s₀.id) = s at hd ⊢
  have keep : s.state = .connected → (∀ k m, parse s.buf ≠ .ok (k + 1) m) → ¬ (s.lastRecv + 5 * second < r.now) →
    n.peers.length = n.peers.length ∧ n.next = n.next ∧
    Kept n n ∧
    ((∀ s ∈ n.waiting, Waits r s) → ∀ x ∈ n.waiting ++ [s], Waits r x) := by
    intro h1 h2 h3
    refine ⟨rfl, rfl, sameK, ?_⟩
    intro h x hx
    rcases List.mem_append.mp hx with hx | hx
    · exact h x hx
    · rw [List.mem_singleton] at hx
      subst hx
      exact ⟨h1, by omega, h2⟩
  split
  · exact same s
  · rename_i hc
    have hc : s.state = .connected := Classical.not_not.mp hc
    simp only [hc, ne_eq, not_true_eq_false, if_false] at hd
    cases hp : parse s.buf with
    | ok k m =>
      cases k with
      | zero =>
        dsimp only
        split
        · exact same s
        · rename_i ht; exact keep hc (by rw [hp]; intro k m h; cases h) ht
      | succ k =>
        dsimp only
        split
        · split
          · rename_i i hi
            split
            · have hfr := frame_handle w ((((n.setSock i (some { s with buf := s.buf.drop (k + 1) })).add
                (.attached i s.id)).add (.login i)).add (.ping i)) i (s.buf.take (k + 1)) m i
              refine ⟨by rw [hfr.len]; simp [add, setSock, setPeer], hfr.next, ?_, ?_⟩
              · intro j p hpj
                by_cases hij : i = j
                · subst hij
                  have := setPeer_at hpj (fun p => { p with sock := some { s with buf := s.buf.drop (k + 1) } })
                  obtain ⟨q, g1, g2, _⟩ := hfr.peer i _ this
                  refine ⟨q, g1, g2.reconnect, g2.ping, g2.name, ?_, ?_⟩
                  · intro hq
                    have := g2.sock
                    rw [hq] at this
                    exact this.elim
                  · intro _
                    exact .inr ⟨s.id, [.attached i s.id, .login i, .ping i, .message i (s.buf.take (k + 1)) m],
                      log_handle .., by simp⟩
                · have : (n.setSock i (some { s with buf := s.buf.drop (k + 1) })).peers[j]? = some p := by
                    unfold setSock setPeer
                    dsimp only
                    rw [List.getElem?_modify, hpj]
                    simp [hij]
                  obtain ⟨q, g1, g2, _⟩ := hfr.peer j _ this
                  refine ⟨q, g1, g2.reconnect, g2.ping, g2.name, ?_, ?_⟩
                  · intro hq
                    have := g2.sock
                    rw [hq] at this
                    cases hps : p.sock with
                    | none => rfl
                    | some s => rw [hps] at this; exact this.elim
                  · intro hq
                    refine .inl (fun hps => ?_)
                    have := g2.sock
                    rw [hps] at this
                    cases hqs : q.sock with
                    | none => exact hq hqs
                    | some s => rw [hqs] at this; exact this.elim
              · intro h x hx
                rw [hfr.waiting] at hx
                exact h x hx
            · exact same s
          · exact same s
        · exact same s
    | incomplete =>
      dsimp only
      split
      · exact same s
      · rename_i ht; exact keep hc (by rw [hp]; intro k m h; cases h) ht
    | throws => rw [hp] at hd; cases hd
    | ub => rw [hp] at hd; cases hd

theorem auths_spec (w : World) (r : Round) : ∀ (l : List Sk) (n : Node), (l.foldl (authOne w r) n).dead = false →
    (l.foldl (authOne w r) n).peers.length = n.peers.length ∧ (l.foldl (authOne w r) n).next = n.next ∧
    Kept n (l.foldl (authOne w r) n) ∧
    ((∀ s ∈ n.waiting, Waits r s) → ∀ s ∈ (l.foldl (authOne w r) n).waiting, Waits r s)
  | [], n, _ => ⟨rfl, rfl, fun _ p hp => ⟨p, hp, rfl, rfl, rfl, id, .inl⟩, id⟩
  | s :: l, n, hd => by
    rw [List.foldl_cons] at hd ⊢
    have hd1 : (n.authOne w r s).dead = false := by
      have : ∀ (l : List Sk) (n : Node), (l.foldl (authOne w r) n).dead = false → n.dead = false := by
        intro l
        induction l with
        | nil => exact fun _ h => h
        | cons s l ih => exact fun n h => authOne_dead (ih _ h)
      exact this l _ hd
    obtain ⟨h1, h2, h3, h4⟩ := authOne_spec w r n s hd1
    obtain ⟨g1, g2, g3, g4⟩ := auths_spec w r l _ hd
    refine ⟨by rw [g1, h1], by rw [g2, h2], ?_, fun h => g4 (h4 h)⟩
    intro j p hp
    obtain ⟨q, a1, a2, a3, a4, a5, a6⟩ := h3 j p hp
    obtain ⟨u, b1, b2, b3, b4, b5, b6⟩ := g3 j q a1
    refine ⟨u, b1, by rw [b2, a2], by rw [b3, a3], by rw [b4, a4], fun h => a5 (b5 h), fun h => ?_⟩
    obtain ⟨new1, e1⟩ : ∃ new, (n.authOne w r s).log = n.log ++ new := star_log (authOne_star w r n s l)
    obtain ⟨new2, e2⟩ : ∃ new, (l.foldl (authOne w r) (n.authOne w r s)).log = (n.authOne w r s).log ++ new :=
      star_log (auths_star w r l _)
    rcases b6 h with h | ⟨id, new, e, hm⟩
    · rcases a6 h with h | ⟨id, new, e, hm⟩
      · exact .inl h
      · exact .inr ⟨id, new ++ new2, by rw [e2, e, List.append_assoc], List.mem_append.mpr (.inl hm)⟩
    · exact .inr ⟨id, new1 ++ new, by rw [e, e1, List.append_assoc], List.mem_append.mpr (.inr hm)⟩

/-- A peer that has a connection after some steps, and had none before, got it in between. -/
theorem star_connected {a b : View} (i : Nat) (h : Star a b) : ∃ new, b.log = a.log ++ new ∧
    (a.sock i = none → b.sock i ≠ none → ∃ id, .opened i id ∈ new ∨ .attached i id ∈ new) := by
  refine Star.inv (I := fun v => ∃ new, v.log = a.log ++ new ∧
    (a.sock i = none → v.sock i ≠ none → ∃ id, .opened i id ∈ new ∨ .attached i id ∈ new)) ?_ h ⟨[], by simp, fun h g => absurd h g⟩
  rintro u v hm ⟨new, hu, hc⟩
  have more : ∀ x : List Ev, (a.sock i = none → u.sock i ≠ none → ∃ id, .opened i id ∈ new ++ x ∨ .attached i id ∈ new ++ x) := by
    intro x h1 h2
    obtain ⟨id, h⟩ := hc h1 h2
    exact ⟨id, h.imp (fun h => List.mem_append.mpr (.inl h)) (fun h => List.mem_append.mpr (.inl h))⟩
  cases hm with
  | touch f hg =>
    refine ⟨new, hu, fun h1 h2 => hc h1 (fun e => ?_)⟩
    have := hg i
    rw [e] at this
    cases hf : f i with
    | none => exact h2 hf
    | some s => rw [hf] at this; exact this.elim
  | ping j hs => exact ⟨new ++ [.ping j], by dsimp only; rw [hu, List.append_assoc], more _⟩
  | reconnect j hs => exact ⟨new ++ [.reconnect j], by dsimp only; rw [hu, List.append_assoc], more _⟩
  | message j s k m hs hp =>
    refine ⟨new ++ [.message j (s.buf.take (k + 1)) m], by dsimp only; rw [hu, List.append_assoc], fun h1 h2 => more _ h1 ?_⟩
    dsimp only at h2
    by_cases hj : i = j
    · subst hj; rw [hs]; simp
    · rw [upd_ne hj] at h2; exact h2
  | attach j s₀ s rest k m hn hpend hg hp =>
    refine ⟨new ++ [.attached j s.id, .login j, .ping j, .message j (s.buf.take (k + 1)) m],
      by dsimp only; rw [hu, List.append_assoc], fun h1 h2 => ?_⟩
    dsimp only at h2
    by_cases hj : i = j
    · subst hj; exact ⟨s.id, .inr (by simp)⟩
    · rw [upd_ne hj] at h2; exact more _ h1 h2
  | opened j s hn hid hb hg =>
    refine ⟨new ++ [.opened j u.fresh, .login j, .ping j], by dsimp only; rw [hu, List.append_assoc], fun h1 h2 => ?_⟩
    dsimp only at h2
    by_cases hj : i = j
    · subst hj; exact ⟨u.fresh, .inl (by simp)⟩
    · rw [upd_ne hj] at h2; exact more _ h1 h2
  | disconnect j s hs hno =>
    refine ⟨new ++ [.disconnected j s.got], by dsimp only; rw [hu, List.append_assoc], fun h1 h2 => more _ h1 ?_⟩
    dsimp only at h2
    by_cases hj : i = j
    · subst hj; rw [hs]; simp
    · rw [upd_ne hj] at h2; exact h2
  | refuse s rest hpend => exact ⟨new ++ [.refused s.id], by dsimp only; rw [hu, List.append_assoc], more _⟩
  | drop s rest hpend => exact ⟨new, hu, hc⟩
  | keep s₀ s rest hpend hg => exact ⟨new, hu, hc⟩
  | accept new' hpend hgot hids => exact ⟨new, hu, hc⟩

theorem connected_new (w : World) (n : Node) (r : Round) (i : Nat) (p q : Peer) (s : Sk) (hp : n.peers[i]? = some p)
    (hn : p.sock = none) (hq : (n.round w r).peers[i]? = some q) (hs : q.sock = some s) :
    ∃ id new, (n.round w r).log = n.log ++ new ∧ (.opened i id ∈ new ∨ .attached i id ∈ new) := by
  obtain ⟨new, e, h⟩ := star_connected i (round_star w n r)
  obtain ⟨id, h⟩ := h (by show n.sockOf i = none; rw [sockOf_eq hp, hn])
    (by show (n.round w r).sockOf i ≠ none; rw [sockOf_eq hq, hs]; simp)
  exact ⟨id, new, e, h⟩

/-! ## C92 -/

/-- A round that comes to its end. -/
theorem round_parts (w : World) (n : Node) (r : Round) (hk : r.killed = false) (hd : (n.round w r).dead = false) :
    n.dead = false ∧ n.round w r = (List.range ((n.incoming r).foldl (authOne w r)
      { n with waiting := [], next := r.until_, fresh := n.fresh + r.accepted.length }).peers.length).foldl (peerOne w r)
      ((n.incoming r).foldl (authOne w r) { n with waiting := [], next := r.until_, fresh := n.fresh + r.accepted.length }) ∧
    ((n.incoming r).foldl (authOne w r)
      { n with waiting := [], next := r.until_, fresh := n.fresh + r.accepted.length }).dead = false := by
  have h0 : n.dead = false := by
    cases h : n.dead with
    | false => rfl
    | true =>
      unfold round at hd
      rw [if_pos (.inl h)] at hd
      rw [h] at hd
      cases hd
  have he : n.round w r = (List.range ((n.incoming r).foldl (authOne w r)
      { n with waiting := [], next := r.until_, fresh := n.fresh + r.accepted.length }).peers.length).foldl (peerOne w r)
      ((n.incoming r).foldl (authOne w r) { n with waiting := [], next := r.until_, fresh := n.fresh + r.accepted.length }) := by
    unfold round
    rw [if_neg (by rw [h0, hk]; simp)]
  refine ⟨h0, he, ?_⟩
  rw [he] at hd
  have : ∀ (l : List Nat) (n : Node), (l.foldl (peerOne w r) n).dead = false → n.dead = false := by
    intro l
    induction l with
    | nil => exact fun _ h => h
    | cons s l ih => exact fun n h => peerOne_dead (ih _ h)
  exact this _ _ hd

theorem round_settled (w : World) (n : Node) (r : Round) (hk : r.killed = false) (hd : (n.round w r).dead = false)
    (i : Nat) (p : Peer) (hp : n.peers[i]? = some p) :
    ∃ q, (n.round w r).peers[i]? = some q ∧
      Settled (∃ id new, (n.round w r).log = n.log ++ new ∧ .attached i id ∈ new) r i (n.round w r).next p q := by
  obtain ⟨_, he, hd1⟩ := round_parts w n r hk hd
  obtain ⟨h1, h2, h3, _⟩ := auths_spec w r _ _ hd1
  rw [he] at hd ⊢
  have hlog : ({ n with waiting := [], next := r.until_, fresh := n.fresh + r.accepted.length } : Node).log = n.log := rfl
  unfold Kept at h3
  rw [hlog] at h3
  generalize (n.incoming r).foldl (authOne w r)
    { n with waiting := [], next := r.until_, fresh := n.fresh + r.accepted.length } = n1 at *
  obtain ⟨p1, a1, a2, a3, a4, a5, a6⟩ := h3 i p hp
  obtain ⟨new2, e2⟩ : ∃ new, ((List.range n1.peers.length).foldl (peerOne w r) n1).log = n1.log ++ new :=
    star_log (peers_star w r _ n1)
  have hi : i < n1.peers.length := (List.getElem?_eq_some_iff.mp a1).1
  obtain ⟨_, _, _, h⟩ := peers_settled w r n1 _ (Nat.le_refl _) hd
  obtain ⟨q, b1, b2⟩ := h i p1 hi a1
  refine ⟨q, b1, ?_⟩
  unfold Settled at b2 ⊢
  cases hq : q.sock with
  | some s => rw [hq] at b2; exact b2
  | none =>
    rw [hq] at b2
    dsimp only at b2 ⊢
    rcases b2 with ⟨c1, c2, c3⟩ | ⟨c1, c2⟩ | ⟨c1, c2, c3⟩
    · exact .inl ⟨a5 c1, by rw [c2, a2], c3⟩
    · refine .inr (.inl ⟨?_, c2⟩)
      rcases c1 with c1 | c1
      · rcases a6 c1 with h | ⟨id, new, e, hm⟩
        · exact .inl h
        · exact .inr ⟨id, new ++ new2, by rw [e2, e, List.append_assoc], List.mem_append.mpr (.inl hm)⟩
      · exact c1.elim
    · exact .inr (.inr ⟨a5 c1, by rw [← a2]; exact c2, c3⟩)

/-- C92.  After each round, a peer's connection is not a closed one; if it is established, the peer was heard of in the
last 30 seconds; if the peer has been silent for 25 seconds, a PING was sent in the last second, unless the connection
is being shut down; and no complete message waits, unless the next round follows at once. -/
theorem c92_connected (w : World) (n : Node) (r : Round) (hk : r.killed = false) (hd : (n.round w r).dead = false)
    (i : Nat) (q : Peer) (hq : (n.round w r).peers[i]? = some q) (s : Sk) (hs : q.sock = some s)
    (hi : i < n.peers.length) :
    s.state ≠ .closed ∧
    (s.state = .connected → r.now ≤ s.lastRecv + 30000000) ∧
    (s.state ≠ .shuttingDown → s.lastRecv ≠ 0 → s.lastRecv + 25000000 < r.now → r.now ≤ q.lastPing + 1000000) ∧
    ((∀ k m, parse s.buf ≠ .ok (k + 1) m) ∨ (n.round w r).next ≤ r.now) := by
  obtain ⟨q', g1, g2⟩ := round_settled w n r hk hd i _ (List.getElem?_eq_getElem hi)
  rw [hq] at g1
  injection g1 with e
  subst e
  unfold Settled at g2
  rw [hs] at g2
  have : second = 1000000 := rfl
  rw [this] at g2
  exact g2

/-- C92.  After each round, a peer without connection has a time for the next attempt.  If it had none before, and the
time had not come, the time stays, and the next round begins by then; if the connection was lost in this round, or came
and went, the attempt is due after the random delay, and the next round begins by then; and if the attempt of this round
failed, the next is due in a minute. -/
theorem c92_unconnected (w : World) (n : Node) (r : Round) (hk : r.killed = false) (hd : (n.round w r).dead = false)
    (i : Nat) (p q : Peer) (hp : n.peers[i]? = some p) (hq : (n.round w r).peers[i]? = some q) (hs : q.sock = none) :
    (p.sock = none ∧ q.nextReconnect = p.nextReconnect ∧ r.now ≤ q.nextReconnect ∧ (n.round w r).next ≤ q.nextReconnect) ∨
    ((p.sock ≠ none ∨ ∃ id new, (n.round w r).log = n.log ++ new ∧ .attached i id ∈ new) ∧
      q.nextReconnect = r.now + r.delay i ∧ (n.round w r).next ≤ q.nextReconnect) ∨
    (p.sock = none ∧ p.nextReconnect < r.now ∧ r.opens i = false ∧ q.nextReconnect = r.now + 60000000) := by
  obtain ⟨q', g1, g2⟩ := round_settled w n r hk hd i p hp
  rw [hq] at g1
  injection g1 with e
  subst e
  unfold Settled at g2
  rw [hs] at g2
  exact g2

/-- C92.  So when connections can be opened, a peer whose connection was lost gets another at the latest in the first
round that begins a second later: one is opened, or one from the peer is accepted. -/
theorem c92_back (w : World) (n : Node) (i : Nat) (p : Peer) (t : Nat) (hp : n.peers[i]? = some p) (hlost : p.sock = none)
    (hnr : p.nextReconnect < t + 1000000) (rs : List Round) (r₂ : Round)
    (hks : ∀ r ∈ rs ++ [r₂], r.killed = false ∧ r.opens i = true) (hd : (n.run w (rs ++ [r₂])).dead = false)
    (h2 : t + 1000000 ≤ r₂.now) :
    ∃ id new, (n.run w (rs ++ [r₂])).log = n.log ++ new ∧ (.opened i id ∈ new ∨ .attached i id ∈ new) := by
  have deadRun : ∀ (l : List Round) (m : Node), (m.run w l).dead = false → m.dead = false := by
    intro l
    induction l with
    | nil => exact fun _ h => h
    | cons r l ih =>
      intro m h
      have := ih _ h
      cases hm : m.dead with
      | false => rfl
      | true =>
        unfold round at this
        rw [if_pos (.inl hm), hm] at this
        cases this
  induction rs generalizing n p with
  | nil =>
    have hk2 := hks r₂ (by simp)
    obtain ⟨q, g1, g2⟩ := round_settled w n r₂ hk2.1 hd i p hp
    cases hq : q.sock with
    | none =>
      rcases c92_unconnected w n r₂ hk2.1 hd i p q hp g1 hq with ⟨_, a2, a3, _⟩ | ⟨a1, _⟩ | ⟨_, _, a3, _⟩
      · omega
      · rcases a1 with a1 | ⟨id, new, e, hm⟩
        · exact absurd hlost a1
        · exact ⟨id, new, e, .inr hm⟩
      · rw [hk2.2] at a3; cases a3
    | some s => exact connected_new w n r₂ i p q s hp hlost g1 hq
  | cons r rs ih =>
    have hk := hks r (by simp)
    have hd1 : (n.round w r).dead = false := deadRun (rs ++ [r₂]) _ hd
    obtain ⟨q, g1, g2⟩ := round_settled w n r hk.1 hd1 i p hp
    obtain ⟨new2, e2⟩ : ∃ new, (((n.round w r).run w (rs ++ [r₂]))).log = (n.round w r).log ++ new :=
      star_log (run_star w _ _)
    have lift : (∃ id new, (n.round w r).log = n.log ++ new ∧ (.opened i id ∈ new ∨ .attached i id ∈ new)) →
        ∃ id new, (n.run w (r :: rs ++ [r₂])).log = n.log ++ new ∧ (.opened i id ∈ new ∨ .attached i id ∈ new) := by
      rintro ⟨id, new, e, hm⟩
      refine ⟨id, new ++ new2, ?_, hm.imp (fun h => List.mem_append.mpr (.inl h)) (fun h => List.mem_append.mpr (.inl h))⟩
      show ((n.round w r).run w (rs ++ [r₂])).log = _
      rw [e2, e, List.append_assoc]
    cases hq : q.sock with
    | none =>
      rcases c92_unconnected w n r hk.1 hd1 i p q hp g1 hq with ⟨_, a2, a3, _⟩ | ⟨a1, _⟩ | ⟨_, _, a3, _⟩
      · obtain ⟨id, new, e, hm⟩ := ih (n.round w r) q g1 hq (by omega) (fun x hx => hks x (by simp at hx ⊢; exact .inr hx)) hd
        obtain ⟨new1, e1⟩ : ∃ new, (n.round w r).log = n.log ++ new := star_log (round_star w n r)
        refine ⟨id, new1 ++ new, ?_, hm.imp (fun h => List.mem_append.mpr (.inr h)) (fun h => List.mem_append.mpr (.inr h))⟩
        show ((n.round w r).run w (rs ++ [r₂])).log = _
        rw [e, e1, List.append_assoc]
      · rcases a1 with a1 | ⟨id, new, e, hm⟩
        · exact absurd hlost a1
        · exact lift ⟨id, new, e, .inr hm⟩
      · rw [hk.2] at a3; cases a3
    | some s => exact lift (connected_new w n r i p q s hp hlost g1 hq)

/-- C92.  Connections on the node port that go on waiting for their announcement are open, sent something in the last five
seconds, and have not yet sent a complete message. -/
theorem c92_waiting (w : World) (n : Node) (r : Round) (hk : r.killed = false) (hd : (n.round w r).dead = false) :
    ∀ s ∈ (n.round w r).waiting, s.state = .connected ∧ r.now ≤ s.lastRecv + 5000000 ∧ ∀ k m, parse s.buf ≠ .ok (k + 1) m := by
  obtain ⟨_, he, hd1⟩ := round_parts w n r hk hd
  obtain ⟨_, _, _, h4⟩ := auths_spec w r _ _ hd1
  rw [he] at hd ⊢
  intro s hs
  rw [(peers_settled w r _ _ (Nat.le_refl _) hd).2.1] at hs
  exact h4 (by intro s hs; cases hs) s hs

end Bedrock.Peers.Props
