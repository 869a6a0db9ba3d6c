import Verif.Lemmas.NetNode

/-!
# What a node keeps of what its peers said, and the priority it announces
-/

namespace Bedrock.Node.Node
open Bedrock Bedrock.Node Bedrock.Node.Spec Bedrock.Node.Props

/-- What a peer said last is the same; a login may be gone. -/
structure Kept (p p' : Peer) : Prop where
  state : p'.state = p.state
  priority : p'.priority = p.priority
  count : p'.commitCount = p.commitCount
  login : p'.loggedIn = true → p.loggedIn = true

theorem Kept.refl (p : Peer) : Kept p p := ⟨rfl, rfl, rfl, id⟩
theorem Kept.trans {a b c : Peer} (h1 : Kept a b) (h2 : Kept b c) : Kept a c :=
  ⟨h2.state.trans h1.state, h2.priority.trans h1.priority, h2.count.trans h1.count, fun h => h1.login (h2.login h)⟩

/-- All peers are logged in. -/
def Linked (n : Node) : Prop := ∀ k, k < n.peers.length → (n.peer k).loggedIn = true

/-- Nothing is learnt from peers, and if they stay logged in the priority is the same and the one announced. -/
structure G (n n' : Node) : Prop where
  len : n'.peers.length = n.peers.length
  seen : ∀ k, Kept (n.peer k) (n'.peer k)
  said : n.peers ≠ [] → Linked n' → n'.priority = n.priority ∧ ∃ es, n'.out = n.out ++ es ∧ ∀ m ∈ stateMsgs es, m.2.1 = n.priority

theorem G.linked {n n' : Node} (h : G n n') (hl : Linked n') : Linked n :=
  fun k hk => (h.seen k).login (hl k (by rw [h.len]; exact hk))

theorem G.trans {a b c : Node} (h1 : G a b) (h2 : G b c) : G a c where
  len := h2.len.trans h1.len
  seen k := (h1.seen k).trans (h2.seen k)
  said hp hl := by
    have hp' : b.peers ≠ [] := by
      intro e
      have := h1.len
      rw [e] at this
      exact hp (List.length_eq_zero_iff.1 this.symm)
    obtain ⟨p2, es2, e2, m2⟩ := h2.said hp' hl
    obtain ⟨p1, es1, e1, m1⟩ := h1.said hp (h2.linked hl)
    refine ⟨p2.trans p1, es1 ++ es2, by rw [e2, e1, List.append_assoc], ?_⟩
    intro m hm
    rw [stateMsgs_append] at hm
    rcases List.mem_append.1 hm with hm | hm
    · exact m1 m hm
    · exact (m2 m hm).trans p1

theorem G.quiet {n m : Node} (es : List Effect) (h0 : m.out = n.out ++ es) (h1 : stateMsgs es = []) (h2 : m.priority = n.priority)
    (h3 : m.peers.length = n.peers.length) (h4 : ∀ k, Kept (n.peer k) (m.peer k)) : G n m :=
  ⟨h3, h4, fun _ _ => ⟨h2, es, h0, by rw [h1]; simp⟩⟩

theorem G.frame {n m : Node} (h0 : m.peers = n.peers) (h1 : m.priority = n.priority) (h2 : m.out = n.out) : G n m :=
  .quiet [] (by simp [h2]) rfl h1 (by rw [h0]) (fun k => by unfold peer; rw [h0]; exact .refl _)

theorem G.refl (n : Node) : G n n := .frame rfl rfl rfl

theorem G.emit {n : Node} (e : Effect) (h : stateMsgs [e] = []) : G n (n.emit e) :=
  .quiet [e] rfl h rfl rfl (fun _ => .refl _)

theorem G.send {n : Node} (i : Nat) (m : OutMsg) (h : stateMsgs [.send i m] = []) : G n (n.send i m) := by
  unfold Node.send
  split
  · exact .refl n
  · exact .emit _ h

theorem G.setPeer {n : Node} {i : Nat} {f : Peer → Peer} (h : ∀ p, Kept p (f p)) : G n (n.setPeer i f) :=
  .quiet [] (by simp) rfl (by simp) (by simp) (fun k => by
    rw [setPeer_peer]; split
    · exact h _
    · exact .refl _)

theorem G.reconnectPeer {n : Node} (i : Nat) : G n (n.reconnectPeer i) :=
  G.trans (b := n.setPeer i (fun p => { p with loggedIn := false })) (.setPeer (fun p => ⟨rfl, rfl, rfl, fun h => absurd h (by simp)⟩)) (.emit _ rfl)

theorem G.fail {n : Node} (i : Nat) : G n (n.fail i) := G.trans (.send _ _ rfl) (.emit _ rfl)

theorem mapped {n m : Node} {g : Peer → Peer} (h : m.peers = n.peers.map g) (hg : ∀ p, Kept p (g p)) (k : Nat) :
    Kept (n.peer k) (m.peer k) := by
  unfold peer
  rw [h]
  simp only [List.getD_eq_getElem?_getD, List.getElem?_map]
  cases n.peers[k]? with
  | none => exact .refl _
  | some p => exact hg p

theorem G.reconnectAll {n : Node} : G n n.reconnectAll :=
  .quiet ((List.range n.peers.length).map .shutdownSocket) rfl (stateMsgs_shut _) rfl (by simp [Node.reconnectAll])
    (mapped (g := fun p => { p with loggedIn := false }) rfl (fun _ => ⟨rfl, rfl, rfl, fun h => absurd h (by simp)⟩))

theorem G.dieIfForked {n : Node} : G n n.dieIfForked := .frame (by simp) (by simp) (by simp)

theorem G.change {n : Node} (new : NState) : G n (n.changeState new) := by
  by_cases hs : new = n.state
  · rw [changeState_same hs]; exact .refl n
  have hseen : ∀ k, Kept (n.peer k) ((n.changeState new).peer k) := by
    rcases changeState_peers_cases n new with e | e | e | e
    · intro k; unfold peer; rw [e]; exact .refl _
    · exact mapped (g := fun p => { p with subscribed := false }) e (fun _ => ⟨rfl, rfl, rfl, id⟩)
    · exact mapped (g := fun p => { p with loggedIn := false }) e (fun _ => ⟨rfl, rfl, rfl, fun h => absurd h (by simp)⟩)
    · rw [List.map_map] at e
      exact mapped (g := fun p => { p with subscribed := false, loggedIn := false }) e (fun _ => ⟨rfl, rfl, rfl, fun h => absurd h (by simp)⟩)
  have hlen : (n.changeState new).peers.length = n.peers.length := by
    rcases changeState_peers_cases n new with e | e | e | e <;> rw [e] <;> simp
  refine ⟨hlen, hseen, fun hp hl => ?_⟩
  have hprio : (n.changeState new).priority = n.priority := by
    by_cases hc : new = .waiting ∧ n.haveBeenWaiting = false ∧ n.haveSeenSame = true
    · exfalso
      have h0 : 0 < n.peers.length := List.length_pos_iff.2 hp
      have := hl 0 (by rw [hlen]; exact h0)
      have key : ((n.changeState new).peer 0).loggedIn = false := by
        obtain ⟨p, ps, hps⟩ := List.exists_cons_of_ne_nil hp
        obtain ⟨rfl, hw, hss⟩ := hc
        cases hst : n.state <;> simp [changeState, hst, hw, hss, Node.reconnectAll, peer, hps, inCharge, NState.rank]
        exact absurd hst.symm hs
      rw [key] at this; cases this
    · rw [changeState_priority]
      split
      · rename_i h; exact absurd ⟨h.2.1, h.2.2.1, h.2.2.2⟩ hc
      · rfl
  obtain ⟨es, e1, e2⟩ := changeState_out n hs
  refine ⟨hprio, _, e1, ?_⟩
  intro m hm
  rw [stateMsgs_append, e2] at hm
  rw [List.mem_singleton.1 (show m ∈ [_] from hm)]
  exact hprio

theorem G.thenChange {n m : Node} (h : G n m) (new : NState) : G n (m.changeState new) := h.trans (.change new)
theorem G.thenDie {n m : Node} (h : G n m) : G n m.dieIfForked := h.trans .dieIfForked
theorem G.thenFail {n m : Node} (h : G n m) (i : Nat) : G n (m.fail i) := h.trans (.fail i)
theorem G.thenFrame {n m k : Node} (h : G n m) (h0 : k.peers = m.peers) (h1 : k.priority = m.priority) (h2 : k.out = m.out) : G n k :=
  h.trans (.frame h0 h1 h2)

/-! ### The functions -/

theorem sendStandupResponse_g {n : Node} (i : Nat) (scc : Option Int) : G n (sendStandupResponse n i scc) := by
  unfold sendStandupResponse
  dsimp only
  split
  · exact .send _ _ rfl
  · split
    · split
      · refine G.trans ?_ (.send _ _ rfl)
        repeat' split
        · exact .change _
        · exact .change _
        · exact .refl n
      · refine G.trans ?_ (.send _ _ rfl)
        split
        · exact .refl n
        · exact G.trans .reconnectAll (.change _)
    · exact .send _ _ rfl

theorem onStandupResponse_g {n : Node} (i : Nat) (s : Option Int) (r : Option Bool) : G n (onStandupResponse n i s r) := by
  unfold onStandupResponse
  repeat' split
  all_goals first | exact .refl n | exact .fail i | exact .setPeer (fun _ => ⟨rfl, rfl, rfl, id⟩)

theorem forked_kept (p : Peer) : Kept p { p with forked := true } := ⟨rfl, rfl, rfl, id⟩

theorem onSynchronizeResponse_g {n : Node} (i : Nat) (hm : Bool) (o : DbOutcome) : G n (onSynchronizeResponse n i hm o) := by
  unfold onSynchronizeResponse
  dsimp only
  have db : G n { n with commits := o.commits, journal := o.journal } := .frame rfl rfl rfl
  have db2 : ∀ y, G n { n with commits := o.commits, journal := o.journal, syncPeer := y } := fun y => .frame rfl rfl rfl
  repeat' split
  · exact .fail i
  · exact G.thenDie (.setPeer forked_kept)
  · exact G.thenFail (G.thenDie (.setPeer forked_kept)) i
  · exact .fail i
  · refine G.thenFail (G.thenChange (G.thenFrame (db.trans (.reconnectPeer i)) ?_ ?_ ?_) _) i <;> rfl
  · exact G.thenChange (db2 _) _
  · refine G.thenChange (G.thenFrame (db.trans (.reconnectPeer i)) ?_ ?_ ?_) _ <;> rfl
  · exact G.trans (G.thenFrame db (by simp) (by simp) (by simp)) (.send _ _ rfl)
  · exact G.thenChange (G.thenFrame db (by simp) (by simp) (by simp)) _

theorem onSubscriptionApproved_g {n : Node} (i : Nat) (o : DbOutcome) : G n (onSubscriptionApproved n i o) := by
  unfold onSubscriptionApproved
  dsimp only
  have db : G n { n with commits := o.commits, journal := o.journal } := .frame rfl rfl rfl
  repeat' split
  · exact .fail i
  · exact .fail i
  · exact db.thenChange _
  · exact G.thenFail (G.thenChange (db.trans (.reconnectPeer i)) _) i

theorem onForked_g {n : Node} (i : Nat) : G n (onForked n i) := by
  unfold onForked
  dsimp only
  refine G.trans (b := (n.setPeer i fun p => { p with forked := true }).dieIfForked)
    (G.thenDie (.setPeer forked_kept)) ?_
  generalize (n.setPeer i fun p => { p with forked := true }).dieIfForked = m
  split
  · exact .refl m
  · refine G.trans (b := if m.leadPeer = some i then
        { m with leadPeer := none }.changeState .searching else m) ?_ ?_
    · split
      · refine G.thenChange (.frame ?_ ?_ ?_) _ <;> rfl
      · exact .refl m
    · generalize (if m.leadPeer = some i then
        { m with leadPeer := none }.changeState .searching else m) = k
      repeat' split
      · refine G.thenChange (.frame ?_ ?_ ?_) _ <;> rfl
      · exact .frame rfl rfl rfl
      · exact .refl k

theorem checkLag_g {n : Node} (i : Nat) : G n (checkLag n i) := by
  unfold checkLag
  dsimp only
  repeat' split
  · refine G.thenFrame (.emit (.blockPort) rfl) ?_ ?_ ?_ <;> rfl
  · refine G.thenFrame (.emit (.unblockPort) rfl) ?_ ?_ ?_ <;> rfl
  · exact .refl n

/-- What the message of a peer that is logged in leaves behind: its number of commits, and its state and priority if it says them.
Nothing else is learnt. -/
structure Learnt (i c : Nat) (st : Option (NState × Int)) (n n' : Node) : Prop where
  len : n'.peers.length = n.peers.length
  other : ∀ k, k ≠ i → Kept (n.peer k) (n'.peer k)
  count : (n'.peer i).commitCount = c
  state : (n'.peer i).state = (st.map (·.1)).getD (n.peer i).state
  priority : (n'.peer i).priority = (st.map (·.2)).getD (n.peer i).priority
  said : n.peers ≠ [] → Linked n' → n'.priority = n.priority ∧ ∃ es, n'.out = n.out ++ es ∧ ∀ m ∈ stateMsgs es, m.2.1 = n.priority

theorem Learnt.then {i c : Nat} {st : Option (NState × Int)} {n k n' : Node} (h : Learnt i c st n k) (g : G k n') : Learnt i c st n n' where
  len := g.len.trans h.len
  other j hj := (h.other j hj).trans (g.seen j)
  count := (g.seen i).count.trans h.count
  state := (g.seen i).state.trans h.state
  priority := (g.seen i).priority.trans h.priority
  said hp hl := by
    have hp' : k.peers ≠ [] := by
      intro e
      have := h.len
      rw [e] at this
      exact hp (List.length_eq_zero_iff.1 this.symm)
    obtain ⟨p2, es2, e2, m2⟩ := g.said hp' hl
    obtain ⟨p1, es1, e1, m1⟩ := h.said hp (g.linked hl)
    refine ⟨p2.trans p1, es1 ++ es2, by rw [e2, e1, List.append_assoc], ?_⟩
    intro m hm
    rw [stateMsgs_append] at hm
    rcases List.mem_append.1 hm with hm | hm
    · exact m1 m hm
    · exact (m2 m hm).trans p1

/-- The entry of one peer. -/
theorem learnt_set {i c : Nat} {st : Option (NState × Int)} {n : Node} {f : Peer → Peer} (hi : i < n.peers.length)
    (h1 : (f (n.peer i)).commitCount = c) (h2 : (f (n.peer i)).state = (st.map (·.1)).getD (n.peer i).state)
    (h3 : (f (n.peer i)).priority = (st.map (·.2)).getD (n.peer i).priority) : Learnt i c st n (n.setPeer i f) where
  len := by simp
  other k hk := by rw [setPeer_peer, if_neg (fun h => hk h.1.symm)]; exact .refl _
  count := by rw [setPeer_peer, if_pos ⟨rfl, hi⟩]; exact h1
  state := by rw [setPeer_peer, if_pos ⟨rfl, hi⟩]; exact h2
  priority := by rw [setPeer_peer, if_pos ⟨rfl, hi⟩]; exact h3
  said _ _ := ⟨by simp, [], by simp, by simp [stateMsgs]⟩

def stated : Body → Option (NState × Int)
  | .state (some s) (some p) _ => some (s, p)
  | _ => none

theorem setPeer_twice {n : Node} {i : Nat} {f g : Peer → Peer} : (n.setPeer i f).setPeer i g = n.setPeer i (fun p => g (f p)) := by
  unfold Node.setPeer
  simp only [List.modify_modify_eq]
  rfl

theorem message_learnt {n : Node} {i c : Nat} {h : Bytes} {b : Body} {o : DbOutcome} (hd : n.dead = false) (hi : i < n.peers.length)
    (hl : (n.peer i).loggedIn = true) (hf : (n.peer i).forked = false) :
    Learnt i c (stated b) n (step n (.message i ⟨some c, some h, b⟩ o)) := by
  unfold step
  rw [if_neg (by rw [hd]; decide)]
  dsimp only
  rw [if_pos hi]
  unfold onMessage
  rw [if_neg (by rw [hf]; decide)]
  dsimp only
  have hlk : ((checkLag (n.setPeer i (fun p => { p with commitCount := c, hash := h })) i).peer i).loggedIn = true := by
    rw [record_peer (·.loggedIn) (fun _ => rfl)]; exact hl
  have r1 : Learnt i c none n (n.setPeer i (fun p => { p with commitCount := c, hash := h })) := learnt_set hi rfl rfl rfl
  have r2 := r1.then (checkLag_g i)
  generalize hk : checkLag (n.setPeer i (fun p => { p with commitCount := c, hash := h })) i = k at hlk r2
  have hik : i < k.peers.length := by rw [r2.len]; exact hi
  unfold dispatch
  cases b with
  | login p s v x =>
    dsimp only
    unfold onLogin
    rw [if_pos hlk]
    exact r2.then (.fail i)
  | state s p x =>
    dsimp only
    rw [if_pos hlk]
    unfold onLoggedIn
    dsimp only
    unfold onState
    cases s with
    | none => exact r2.then (.fail i)
    | some s =>
      cases p with
      | none => exact r2.then (.fail i)
      | some p =>
        dsimp only
        have r3 : Learnt i c (some (s, p)) n (k.setPeer i (fun q => { q with priority := p, permaFollower := p = 0, state := s })) := by
          refine ⟨by simp [r2.len], fun j hj => ?_, ?_, ?_, ?_, fun hp hlk => ?_⟩
          · rw [setPeer_peer, if_neg (fun h => hj h.1.symm)]; exact r2.other j hj
          · rw [setPeer_peer, if_pos ⟨rfl, hik⟩]; exact r2.count
          · rw [setPeer_peer, if_pos ⟨rfl, hik⟩]; rfl
          · rw [setPeer_peer, if_pos ⟨rfl, hik⟩]; rfl
          · have := r2.said hp (fun j hj => by
              have := hlk j (by simpa using hj)
              rw [setPeer_peer] at this
              split at this
              · exact this
              · exact this)
            simpa using this
        repeat' split
        · exact r3
        · exact r3.then (.setPeer (fun _ => ⟨rfl, rfl, rfl, id⟩))
        · exact r3.then (sendStandupResponse_g ..)
        · exact r3
  | _ =>
    dsimp only
    rw [if_pos hlk]
    refine r2.then ?_
    unfold onLoggedIn
    dsimp only
    first
      | exact onStandupResponse_g ..
      | exact onSynchronizeResponse_g ..
      | exact onSubscriptionApproved_g ..
      | exact onForked_g ..
      | exact .refl _
      | (repeat' split
         all_goals first
           | exact .send _ _ rfl
           | exact .fail _
           | exact G.trans (.send _ _ rfl) (.setPeer (fun _ => ⟨rfl, rfl, rfl, id⟩)))

/-! ### What a node does of its own accord -/

/-- The priorities announced are the old and the new one. -/
structure Own (n n' : Node) : Prop where
  len : n'.peers.length = n.peers.length
  seen : ∀ k, Kept (n.peer k) (n'.peer k)
  said : n.peers ≠ [] → Linked n' → ∃ es, n'.out = n.out ++ es ∧ ∀ m ∈ stateMsgs es, m.2.1 = n.priority ∨ m.2.1 = n'.priority

theorem G.own {n n' : Node} (h : G n n') : Own n n' :=
  ⟨h.len, h.seen, fun hp hl => by
    obtain ⟨_, es, e, m⟩ := h.said hp hl
    exact ⟨es, e, fun x hx => Or.inl (m x hx)⟩⟩

/-- First the priority is set, and perhaps announced. -/
theorem own_then {n k n' : Node} (es : List Effect) (h0 : k.peers = n.peers) (h1 : k.out = n.out ++ es)
    (h2 : ∀ m ∈ stateMsgs es, m.2.1 = k.priority) (g : G k n') : Own n n' where
  len := by rw [g.len, h0]
  seen j := by
    have := g.seen j
    unfold peer at this ⊢
    rw [h0] at this
    exact this
  said hp hl := by
    obtain ⟨p, es', e, m⟩ := g.said (by rw [h0]; exact hp) hl
    refine ⟨es ++ es', by rw [e, h1, List.append_assoc], fun x hx => ?_⟩
    rw [stateMsgs_append] at hx
    rw [p]
    rcases List.mem_append.1 hx with hx | hx
    · exact Or.inr (h2 x hx)
    · exact Or.inr (m x hx)

theorem updateSearching_g {n : Node} (hp : n.peers ≠ []) : G n (updateSearching n) := by
  unfold updateSearching
  have hp' : n.peers.isEmpty = false := by cases h : n.peers <;> simp_all
  dsimp only
  repeat' split
  · exact .refl n
  · simp_all
  · exact .refl n
  · exact .refl n
  · exact .change _
  · exact G.thenChange (G.trans (.frame (by simp) (by simp) (by simp)) (.send _ _ rfl)) _
  · exact .frame (by simp) (by simp) (by simp)

theorem updateSynchronizing_g {n : Node} (t : Bool) : G n (updateSynchronizing n t) := by
  unfold updateSynchronizing
  repeat' split
  · rename_i i _
    refine G.thenChange (G.thenFrame (.reconnectPeer i) ?_ ?_ ?_) _ <;> rfl
  · exact .frame rfl rfl rfl
  · exact .refl n

theorem updateSubscribing_g {n : Node} (t : Bool) : G n (updateSubscribing n t) := by
  unfold updateSubscribing
  repeat' split
  · exact .change _
  · rename_i i _
    refine G.thenChange (G.thenFrame (.reconnectPeer i) ?_ ?_ ?_) _ <;> rfl
  · exact .frame rfl rfl rfl
  · exact .refl n

theorem updateFollowing_g {n : Node} (b : Bool) : G n (updateFollowing n b) := by
  unfold updateFollowing
  repeat' split
  · exact .change _
  · exact .frame rfl rfl rfl
  · exact .change _
  · exact .refl n

theorem updateStandingUp_g {n : Node} (t : Bool) : G n (updateStandingUp n t) := by
  unfold updateStandingUp
  dsimp only
  repeat' split
  all_goals first | exact .change _ | exact .refl n

theorem standUp_g {n : Node} : G n (changeState { n with peers := n.peers.map (fun p => { p with standup := .none }) } .standingUp) :=
  G.trans (b := { n with peers := n.peers.map (fun p => { p with standup := .none }) })
    (.quiet [] (by simp) rfl rfl (by simp) (mapped (g := fun p => { p with standup := .none }) rfl (fun _ => ⟨rfl, rfl, rfl, id⟩))) (.change _)

theorem updateWaiting_g {n : Node} : G n (updateWaiting n) := by
  unfold updateWaiting
  dsimp only
  repeat' split
  · exact .change _
  · refine G.thenChange (G.trans (.frame ?_ ?_ ?_) (.send _ .subscribe rfl)) _ <;> rfl
  · exact .change _
  · exact .refl n
  · exact .change _
  · exact standUp_g
  · exact .refl n
  · exact .change _

/-- The second half of the update of a leader. -/
def leave (n : Node) : Node :=
  if n.state = .standingDown then
    changeState (if n.shuttingDown then
        { n with out := n.out ++ (List.range n.peers.length).map .shutdownSocket } else n) .searching
  else n

theorem leave_g {n : Node} : G n (leave n) := by
  unfold leave
  repeat' split
  · refine G.thenChange ?_ _
    exact .quiet ((List.range n.peers.length).map .shutdownSocket) rfl (stateMsgs_shut _) rfl rfl (fun k => .refl _)
  · exact .change _
  · exact .refl n

theorem updateLeading_own {n : Node} : Own n (updateLeading n) := by
  have e : updateLeading n = leave (
    if (n.emit .sendOutstanding).state = .leading then
      if (n.emit .sendOutstanding).priority = 1 then changeState (n.emit .sendOutstanding) .standingDown
      else if (n.emit .sendOutstanding).shuttingDown then changeState { (n.emit .sendOutstanding) with priority := 1 } .standingDown
      else if (n.emit .sendOutstanding).peers.any (standDownFor (n.emit .sendOutstanding)) then changeState (n.emit .sendOutstanding) .standingDown
      else (n.emit .sendOutstanding)
    else (n.emit .sendOutstanding)) := rfl
  rw [e]
  have g0 : G n (n.emit .sendOutstanding) := .emit _ rfl
  repeat' split
  · exact ((g0.thenChange _).trans leave_g).own
  · exact own_then (k := { (n.emit .sendOutstanding) with priority := 1 }) [.sendOutstanding] rfl rfl (by simp [stateMsgs]) (G.trans (.change _) leave_g)
  · exact ((g0.thenChange _).trans leave_g).own
  · exact (g0.trans leave_g).own
  · exact (g0.trans leave_g).own

theorem setShutdownPriority_own {n : Node} : Own n (setShutdownPriority n) := by
  unfold setShutdownPriority
  dsimp only
  split
  · exact own_then (k := { n with priority := 1 }) [] rfl (by simp) (by simp [stateMsgs]) (.refl _)
  · exact own_then (k := ({ n with priority := 1 } : Node).emit (.sendAll (.state n.state 1 n.stateChangeCount)))
      [.sendAll (.state n.state 1 n.stateChangeCount)] rfl rfl (by simp [stateMsgs, Node.emit]) (.refl _)

theorem setPriority_own {n : Node} (new : Int) : Own n (setPriority n new).1 := by
  unfold setPriority
  dsimp only
  have q : ∀ {n'}, G ({ n with configured := new, priority := new }.emit (.sendAll (.state n.state new n.stateChangeCount))) n' → Own n n' :=
    fun g => own_then (k := { n with configured := new, priority := new }.emit (.sendAll (.state n.state new n.stateChangeCount)))
      [.sendAll (.state n.state new n.stateChangeCount)] rfl rfl (by simp [stateMsgs, Node.emit]) g
  repeat' split
  · exact (G.refl n).own
  · exact (G.refl n).own
  · exact (G.refl n).own
  · exact (G.refl n).own
  · exact (G.frame (n := n) (m := { n with configured := new }) rfl rfl rfl).own
  · exact q (.change _)
  · exact q (.change _)
  · exact q (.refl _)
  · exact q (.refl _)
  · exact q (.refl _)

theorem step_own {n : Node} (ev : Ev) (hp : n.peers ≠ []) (h1 : ∀ i m o, ev ≠ .message i m o) (h2 : ∀ i, ev ≠ .disconnect i) :
    Own n (step n ev) := by
  unfold step
  split
  · exact (G.refl n).own
  · cases ev with
    | update t b =>
      dsimp only
      unfold update
      split
      · exact G.own (.frame rfl rfl rfl)
      · exact (updateSearching_g hp).own
      · exact (updateSynchronizing_g t).own
      · exact updateWaiting_g.own
      · exact (updateStandingUp_g t).own
      · exact updateLeading_own
      · exact updateLeading_own
      · exact (updateSubscribing_g t).own
      · exact (updateFollowing_g b).own
    | message i m o => exact absurd rfl (h1 i m o)
    | disconnect i => exact absurd rfl (h2 i)
    | setPriority p => exact setPriority_own p
    | setShutdownPriority => exact setShutdownPriority_own
    | beginShutdown => exact G.own (.frame rfl rfl rfl)
    | database c j => exact G.own (.frame rfl rfl rfl)

theorem currentLeader_none {ps : List Peer} (h : currentLeader ps = none) {k : Nat} (hk : k < ps.length) :
    (eligible (ps.getD k {}) && (ps.getD k {}).loggedIn && leadish (ps.getD k {}).state) = false := by
  unfold currentLeader at h
  have key : ∀ (l : List (Peer × Nat)) (acc : Option Nat),
      l.foldl (fun acc x => if eligible x.1 && x.1.loggedIn && leadish x.1.state then some x.2 else acc) acc = none →
      acc = none ∧ ∀ x ∈ l, (eligible x.1 && x.1.loggedIn && leadish x.1.state) = false := by
    intro l
    induction l with
    | nil => intro acc h; exact ⟨h, by simp⟩
    | cons x l ih =>
      intro acc h
      obtain ⟨h1, h2⟩ := ih _ h
      dsimp only at h1
      split at h1
      · cases h1
      · rename_i hx
        refine ⟨h1, fun y hy => ?_⟩
        rcases List.mem_cons.1 hy with e | hy
        · rw [e]; simpa using hx
        · exact h2 y hy
  have := (key _ _ h).2 (ps[k], k) (List.mem_zipIdx_iff_getElem?.mpr (by simp [hk]))
  simpa [List.getD_eq_getElem?_getD, List.getElem?_eq_getElem hk] using this

/-- Who stands up sees nobody that leads or tries to, nobody with more commits and nobody with its priority or a higher one. -/
theorem stands_up {n : Node} (ev : Ev) (hp : n.peers ≠ []) (h1 : ∀ i m o, ev ≠ .message i m o) (h2 : ∀ i, ev ≠ .disconnect i)
    (h3 : ∀ p, ev = .setPriority p → p ≠ 0) (h0 : leadish n.state = false) (hl : leadish (step n ev).state = true) :
    (step n ev).commits = n.commits ∧ (step n ev).priority = n.priority ∧
    ∀ k, k < n.peers.length → (n.peer k).loggedIn = true → (n.peer k).forked = false → (n.peer k).permaFollower = false →
      leadish (n.peer k).state = false ∧ (n.peer k).commitCount ≤ n.commits ∧ (n.peer k).priority < n.priority := by
  rcases step_r (x := none) ev hp h1 h2 h3 with hr | ⟨hw, e, hcl⟩ | ⟨hw, _⟩
  · rw [hr.leadish hl] at h0; cases h0
  · rw [e]
    refine ⟨by simp, by rw [changeState_priority, if_neg (fun h => by cases h.2.1)], ?_⟩
    cases ev with
    | update t b =>
      unfold step at e hl
      split at e
      · rename_i hdd
        rw [if_pos hdd, hw] at hl; cases hl
      · rename_i hdd
        rw [if_neg hdd] at hl
        dsimp only at e hl
        unfold update at e hl
        rw [hw] at e hl
        dsimp only at e hl
        clear e
        unfold updateWaiting at hl
        dsimp only at hl
        rw [hcl] at hl
        split at hl
        · rw [changeState_state] at hl; cases hl
        split at hl
        · rename_i h f hh hf
          dsimp only at hl
          split at hl
          · rw [changeState_state] at hl; cases hl
          · rename_i hc
            split at hl
            · rename_i hs
              intro k hk l1 l2 l3
              have hmem : n.peer k ∈ n.peers.filter (fun p => eligible p && p.loggedIn) := by
                rw [List.mem_filter]
                refine ⟨?_, by simp [eligible, full, l1, l2, l3]⟩
                unfold peer
                rw [List.getD_eq_getElem?_getD, List.getElem?_eq_getElem hk]
                exact List.getElem_mem hk
              have a1 := (highest_mem hh).2 _ hmem
              have a2 := (freshest_mem hf).2 _ hmem
              refine ⟨?_, by omega, by omega⟩
              have := (currentLeader_none hcl hk)
              unfold eligible full at this
              rw [show n.peers.getD k {} = n.peer k from rfl, l1, l2, l3] at this
              exact this
            · rw [hw] at hl; cases hl
        · rw [changeState_state] at hl; cases hl
    | message i m o => exact absurd rfl (h1 i m o)
    | disconnect i => exact absurd rfl (h2 i)
    | setPriority p =>
      have := (setPriority_r (x := none) (n := n) p (h3 p rfl))
      unfold step at hl
      split at hl
      · rw [hw] at hl; cases hl
      · have := this.leadish hl
        rw [hw] at this; cases this
    | setShutdownPriority =>
      have := (setShutdownPriority_r (x := none) (n := n))
      unfold step at hl
      split at hl
      · rw [hw] at hl; cases hl
      · have := this.leadish hl
        rw [hw] at this; cases this
    | beginShutdown => unfold step at hl; split at hl <;> (rw [show _ = NState.waiting from hw] at hl; cases hl)
    | database c j => unfold step at hl; split at hl <;> (rw [show _ = NState.waiting from hw] at hl; cases hl)
  · rw [hw] at h0; cases h0

end Bedrock.Node.Node
