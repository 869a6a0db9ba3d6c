import Verif.Lemmas.NodeFields
import Verif.Spec.Node

namespace Bedrock.Node.Node
open Bedrock Bedrock.Node Bedrock.Node.Spec

theorem walk_append {e : NState → NState → Bool} : ∀ {a : NState} {l m : List NState} {b c : NState},
    Walk e a l b → Walk e b m c → Walk e a (l ++ m) c
  | a, [], m, b, c, h1, h2 => by cases h1; exact h2
  | a, x :: l, m, b, c, h1, h2 => ⟨h1.1, walk_append h1.2 h2⟩

/-- The last state entered is the current one, and commits are enabled accordingly. -/
def CE (n : Node) : Prop :=
  n.hist.getLast? = some n.state ∧ n.commitEnabled = writesAllowed n.hist

theorem ce_change {n : Node} (h : CE n) {new : NState} : CE (n.changeState new) := by
  by_cases hs : new = n.state
  · rw [changeState_same hs]; exact h
  · obtain ⟨h1, h2⟩ := h
    constructor
    · rw [changeState_hist, if_neg hs]; simp
    · rw [changeState_hist, if_neg hs, changeState_commitEnabled, if_neg hs]
      unfold writesAllowed
      rw [List.reverse_append]
      obtain ⟨l, hl⟩ : ∃ l, n.hist = l ++ [n.state] := List.getLast?_eq_some_iff.mp h1
      rw [hl, List.reverse_append]
      rw [h2, hl]
      unfold writesAllowed
      rw [List.reverse_append]
      cases new <;> cases h : n.state <;>
        simp_all [inCharge, NState.rank]

/-- From `n` to `n'` the node took some walk along the documented edges. -/
structure Moves (n n' : Node) : Prop where
  walk : ∃ l, n'.hist = n.hist ++ l ∧ Walk (edge (!n.peers.isEmpty)) n.state l n'.state ∧
    n'.stateChangeCount = n.stateChangeCount + l.length
  len : n'.peers.length = n.peers.length
  ce : CE n → CE n'

theorem isEmpty_congr {α : Type} {a b : List α} (h : a.length = b.length) : a.isEmpty = b.isEmpty := by
  cases a <;> cases b <;> simp_all

theorem Moves.trans {a b c : Node} (h1 : Moves a b) (h2 : Moves b c) : Moves a c := by
  obtain ⟨l, e1, w1, s1⟩ := h1.walk
  obtain ⟨m, e2, w2, s2⟩ := h2.walk
  refine ⟨⟨l ++ m, by rw [e2, e1, List.append_assoc], ?_, by rw [s2, s1, List.length_append]; omega⟩,
    h2.len.trans h1.len, fun h => h2.ce (h1.ce h)⟩
  rw [isEmpty_congr h1.len] at w2
  exact walk_append w1 w2

theorem Moves.same {n n' : Node} (h1 : n'.state = n.state) (h2 : n'.hist = n.hist)
    (h3 : n'.peers.length = n.peers.length) (h4 : n'.stateChangeCount = n.stateChangeCount)
    (h5 : n'.commitEnabled = n.commitEnabled) :
    Moves n n' :=
  ⟨⟨[], by simp [h2], h1.symm, by simp [h4]⟩, h3, fun h => by unfold CE; rw [h1, h2, h5]; exact h⟩

theorem Moves.refl (n : Node) : Moves n n := .same rfl rfl rfl rfl rfl

/-- Changing some fields, then changing state along an edge. -/
theorem Moves.change {n m : Node} {new : NState} (h1 : m.state = n.state) (h2 : m.hist = n.hist)
    (h3 : m.peers.length = n.peers.length) (h4 : m.stateChangeCount = n.stateChangeCount) (h5 : m.commitEnabled = n.commitEnabled)
    (he : new = n.state ∨ edge (!n.peers.isEmpty) n.state new = true) :
    Moves n (m.changeState new) := by
  by_cases hs : new = n.state
  · rw [changeState_same (hs.trans h1.symm)]; exact .same h1 h2 h3 h4 h5
  · rcases he with he | he
    · exact absurd he hs
    · refine ⟨⟨[new], ?_, ⟨he, by simp [Walk]⟩, ?_⟩, by simp [h3],
        fun h => ce_change (by unfold CE; rw [h1, h2, h5]; exact h)⟩
      · rw [changeState_hist, if_neg (by rw [h1]; exact hs), h2]
      · rw [changeState_scc, if_neg (by rw [h1]; exact hs), h4]; rfl

theorem edge_searching (b : Bool) (s : NState) : NState.searching = s ∨ edge b s .searching = true := by
  cases s <;> simp [edge]

theorem Moves.search {n m : Node} (h1 : m.state = n.state) (h2 : m.hist = n.hist)
    (h3 : m.peers.length = n.peers.length) (h4 : m.stateChangeCount = n.stateChangeCount) (h5 : m.commitEnabled = n.commitEnabled) :
    Moves n (m.changeState .searching)   := .change h1 h2 h3 h4 h5 (edge_searching _ _)

theorem updateSearching_moves {n : Node} (hs : n.state = .searching) : Moves n (updateSearching n) := by
  unfold updateSearching
  split
  · exact .refl n
  · split
    · rename_i h
      refine .change rfl rfl rfl rfl rfl (Or.inr ?_)
      simp [hs, h, edge]
    · dsimp only
      split
      · exact .refl n
      · split
        · exact .refl n
        · split
          · exact .change rfl rfl rfl rfl rfl (Or.inr (by simp [hs, edge]))
          · split
            · exact .change (by simp) (by simp) (by simp) (by simp) (by simp) (Or.inr (by simp [hs, edge]))
            · exact .same rfl rfl rfl rfl rfl

theorem updateSynchronizing_moves {n : Node} (t : Bool) : Moves n (updateSynchronizing n t) := by
  unfold updateSynchronizing
  repeat' split
  · exact .search (by simp) (by simp) (by simp) (by simp) (by simp)
  · exact .same rfl rfl rfl rfl rfl
  · exact .refl n

theorem updateWaiting_moves {n : Node} (hs : n.state = .waiting) : Moves n (updateWaiting n) := by
  unfold updateWaiting
  split
  · exact .search rfl rfl rfl rfl rfl
  · dsimp only
    split
    · split
      · split
        · exact .change (by simp) (by simp) (by simp) (by simp) (by simp) (Or.inr (by simp [hs, edge]))
        · split
          · exact .search rfl rfl rfl rfl rfl
          · exact .refl n
      · split
        · exact .search rfl rfl rfl rfl rfl
        · split
          · exact .change rfl rfl (by simp) rfl rfl (Or.inr (by simp [hs, edge]))
          · exact .refl n
    · exact .search rfl rfl rfl rfl rfl

theorem updateStandingUp_moves {n : Node} (hs : n.state = .standingUp) (t : Bool) :
    Moves n (updateStandingUp n t) := by
  unfold updateStandingUp
  dsimp only
  repeat' split
  · exact .search rfl rfl rfl rfl rfl
  · exact .search rfl rfl rfl rfl rfl
  · exact .change rfl rfl rfl rfl rfl (Or.inr (by simp [hs, edge]))
  · exact .search rfl rfl rfl rfl rfl
  · exact .refl n

theorem updateLeading_moves {n : Node} : Moves n (updateLeading n) := by
  have down : ∀ m : Node, Moves n m →
      Moves n (if m.state = .standingDown then
        changeState (if m.shuttingDown then
          { m with out := m.out ++ (List.range m.peers.length).map .shutdownSocket } else m) .searching
        else m) := by
    intro m hm
    split
    · refine hm.trans ?_
      split <;> exact .search rfl rfl rfl rfl rfl
    · exact hm
  unfold updateLeading
  dsimp only
  refine down _ ?_
  split
  · rename_i hs
    have hs : n.state = .leading := hs
    have he : NState.standingDown = n.state ∨ edge (!n.peers.isEmpty) n.state .standingDown = true :=
      Or.inr (by simp [hs, edge])
    repeat' split
    · exact .change (by simp) (by simp) (by simp) (by simp) (by simp) he
    · exact .change (by simp) (by simp) (by simp) (by simp) (by simp) he
    · exact .change (by simp) (by simp) (by simp) (by simp) (by simp) he
    · exact .same (by simp) (by simp) (by simp) (by simp) (by simp)
  · exact .same (by simp) (by simp) (by simp) (by simp) (by simp)

theorem updateSubscribing_moves {n : Node} (t : Bool) : Moves n (updateSubscribing n t) := by
  unfold updateSubscribing
  repeat' split
  · exact .search rfl rfl rfl rfl rfl
  · exact .search (by simp) (by simp) (by simp) (by simp) (by simp)
  · exact .same rfl rfl rfl rfl rfl
  · exact .refl n

theorem updateFollowing_moves {n : Node} (b : Bool) : Moves n (updateFollowing n b) := by
  unfold updateFollowing
  repeat' split
  · exact .search rfl rfl rfl rfl rfl
  · exact .same rfl rfl rfl rfl rfl
  · exact .search rfl rfl rfl rfl rfl
  · exact .refl n

theorem update_moves {n : Node} (t b : Bool) : Moves n (update n t b) := by
  unfold update
  split
  · exact .same rfl rfl rfl rfl rfl
  · rename_i h; exact updateSearching_moves h
  · exact updateSynchronizing_moves t
  · rename_i h; exact updateWaiting_moves h
  · rename_i h; exact updateStandingUp_moves h t
  · exact updateLeading_moves
  · exact updateLeading_moves
  · exact updateSubscribing_moves t
  · exact updateFollowing_moves b

theorem Moves.frame {n m m' : Node} (h : Moves n m) (h1 : m'.state = m.state) (h2 : m'.hist = m.hist)
    (h3 : m'.peers.length = m.peers.length) (h4 : m'.stateChangeCount = m.stateChangeCount)
    (h5 : m'.commitEnabled = m.commitEnabled) :
    Moves n m' := h.trans (.same h1 h2 h3 h4 h5)

theorem Moves.thenFail {n m : Node} (h : Moves n m) (i : Nat) : Moves n (fail m i) :=
  h.frame (by simp) (by simp) (by simp) (by simp) (by simp)

theorem sendStandupResponse_moves {n : Node} (i : Nat) (scc : Option Int) :
    Moves n (sendStandupResponse n i scc) := by
  unfold sendStandupResponse
  dsimp only
  split
  · exact .same (by simp) (by simp) (by simp) (by simp) (by simp)
  · split
    · split
      · refine Moves.frame (m := if n.state = .standingUp then changeState n .searching
            else if n.state = .leading then changeState n .standingDown else n) ?_
            (by simp) (by simp) (by simp) (by simp) (by simp)
        split
        · exact .search rfl rfl rfl rfl rfl
        · split
          · rename_i h; exact .change rfl rfl rfl rfl rfl (Or.inr (by simp [h, edge]))
          · exact .refl n
      · refine Moves.frame (m := if majoritySubscribed n then n else changeState (reconnectAll n) .searching)
            ?_ (by simp) (by simp) (by simp) (by simp) (by simp)
        split
        · exact .refl n
        · exact .search (by simp) (by simp) (by simp) (by simp) (by simp)
    · exact .same (by simp) (by simp) (by simp) (by simp) (by simp)

/-- Fields that a state walk is about are unchanged. -/
structure Still (n m : Node) : Prop where
  state : m.state = n.state
  hist : m.hist = n.hist
  len : m.peers.length = n.peers.length
  scc : m.stateChangeCount = n.stateChangeCount
  ce : m.commitEnabled = n.commitEnabled

theorem Still.moves {n m : Node} (h : Still n m) : Moves n m :=
  .same h.state h.hist h.len h.scc h.ce

theorem Still.trans {a b c : Node} (h : Still a b) (h' : Still b c) : Still a c :=
  ⟨h'.state.trans h.state, h'.hist.trans h.hist, h'.len.trans h.len, h'.scc.trans h.scc, h'.ce.trans h.ce⟩

theorem loginRecord_still (n : Node) (i : Nat) (prio : Int) (st : NState) (ver : Bytes) :
    Still n (loginRecord n i prio st ver) := by
  unfold loginRecord
  dsimp only
  repeat' split
  all_goals exact ⟨by simp, by simp, by simp, by simp, by simp⟩

theorem loginCheck_still (n : Node) (i : Nat) : Still n (loginCheck n i) := by
  unfold loginCheck
  split
  all_goals exact ⟨by simp, by simp, by simp, by simp, by simp⟩

theorem onLogin_moves {n : Node} (i : Nat) (p : Option Int) (s : Option NState) (v : Option Bytes)
    (scc : Option Int) : Moves n (onLogin n i p s v scc) := by
  unfold onLogin
  split
  · exact .same (by simp) (by simp) (by simp) (by simp) (by simp)
  · split
    · rename_i prio st ver
      split
      · exact .same (by simp) (by simp) (by simp) (by simp) (by simp)
      · have hj := (loginRecord_still n i prio st ver).trans (loginCheck_still _ i)
        dsimp only
        split
        · exact hj.moves
        · split
          · exact hj.moves.trans (sendStandupResponse_moves i scc)
          · exact hj.moves
    · exact .same (by simp) (by simp) (by simp) (by simp) (by simp)

theorem onState_moves {n : Node} (i : Nat) (s : Option NState) (p : Option Int) (scc : Option Int) :
    Moves n (onState n i s p scc) := by
  unfold onState
  dsimp only
  repeat' split
  · exact .same (by simp) (by simp) (by simp) (by simp) (by simp)
  · exact .same (by simp) (by simp) (by simp) (by simp) (by simp)
  · exact (Moves.same (by simp) (by simp) (by simp) (by simp) (by simp)).trans (sendStandupResponse_moves i scc)
  · exact .same (by simp) (by simp) (by simp) (by simp) (by simp)
  · exact .same (by simp) (by simp) (by simp) (by simp) (by simp)

theorem onStandupResponse_still {n : Node} (i : Nat) (scc : Option Int) (r : Option Bool) :
    Still n (onStandupResponse n i scc r) := by
  unfold onStandupResponse
  repeat' split
  all_goals exact ⟨by simp, by simp, by simp, by simp, by simp⟩

theorem onSynchronizeResponse_moves {n : Node} (i : Nat) (hm : Bool) (o : DbOutcome) :
    Moves n (onSynchronizeResponse n i hm o) := by
  unfold onSynchronizeResponse
  dsimp only
  split
  · exact .same (by simp) (by simp) (by simp) (by simp) (by simp)
  · rename_i hs
    have hs : n.state = .synchronizing := by simpa using hs
    repeat' split
    · exact .same (by simp) (by simp) (by simp) (by simp) (by simp)
    · exact .same (by simp) (by simp) (by simp) (by simp) (by simp)
    · exact .same (by simp) (by simp) (by simp) (by simp) (by simp)
    · exact (Moves.search (by simp) (by simp) (by simp) (by simp) (by simp)).thenFail i
    · exact .change (by simp) (by simp) (by simp) (by simp) (by simp) (Or.inr (by simp [hs, edge]))
    · exact .search (by simp) (by simp) (by simp) (by simp) (by simp)
    · exact .same (by simp) (by simp) (by simp) (by simp) (by simp)
    · exact .search (by simp) (by simp) (by simp) (by simp) (by simp)

theorem onSubscriptionApproved_moves {n : Node} (i : Nat) (o : DbOutcome) :
    Moves n (onSubscriptionApproved n i o) := by
  unfold onSubscriptionApproved
  dsimp only
  split
  · exact .same (by simp) (by simp) (by simp) (by simp) (by simp)
  · rename_i hs
    have hs : n.state = .subscribing := by simpa using hs
    repeat' split
    · exact .same (by simp) (by simp) (by simp) (by simp) (by simp)
    · exact .change (by simp) (by simp) (by simp) (by simp) (by simp) (Or.inr (by simp [hs, edge]))
    · exact (Moves.search (by simp) (by simp) (by simp) (by simp) (by simp)).thenFail i

theorem onForked_moves {n : Node} (i : Nat) : Moves n (onForked n i) := by
  unfold onForked
  dsimp only
  generalize hm : (n.setPeer i fun p => { p with forked := true }).dieIfForked = m
  have hm' : Still n m := by subst hm; exact ⟨by simp, by simp, by simp, by simp, by simp⟩
  split
  · exact hm'.moves
  · generalize hk : (if m.leadPeer = some i then
        { m with leadPeer := none }.changeState .searching else m) = k
    have hk' : Moves n k := by
      subst hk; split
      · exact hm'.moves.trans (.search rfl rfl rfl rfl rfl)
      · exact hm'.moves
    repeat' split
    · exact hk'.trans (.search rfl rfl rfl rfl rfl)
    · exact hk'.frame rfl rfl rfl rfl rfl
    · exact hk'

theorem onLoggedIn_moves {n : Node} (i : Nat) (b : Body) (o : DbOutcome) : Moves n (onLoggedIn n i b o) := by
  unfold onLoggedIn
  split
  · exact onState_moves ..
  · exact (onStandupResponse_still ..).moves
  · repeat' split
    all_goals exact .same (by simp) (by simp) (by simp) (by simp) (by simp)
  · exact onSynchronizeResponse_moves ..
  · repeat' split
    all_goals exact .same (by simp) (by simp) (by simp) (by simp) (by simp)
  · exact onSubscriptionApproved_moves ..
  · exact onForked_moves ..
  all_goals exact .refl n

theorem dispatch_moves {n : Node} (i : Nat) (b : Body) (o : DbOutcome) : Moves n (dispatch n i b o) := by
  unfold dispatch
  split
  · exact onLogin_moves ..
  · split
    · exact onLoggedIn_moves ..
    · exact (Moves.refl n).thenFail i

theorem onMessage_moves {n : Node} (i : Nat) (m : Msg) (o : DbOutcome) : Moves n (onMessage n i m o) := by
  unfold onMessage
  split
  · exact .refl n
  · split
    · exact (Moves.same (by simp) (by simp) (by simp) (by simp) (by simp)).trans (dispatch_moves ..)
    · exact (Moves.refl n).thenFail i

theorem onDisconnect_moves {n : Node} (i : Nat) : Moves n (onDisconnect n i) := by
  unfold onDisconnect
  dsimp only
  generalize hm : n.setPeer i Peer.reset = m
  have hm' : Moves n m := by subst hm; exact .same (by simp) (by simp) (by simp) (by simp) (by simp)
  generalize hk : (if m.leadPeer = some i then
      { m with leadPeer := none }.changeState .searching else m) = k
  have hk' : Moves n k := by
    subst hk; split
    · exact hm'.trans (.search rfl rfl rfl rfl rfl)
    · exact hm'
  generalize hj : (if k.syncPeer = some i then
      { k with syncPeer := none }.changeState .searching else k) = j
  have hj' : Moves n j := by
    subst hj; split
    · exact hk'.trans (.search rfl rfl rfl rfl rfl)
    · exact hk'
  repeat' split
  · exact hj'.trans (.search rfl rfl rfl rfl rfl)
  · exact hj'
  · exact hj'

theorem setPriority_moves {n : Node} (p : Int) : Moves n (setPriority n p).1 := by
  unfold setPriority
  dsimp only
  repeat' split
  · exact .refl n
  · exact .refl n
  · exact .refl n
  · exact .refl n
  · exact .same rfl rfl rfl rfl rfl
  · rename_i h
    exact .change (by simp) (by simp) (by simp) (by simp) (by simp) (Or.inr (by have := h.1; simp at this; simp [this, edge]))
  · exact .search (by simp) (by simp) (by simp) (by simp) (by simp)
  · exact .same rfl rfl rfl rfl rfl
  · exact .same rfl rfl rfl rfl rfl
  · exact .same rfl rfl rfl rfl rfl

theorem step_moves {n : Node} (ev : Ev) : Moves n (step n ev) := by
  unfold step
  split
  · exact .refl n
  · split
    · exact update_moves ..
    · split
      · exact onMessage_moves ..
      · exact .refl n
    · split
      · exact onDisconnect_moves ..
      · exact .refl n
    · exact setPriority_moves ..
    · unfold setShutdownPriority; dsimp only; split
      · exact .same rfl rfl rfl rfl rfl
      · exact .same rfl rfl rfl rfl rfl
    · exact .same rfl rfl rfl rfl rfl
    · exact .same rfl rfl rfl rfl rfl

theorem run_moves : ∀ (evs : List Ev) {n : Node}, Moves n (run n evs)
  | [], n => .refl n
  | e :: evs, n => (step_moves e).trans (run_moves evs)

end Bedrock.Node.Node
