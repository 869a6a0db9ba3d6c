import Verif.Props.Node

/-!
# Properties of the election rules (C08, C12, C13, C16, C17, C19, C20)
-/

namespace Bedrock.Node.Props
open Bedrock Bedrock.Node Bedrock.Node.Node Bedrock.Node.Spec

/-! ### C12: who is approved -/

/-- The approvals a node has sent: to whom and for which attempt. -/
def approvals (out : List Effect) : List (Nat × Option Int) :=
  out.filterMap (fun e => match e with
    | .send i (.standupResponse scc (some true)) => some (i, scc)
    | _ => none)

theorem approvals_special (out : List Effect) : approvals (special out) = approvals out := by
  unfold approvals special
  rw [List.filterMap_filter]
  congr 1
  funext e
  cases e with
  | send i m =>
    cases m with
    | standupResponse s r =>
      cases r with
      | none => rfl
      | some b => cases b <;> rfl
    | _ => rfl
  | _ => rfl

theorem approvals_of_special {a b : List Effect} (h : special a = special b) : approvals a = approvals b := by
  rw [← approvals_special a, h, approvals_special]

/-- An approval goes out only in answer to a LOGIN or STATE message by which that peer announces
that it stands up, with the number of its attempt, if the peer is not forked and not a permafollower,
the node itself is neither standing up nor leading nor standing down, and no other peer is known to
be. -/
theorem c12_approves_only_unopposed (n : Node) (ev : Ev)
    (h : approvals (step n ev).out ≠ approvals n.out) :
    ∃ i m o scc p, ev = .message i m o ∧ announces m.body = some scc ∧ announced m.body = some p ∧ p ≠ 0 ∧
      (n.peer i).forked = false ∧
      n.state ≠ .standingUp ∧ n.state ≠ .leading ∧ n.state ≠ .standingDown ∧
      (∀ j, j ≠ i → (n.peer j).state ≠ .standingUp ∧ (n.peer j).state ≠ .leading ∧
        (n.peer j).state ≠ .standingDown) ∧
      approvals (step n ev).out = approvals n.out ++ [(i, scc)] := by
  have nope : special (step n ev).out = special n.out → False := fun e => h (approvals_of_special e)
  have hd : n.dead = false := by
    cases hd : n.dead with
    | false => rfl
    | true => exact (nope (by unfold step; rw [if_pos hd])).elim
  have e : ∀ x : Node, (if n.dead then n else x) = x := by intro x; simp [hd]
  have nl : ∀ s : NState, leadish s = false → s ≠ .standingUp ∧ s ≠ .leading ∧ s ≠ .standingDown := by
    intro s hs; cases s <;> simp_all [leadish]
  cases ev with
  | update t b =>
    have es : step n (.update t b) = update n t b := e _
    rw [es] at nope; exact (nope (update_q n t b).out).elim
  | message i m o =>
    have es : step n (.message i m o) = if i < n.peers.length then onMessage n i m o else n := e _
    rw [es] at nope h ⊢
    by_cases hi : i < n.peers.length
    · rw [if_pos hi] at nope h ⊢
      rcases onMessage_cases n i m o with h' | h' | ⟨c, hh, hf, _, _, h'⟩
      · rw [h'] at nope; exact (nope rfl).elim
      · rw [h'] at nope; exact (nope (by simp)).elim
      · rw [h'] at nope ⊢
        have hlag : approvals (checkLag (n.setPeer i (fun p => { p with commitCount := c, hash := hh })) i).out =
            approvals n.out := by
          unfold checkLag; dsimp only; repeat' split
          · simp [emit, setPeer, approvals]
          · simp [emit, setPeer, approvals]
          · rfl
        have hst : (checkLag (n.setPeer i (fun p => { p with commitCount := c, hash := hh })) i).state = n.state := by
          simp
        have hpe : ∀ j, j ≠ i → ((checkLag (n.setPeer i (fun p => { p with commitCount := c, hash := hh })) i).peer j) =
            n.peer j := by
          intro j hj
          rw [checkLag_peer, setPeer_peer, if_neg (by intro h; exact hj h.1.symm)]
        have hlen : i < (checkLag (n.setPeer i (fun p => { p with commitCount := c, hash := hh })) i).peers.length := by
          simpa using hi
        rw [h'] at h
        generalize checkLag (n.setPeer i (fun p => { p with commitCount := c, hash := hh })) i = k at *
        rcases dispatch_special k i m.body o hlen with h'' | ⟨scc, p, h1, h2, h3, h4, h5⟩
        · exact absurd ((approvals_of_special h'').trans hlag) h
        · refine ⟨i, m, o, scc, p, rfl, h1, h2, h3, hf, ?_⟩
          obtain ⟨a, b⟩ := h4
          rw [hst] at a
          refine ⟨(nl _ a).1, (nl _ a).2.1, (nl _ a).2.2, ?_, ?_⟩
          · intro j hj; have := b j hj; rw [hpe j hj] at this; exact nl _ this
          · rw [← approvals_special, h5, ← hlag, ← approvals_special k.out]
            unfold approvals; simp
    · rw [if_neg hi] at nope; exact (nope rfl).elim
  | disconnect i =>
    have es : step n (.disconnect i) = if i < n.peers.length then onDisconnect n i else n := e _
    rw [es] at nope
    exfalso; apply nope
    split
    · exact (onDisconnect_q n i).out
    · rfl
  | setPriority p =>
    have es : step n (.setPriority p) = (setPriority n p).1 := e _
    rw [es] at nope; exact (nope (setPriority_q n p).out).elim
  | setShutdownPriority =>
    have es : step n .setShutdownPriority = setShutdownPriority n := e _
    rw [es] at nope
    exfalso; apply nope
    unfold setShutdownPriority; dsimp only; split
    · rfl
    · exact emit_special _ _ rfl
  | beginShutdown =>
    have es : step n .beginShutdown = { n with shuttingDown := true } := e _
    rw [es] at nope; exact (nope rfl).elim
  | database c j =>
    have es : step n (.database c j) = { n with commits := c, journal := j } := e _
    rw [es] at nope; exact (nope rfl).elim

/-- Conversely a connected full peer that announces that it stands up is approved if nothing of the
kind stands against it. -/
theorem c12_approves_unopposed (n : Node) (i c : Nat) (h : Bytes) (p : Int) (scc : Option Int) (o : DbOutcome)
    (hd : n.dead = false) (hi : i < n.peers.length) (hl : (n.peer i).loggedIn = true)
    (hf : (n.peer i).forked = false) (hs : (n.peer i).state ≠ .standingUp) (hp : p ≠ 0)
    (hu : n.state ≠ .standingUp ∧ n.state ≠ .leading ∧ n.state ≠ .standingDown)
    (ho : ∀ j, j ≠ i → (n.peer j).state ≠ .standingUp ∧ (n.peer j).state ≠ .leading ∧
        (n.peer j).state ≠ .standingDown) :
    approvals (step n (.message i ⟨some c, some h, .state (some .standingUp) (some p) scc⟩ o)).out =
      approvals n.out ++ [(i, scc)] := by
  have es : step n (.message i ⟨some c, some h, .state (some .standingUp) (some p) scc⟩ o) =
      onMessage n i ⟨some c, some h, .state (some .standingUp) (some p) scc⟩ o := by
    unfold step; simp [hd, hi]
  rw [es]
  have nl : ∀ s : NState, s ≠ .standingUp ∧ s ≠ .leading ∧ s ≠ .standingDown → leadish s = false := by
    intro s hs; cases s <;> simp_all [leadish]
  unfold onMessage
  rw [if_neg (by simp [hf])]
  dsimp only
  have hlag : approvals (checkLag (n.setPeer i (fun p => { p with commitCount := c, hash := h })) i).out =
      approvals n.out := by
    unfold checkLag; dsimp only; repeat' split
    · simp [emit, setPeer, approvals]
    · simp [emit, setPeer, approvals]
    · rfl
  have hst : (checkLag (n.setPeer i (fun p => { p with commitCount := c, hash := h })) i).state = n.state := by
    simp
  have hpe : ∀ j, j ≠ i → ((checkLag (n.setPeer i (fun p => { p with commitCount := c, hash := h })) i).peer j) =
      n.peer j := by
    intro j hj
    rw [checkLag_peer, setPeer_peer, if_neg (by intro h; exact hj h.1.symm)]
  have hpi : ((checkLag (n.setPeer i (fun p => { p with commitCount := c, hash := h })) i).peer i) =
      { n.peer i with commitCount := c, hash := h } := by
    rw [checkLag_peer, setPeer_peer, if_pos ⟨rfl, hi⟩]
  have hlen : i < (checkLag (n.setPeer i (fun p => { p with commitCount := c, hash := h })) i).peers.length := by
    simpa using hi
  generalize checkLag (n.setPeer i (fun p => { p with commitCount := c, hash := h })) i = k at *
  show approvals (if (k.peer i).loggedIn then onState k i (some .standingUp) (some p) scc else fail k i).out = _
  rw [if_pos (by rw [hpi]; exact hl)]
  unfold onState
  dsimp only
  rw [if_neg (by rw [hpi]; exact hs), if_neg (by decide), if_pos rfl]
  rcases (sendStandupResponse_out (k.setPeer i (fun q =>
      { q with priority := p, permaFollower := p = 0, state := .standingUp })) i scc).2 with h' | h'
  · exfalso
    apply h'.2
    refine ⟨⟨by rw [setPeer_state, hst]; exact nl _ hu, fun j hj => ?_⟩, ?_, ?_⟩
    · rw [setPeer_peer, if_neg (by intro h; exact hj h.1.symm), hpe j hj]; exact nl _ (ho j hj)
    · rw [setPeer_peer, if_pos ⟨rfl, hlen⟩]; simpa using hp
    · rw [setPeer_peer, if_pos ⟨rfl, hlen⟩, hpi]; exact hf
  · rw [← approvals_special, h'.1, ← hlag, ← approvals_special k.out]
    unfold approvals; simp

/-- A single denial by a connected full peer ends the attempt at the next update. -/
theorem c12_one_denial_ends_it (n : Node) (t b : Bool) (i : Nat) (hd : n.dead = false)
    (hs : n.state = .standingUp) (hf : (n.peer i).permaFollower = false) (hl : (n.peer i).loggedIn = true)
    (hv : (n.peer i).standup = .deny) :
    (step n (.update t b)).state = .searching ∧ (step n (.update t b)).hist = n.hist ++ [.searching] := by
  have hm : n.peer i ∈ n.peers := by
    by_cases hi : i < n.peers.length
    · unfold peer; rw [List.getD_eq_getElem?_getD, List.getElem?_eq_getElem hi]; exact List.getElem_mem hi
    · have : n.peer i = {} := by
        unfold peer; rw [List.getD_eq_getElem?_getD, List.getElem?_eq_none (Nat.le_of_not_lt hi)]; rfl
      rw [this] at hl; cases hl
  have es : step n (.update t b) = changeState n .searching := by
    unfold step; simp only [hd, Bool.false_eq_true, if_false]
    unfold update; simp only [hs]
    unfold updateStandingUp
    split
    · rfl
    · rw [if_pos]
      rw [List.any_eq_true]
      exact ⟨_, hm, by simp [full, hf, hl, hv]⟩
  rw [es]
  exact ⟨by simp, by rw [changeState_hist, if_neg (by simp [hs])]⟩

/-- A node that has just approved peer 1. -/
def exVoter : Node :=
  { peers := [{ loggedIn := true, state := .waiting, priority := 10 },
              { loggedIn := true, state := .waiting, priority := 20 }],
    configured := 5, state := .waiting, priority := 5, commits := 8 }

/-- The full claim of C12 does not hold: the approval is given although the candidate is eight
commits behind the node that approves (nothing in `_sendStandupResponse` compares commit counts). -/
theorem c12_approves_candidate_behind :
    approvals (step exVoter (.message 1
      ⟨some 0, some [], .state (some .standingUp) (some 20) (some 4)⟩ {})).out = [(1, some 4)] ∧
    ((step exVoter (.message 1
      ⟨some 0, some [], .state (some .standingUp) (some 20) (some 4)⟩ {})).peer 1).commitCount <
      exVoter.commits := by decide +kernel

/-- And approvals are not exclusive: the same node approves a second candidate as soon as it hears
that the first one is back to SEARCHING. -/
example : approvals (run exVoter
    [.message 1 ⟨some 0, some [], .state (some .standingUp) (some 20) (some 4)⟩ {},
     .message 0 ⟨some 8, some [], .state (some .standingUp) (some 10) (some 4)⟩ {},
     .message 1 ⟨some 0, some [], .state (some .searching) (some 20) (some 5)⟩ {},
     .message 0 ⟨some 8, some [], .state (some .searching) (some 10) (some 5)⟩ {},
     .message 0 ⟨some 8, some [], .state (some .standingUp) (some 10) (some 6)⟩ {}]).out
      = [(1, some 4), (0, some 6)] := by decide +kernel

/-- A denial is recorded and ends the attempt. -/
example : (run exNode (exElection.take 8 ++ [.message 1
    ⟨some 0, some [], .standupResponse (some 3) (some false)⟩ {}, .update false true])).hist =
    [.searching, .waiting, .standingUp, .searching] := by decide +kernel

/-! ### C16: standing down -/

/-- A leader's next update begins to stand down, and completes it, exactly if it has shutdown
priority, is asked to shut down, knows another leader, or knows a waiting peer with higher priority or
more commits. Otherwise it stays LEADING and enters no other state. -/
theorem c16_stands_down_iff (n : Node) (t b : Bool) (hd : n.dead = false) (hs : n.state = .leading) :
    let must := n.priority = 1 ∨ n.shuttingDown = true ∨
      ∃ p ∈ n.peers, p.state = .leading ∨
        (p.state = .waiting ∧ (n.priority < p.priority ∨ n.commits < p.commitCount))
    (must → (step n (.update t b)).hist = n.hist ++ [.standingDown, .searching] ∧
      (step n (.update t b)).state = .searching) ∧
    (¬ must → (step n (.update t b)).hist = n.hist ∧ (step n (.update t b)).state = .leading) := by
  intro must
  have es : step n (.update t b) = updateLeading n := by
    unfold step; simp only [hd, Bool.false_eq_true, if_false]
    unfold update; simp only [hs]
  rw [es]
  have hany : n.peers.any (standDownFor (n.emit .sendOutstanding)) = true ↔
      ∃ p ∈ n.peers, p.state = .leading ∨
        (p.state = .waiting ∧ (n.priority < p.priority ∨ n.commits < p.commitCount)) := by
    rw [List.any_eq_true]
    constructor
    · rintro ⟨p, hp, h⟩
      refine ⟨p, hp, ?_⟩
      unfold standDownFor at h
      split at h
      · rename_i h'; exact Or.inl h'
      · split at h
        · rename_i h'
          refine Or.inr ⟨h', ?_⟩
          simpa using h
        · cases h
    · rintro ⟨p, hp, h⟩
      refine ⟨p, hp, ?_⟩
      unfold standDownFor
      rcases h with h | ⟨h, h'⟩
      · rw [if_pos h]
      · rw [if_neg (by simp [h]), if_pos h]
        simpa using h'
  have key : ∀ m : Node, m.hist = n.hist → m.state = .leading →
      ∀ r, r = (if (changeState m .standingDown).state = .standingDown then
        changeState (if (changeState m .standingDown).shuttingDown then
          { changeState m .standingDown with
            out := (changeState m .standingDown).out ++
              (List.range (changeState m .standingDown).peers.length).map .shutdownSocket }
          else changeState m .standingDown) .searching
        else changeState m .standingDown) →
      r.hist = n.hist ++ [.standingDown, .searching] ∧ r.state = .searching := by
    intro m h1 h2 r hr
    rw [if_pos (by simp)] at hr
    subst hr
    constructor
    · have hx : ∀ x : Node, x.hist = n.hist ++ [.standingDown] → x.state = .standingDown →
          (changeState x .searching).hist = n.hist ++ [.standingDown, .searching] := by
        intro x h3 h4
        rw [changeState_hist, if_neg (by simp [h4]), h3]; simp
      have h5 : (changeState m .standingDown).hist = n.hist ++ [.standingDown] := by
        rw [changeState_hist, if_neg (by simp [h2]), h1]
      apply hx
      · split <;> exact h5
      · split <;> simp
    · simp
  unfold updateLeading
  dsimp only
  simp only [emit_state, hs, if_true]
  constructor
  · intro hm
    by_cases h1 : n.priority = 1
    · simp only [emit_priority, h1, if_true]
      exact key _ (by simp) (by simp [hs]) _ rfl
    · simp only [emit_priority, h1, if_false]
      by_cases h2 : n.shuttingDown = true
      · simp only [emit_shuttingDown, h2, if_true]
        exact key _ (by simp) (by simp [hs]) _ rfl
      · have h3 : n.peers.any (standDownFor (n.emit .sendOutstanding)) = true := by
          rcases hm with h | h | h
          · exact absurd h h1
          · exact absurd h h2
          · exact hany.mpr h
        simp only [emit_shuttingDown, h2, emit_peers, h3, if_true]
        exact key _ (by simp) (by simp [hs]) _ rfl
  · intro hm
    have h1 : n.priority ≠ 1 := fun h => hm (Or.inl h)
    have h2 : n.shuttingDown = false := by
      cases h : n.shuttingDown with
      | false => rfl
      | true => exact absurd (Or.inr (Or.inl h)) hm
    have h3 : n.peers.any (standDownFor (n.emit .sendOutstanding)) = false := by
      cases h : n.peers.any (standDownFor (n.emit .sendOutstanding)) with
      | false => rfl
      | true => exact absurd (Or.inr (Or.inr (hany.mp h))) hm
    simp [h1, h2, h3, hs]

/-- A leader with a waiting peer that has more commits stands down; one whose only waiting peer is
behind does not. -/
example : (run (run exNode exElection) [.message 0 ⟨some 3, some [], .followerStatus⟩ {},
    .update false true]).hist.drop 4 = [.standingDown, .searching] := by decide +kernel
example : (run (run exNode exElection) [.message 0 ⟨some 0, some [], .followerStatus⟩ {},
    .update false true]).hist.drop 4 = [] := by decide +kernel

/-! ### C17: forked nodes -/

/-- A node dies only when at least half of all full nodes of the cluster (itself included) are forked
from it; none of its other assertions can fire, in any history. -/
theorem c17_dies_only_outvoted (ps : List Peer) (c : Int) (v : Bytes) (k : Nat) (j : Nat → Bytes)
    (evs : List Ev) (h : (run (init ps c v k j) evs).dead = true) :
    clusterSize (run (init ps c v k j) evs) ≤ 2 * forkedCount (run (init ps c v k j) evs) := by
  have := run_outvoted evs (init_w ps c v k j) (fun h => by simp [init] at h) h
  unfold Outvoted at this
  omega

/-- One diverged node never takes down a healthy majority: a node forked from a single full peer in
a cluster of three or more full nodes lives. -/
theorem c17_one_diverged_node_is_survived (ps : List Peer) (c : Int) (v : Bytes) (k : Nat) (j : Nat → Bytes)
    (evs : List Ev) (h1 : forkedCount (run (init ps c v k j) evs) ≤ 1)
    (h2 : 3 ≤ clusterSize (run (init ps c v k j) evs)) : (run (init ps c v k j) evs).dead = false := by
  cases hd : (run (init ps c v k j) evs).dead with
  | false => rfl
  | true => have := c17_dies_only_outvoted ps c v k j evs hd; omega

theorem countP_modify_le (q : Peer → Bool) (f : Peer → Peer) : ∀ (ps : List Peer) (i : Nat) (p : Peer),
    ps[i]? = some p → (ps.modify i f).countP q + (if q p then 1 else 0) = ps.countP q + (if q (f p) then 1 else 0)
  | [], _, _, h => by simp at h
  | a :: ps, 0, p, h => by
    simp at h; subst h
    simp only [List.modify_zero_cons, List.countP_cons]; omega
  | a :: ps, i + 1, p, h => by
    simp at h
    have := countP_modify_le q f ps i p h
    simp only [List.modify_succ_cons, List.countP_cons]
    omega

/-- When a connected peer reports the fork, the node dies exactly if the full peers it is now known
to be forked from are a quorum (half, rounded up) of all full nodes. -/
theorem c17_dies_iff_outvoted (n : Node) (i c : Nat) (h : Bytes) (o : DbOutcome)
    (hd : n.dead = false) (hi : i < n.peers.length) (hl : (n.peer i).loggedIn = true)
    (hf : (n.peer i).forked = false) :
    (step n (.message i ⟨some c, some h, .forked⟩ o)).dead = true ↔
      (clusterSize n + 1) / 2 ≤ forkedCount n + (if (n.peer i).permaFollower then 0 else 1) := by
  have es : step n (.message i ⟨some c, some h, .forked⟩ o) = onMessage n i ⟨some c, some h, .forked⟩ o := by
    unfold step; simp [hd, hi]
  rw [es]
  unfold onMessage
  rw [if_neg (by simp [hf])]
  dsimp only
  have hpeers : (checkLag (n.setPeer i (fun p => { p with commitCount := c, hash := h })) i).peers =
      n.peers.modify i (fun p => { p with commitCount := c, hash := h }) := by
    rw [checkLag_peers]; rfl
  have hpi : ((checkLag (n.setPeer i (fun p => { p with commitCount := c, hash := h })) i).peer i) =
      { n.peer i with commitCount := c, hash := h } := by
    rw [checkLag_peer, setPeer_peer, if_pos ⟨rfl, hi⟩]
  have hdead : (checkLag (n.setPeer i (fun p => { p with commitCount := c, hash := h })) i).dead = false := by
    simpa using hd
  have hconf : (checkLag (n.setPeer i (fun p => { p with commitCount := c, hash := h })) i).configured =
      n.configured := by simp
  generalize checkLag (n.setPeer i (fun p => { p with commitCount := c, hash := h })) i = k at *
  show (if (k.peer i).loggedIn then onForked k i else fail k i).dead = true ↔ _
  rw [if_pos (by rw [hpi]; exact hl)]
  have hon : (onForked k i).dead = true ↔ (dieIfForked (k.setPeer i (fun p => { p with forked := true }))).dead = true := by
    unfold onForked
    dsimp only
    constructor
    · intro h
      split at h
      · assumption
      · rename_i hnd
        exfalso
        revert h
        generalize dieIfForked (k.setPeer i fun p => { p with forked := true }) = m at hnd
        repeat' split
        all_goals simp_all
    · intro h; rw [if_pos h]; exact h
  rw [hon, dieIfForked_dead (by simpa using hdead)]
  unfold Outvoted clusterSize forkedCount fullCount
  have hget : n.peers[i]? = some (n.peer i) := by
    unfold peer; rw [List.getD_eq_getElem?_getD, List.getElem?_eq_getElem hi]; rfl
  have hget2 : k.peers[i]? = some (k.peer i) := by
    have : i < k.peers.length := by rw [hpeers]; simpa using hi
    unfold peer; rw [List.getD_eq_getElem?_getD, List.getElem?_eq_getElem this]; rfl
  have a1 := countP_modify_le (fun p => !p.permaFollower) (fun p => { p with forked := true }) k.peers i _ hget2
  have a2 := countP_modify_le (fun p => !p.permaFollower && p.forked) (fun p => { p with forked := true }) k.peers i _ hget2
  have b1 := countP_modify_le (fun p => !p.permaFollower) (fun p => { p with commitCount := c, hash := h }) n.peers i _ hget
  have b2 := countP_modify_le (fun p => !p.permaFollower && p.forked) (fun p => { p with commitCount := c, hash := h }) n.peers i _ hget
  rw [← hpeers] at b1 b2
  have e1 : (k.setPeer i (fun p => { p with forked := true })).peers = k.peers.modify i (fun p => { p with forked := true }) := rfl
  rw [e1]
  simp only [hpi, hf, Bool.and_false, Bool.and_true, Bool.false_eq_true, if_false] at a1 a2 b1 b2
  rw [setPeer_configured, hconf]
  cases hpf : (n.peer i).permaFollower <;> simp only [hpf, Bool.not_false, Bool.not_true, if_true, Bool.false_eq_true,
    if_false] at a1 a2 b1 b2 ⊢ <;> split <;> omega

/-- In a cluster of two full nodes one fork is half the cluster: both nodes die. -/
example : (step { exVoter with peers := [{ loggedIn := true, priority := 10 }] }
    (.message 0 ⟨some 0, some [], .forked⟩ {})).dead = true := by decide +kernel
/-- In a cluster of three the node forked from one peer lives, forked from both it dies. -/
example : (run exVoter [.message 0 ⟨some 0, some [], .forked⟩ {}]).dead = false ∧
    (run exVoter [.message 0 ⟨some 0, some [], .forked⟩ {}, .message 1 ⟨some 0, some [], .forked⟩ {}]).dead = true := by
  decide +kernel

/-! ### C19: losing the quorum -/

/-- Connected full peers other than `i`, and all full peers other than `i`. -/
def connectedWithout (n : Node) (i : Nat) : Nat :=
  ((List.range n.peers.length).filter (fun j => j ≠ i ∧ (n.peer j).permaFollower = false ∧ (n.peer j).loggedIn = true)).length
def fullWithout (n : Node) (i : Nat) : Nat :=
  ((List.range n.peers.length).filter (fun j => j ≠ i ∧ (n.peer j).permaFollower = false)).length

theorem countP_eraseIdx (q : Peer → Bool) : ∀ (ps : List Peer) (i : Nat),
    (ps.eraseIdx i).countP q = ((List.range ps.length).filter (fun j => j ≠ i ∧ q (ps.getD j {}) = true)).length := by
  intro ps
  induction ps using snocInd with
  | h0 => intro i; rfl
  | h1 ps p ih =>
    intro i
    rw [List.length_append, List.length_singleton, List.range_succ, List.filter_append, List.length_append]
    have e1 : (List.range ps.length).filter (fun j => decide (j ≠ i ∧ q ((ps ++ [p]).getD j {}) = true)) =
        (List.range ps.length).filter (fun j => decide (j ≠ i ∧ q (ps.getD j {}) = true)) := by
      apply List.filter_congr
      intro j hj
      have hlt := List.mem_range.mp hj
      simp [List.getD_eq_getElem?_getD, List.getElem?_append_left hlt]
    rw [e1, ← ih i]
    by_cases hi : i < ps.length
    · rw [List.eraseIdx_append_of_lt_length hi, List.countP_append]
      congr 1
      have : ps.length ≠ i := by omega
      cases hp : q p <;> simp [List.filter_cons, hp, this]
    · rw [List.eraseIdx_append_of_length_le (Nat.le_of_not_lt hi), List.countP_append]
      congr 1
      · rw [List.eraseIdx_of_length_le (Nat.le_of_not_lt hi)]
      · by_cases hi' : i = ps.length
        · subst hi'; simp
        · have h1 : [p].eraseIdx (i - ps.length) = [p] := by
            apply List.eraseIdx_of_length_le; simp; omega
          have h2 : ps.length ≠ i := fun h => hi' h.symm
          rw [h1]
          cases hp : q p <;> simp [List.filter_cons, hp, h2]

/-- When a peer disconnects, a node that stands up, leads or stands down gives up, at once, exactly if
fewer than half of the remaining full peers are connected. -/
theorem c19_gives_up_iff (n : Node) (i : Nat) (hd : n.dead = false) (hw : W n) (hi : i < n.peers.length)
    (hs : n.state = .standingUp ∨ n.state = .leading ∨ n.state = .standingDown) :
    (step n (.disconnect i)).state =
      if 2 * connectedWithout n i < fullWithout n i then .searching else n.state := by
  have es : step n (.disconnect i) = onDisconnect n i := by unfold step; simp [hd, hi]
  rw [es]
  have hl : leadish n.state = true := by rcases hs with h | h | h <;> simp [h, leadish]
  obtain ⟨h0, h1⟩ := hw.leadish hl
  unfold onDisconnect
  dsimp only
  simp only [setPeer_leadPeer, h1, reduceCtorEq, if_false, setPeer_syncPeer, h0, setPeer_state, hl, if_true]
  have er : (n.setPeer i Peer.reset).peers.eraseIdx i = n.peers.eraseIdx i := by
    show (n.peers.modify i Peer.reset).eraseIdx i = _
    apply List.ext_getElem?
    intro j
    simp only [List.getElem?_eraseIdx, List.getElem?_modify]
    split
    · rename_i h; simp [show i ≠ j by omega]
    · rename_i h; simp [show i ≠ j + 1 by omega]
  rw [er, countP_eraseIdx, countP_eraseIdx]
  have c1 : ((List.range n.peers.length).filter (fun j => decide (j ≠ i ∧ (full (n.peers.getD j {}) && (n.peers.getD j {}).loggedIn) = true))).length
      = connectedWithout n i := by
    unfold connectedWithout; congr 1
    apply List.filter_congr; intro j _
    simp [full, peer]
  have c2 : ((List.range n.peers.length).filter (fun j => decide (j ≠ i ∧ full (n.peers.getD j {}) = true))).length
      = fullWithout n i := by
    unfold fullWithout; congr 1
    apply List.filter_congr; intro j _
    simp [full, peer]
  rw [c1, c2]
  by_cases h : 2 * connectedWithout n i < fullWithout n i
  · rw [if_pos (by omega), if_pos h]; simp
  · rw [if_neg (by omega), if_neg h]; simp

/-- In a cluster with an odd number of full nodes, a full node that keeps leading after a full peer
disconnected is still connected to a strict majority, itself included: two such nodes cannot be in
disjoint groups. -/
theorem c19_odd_cluster_keeps_majority_partial (n : Node) (i : Nat) (hd : n.dead = false) (hw : W n)
    (hi : i < n.peers.length) (hf : (n.peer i).permaFollower = false)
    (hs : n.state = .leading) (hodd : (fullCount n + 1) % 2 = 1)
    (hstay : (step n (.disconnect i)).state = .leading) :
    fullCount n + 1 < 2 * (connectedWithout n i + 1) := by
  rw [c19_gives_up_iff n i hd hw hi (Or.inr (Or.inl hs))] at hstay
  split at hstay
  · cases hstay
  · have : fullWithout n i + 1 = fullCount n := by
      have h1 := countP_eraseIdx (fun p => !p.permaFollower) n.peers i
      have h2 : ((List.range n.peers.length).filter (fun j => decide (j ≠ i ∧ (!(n.peers.getD j {}).permaFollower) = true))).length
        = fullWithout n i := by
        unfold fullWithout; congr 1
        apply List.filter_congr; intro j _
        simp [peer]
      rw [h2] at h1
      unfold fullCount
      rw [← h1]
      have hsplit : n.peers = n.peers.take i ++ n.peer i :: n.peers.drop (i + 1) := by
        unfold peer
        rw [List.getD_eq_getElem?_getD, List.getElem?_eq_getElem hi]
        simp
      conv => rhs; rw [hsplit]
      rw [List.eraseIdx_eq_take_drop_succ, List.countP_append, List.countP_append, List.countP_cons]
      simp [hf]; omega
    omega

/-- A leader of four full nodes. -/
def exLeader4 : Node :=
  { peers := [{ loggedIn := true, priority := 10, state := .following },
              { loggedIn := true, priority := 20, state := .following },
              { loggedIn := true, priority := 30, state := .following }],
    configured := 100, state := .leading, priority := 100 }

/-- With an even number of full nodes the claim fails: of four nodes the leader keeps leading with one
connected peer, that is with half of the cluster; in a cluster of two it keeps leading alone. -/
theorem c19_even_cluster_keeps_half :
    (run exLeader4 [.disconnect 0, .disconnect 1]).state = .leading ∧
    (run { exLeader4 with peers := [{ loggedIn := true, priority := 10, state := .following }] }
      [.disconnect 0]).state = .leading := by decide +kernel

/-- Losing the last connection ends it. -/
example : (run exLeader4 [.disconnect 0, .disconnect 1, .disconnect 2]).state = .searching := by decide +kernel
example : W exLeader4 := ⟨by simp [exLeader4], by simp [exLeader4], by simp [exLeader4], by simp [exLeader4],
  by simp [exLeader4]⟩

/-! ### C20: the command port -/

/-- The difference as the code computes it is the real one, for commit counts below 2^63. -/
theorem c20_difference (a b : Nat) (ha : a < 2 ^ 63) (hb : b < 2 ^ 63) : signedDiff a b = (a : Int) - b := by
  unfold signedDiff
  dsimp only
  by_cases h : b ≤ a
  · have : (a + 2 ^ 64 - b) % 2 ^ 64 = a - b := by
      have e : a + 2 ^ 64 - b = (a - b) + 2 ^ 64 := by omega
      rw [e, Nat.add_mod_right, Nat.mod_eq_of_lt (by omega)]
    rw [this, if_pos (by omega)]; omega
  · have : (a + 2 ^ 64 - b) % 2 ^ 64 = a + 2 ^ 64 - b := Nat.mod_eq_of_lt (by omega)
    rw [this, if_neg (by omega)]; omega

/-- What the command port has last been told. -/
def portBlocked (out : List Effect) : Bool :=
  out.foldl (fun b e => match e with | .blockPort => true | .unblockPort => false | _ => b) false

theorem portBlocked_special (out : List Effect) : portBlocked (special out) = portBlocked out := by
  unfold portBlocked special
  have : ∀ (l : List Effect) (b : Bool),
      (l.filter isSpecial).foldl (fun b e => match e with | .blockPort => true | .unblockPort => false | _ => b) b =
      l.foldl (fun b e => match e with | .blockPort => true | .unblockPort => false | _ => b) b := by
    intro l
    induction l with
    | nil => intro b; rfl
    | cons e l ih =>
      intro b
      rw [List.filter_cons]
      split
      · rw [List.foldl_cons, List.foldl_cons, ih]
      · rename_i h
        rw [List.foldl_cons, ih]
        congr 1
        cases e <;> simp_all [isSpecial]
  exact this out false

theorem portBlocked_of_special {a b : List Effect} (h : special a = special b) :
    portBlocked a = portBlocked b := by rw [← portBlocked_special a, h, portBlocked_special]

theorem portBlocked_append (a : List Effect) (e : Effect) (h : e ≠ .blockPort) (h' : e ≠ .unblockPort) :
    portBlocked (a ++ [e]) = portBlocked a := by
  unfold portBlocked; rw [List.foldl_append]; cases e <;> simp_all

/-- The rule, for one event: only a message that carries a commit count matters. The port is closed
if the message is from the leader the node follows (or subscribes to) and the leader is at least
12,500 commits ahead; it is opened if the sender is less than 1,000 commits ahead; otherwise, in
particular between the two limits, nothing changes. -/
def portRule (n : Node) : Ev → Bool
  | .message i ⟨some c, some _, _⟩ _ =>
    if n.dead = true ∨ n.peers.length ≤ i ∨ (n.peer i).forked = true then n.blocked
    else if n.leadPeer = some i ∧ (12500 : Int) ≤ (c : Int) - n.commits then true
    else if (c : Int) - n.commits < 1000 then false
    else n.blocked
  | _ => n.blocked

theorem step_blocked (n : Node) (ev : Ev) (hc : n.commits < 2 ^ 63)
    (hm : ∀ i c h b o, ev = .message i ⟨some c, h, b⟩ o → c < 2 ^ 63) :
    (step n ev).blocked = portRule n ev ∧
    (portBlocked n.out = n.blocked → portBlocked (step n ev).out = (step n ev).blocked) := by
  have ofQ : ∀ n' : Node, Q n n' → n'.blocked = n.blocked ∧ (portBlocked n.out = n.blocked → portBlocked n'.out = n'.blocked) := by
    intro n' hq
    exact ⟨hq.blocked, fun h => by rw [portBlocked_of_special hq.out, hq.blocked]; exact h⟩
  cases hd : n.dead with
  | true =>
    have es : step n ev = n := by unfold step; rw [if_pos hd]
    rw [es]
    refine ⟨?_, id⟩
    unfold portRule; split
    · rw [if_pos (Or.inl hd)]
    · rfl
  | false =>
    have e : ∀ x : Node, (if n.dead then n else x) = x := by intro x; simp [hd]
    cases ev with
    | update t b =>
      have es : step n (.update t b) = update n t b := e _
      rw [es]; exact ofQ _ (update_q n t b)
    | message i m o =>
      have es : step n (.message i m o) = if i < n.peers.length then onMessage n i m o else n := e _
      rw [es]
      obtain ⟨c, h, b⟩ := m
      by_cases hi : i < n.peers.length
      · rw [if_pos hi]
        unfold onMessage
        by_cases hf : (n.peer i).forked = true
        · rw [if_pos hf]
          refine ⟨?_, id⟩
          unfold portRule; split
          · rename_i h; cases h; rw [if_pos (Or.inr (Or.inr hf))]
          · rfl
        · rw [if_neg hf]
          cases c with
          | none => exact ofQ _ ⟨by simp, by simp⟩
          | some c =>
            cases h with
            | none => exact ofQ _ ⟨by simp, by simp⟩
            | some h =>
              have hcc := hm i c (some h) b o rfl
              dsimp only
              have hpi : ((n.setPeer i (fun p => { p with commitCount := c, hash := h })).peer i).commitCount = c := by
                rw [setPeer_peer, if_pos ⟨rfl, hi⟩]
              have hdiff : signedDiff ((n.setPeer i (fun p => { p with commitCount := c, hash := h })).peer i).commitCount
                  (n.setPeer i (fun p => { p with commitCount := c, hash := h })).commits = (c : Int) - n.commits := by
                rw [hpi, setPeer_commits]; exact c20_difference _ _ hcc hc
              have hlag : (checkLag (n.setPeer i (fun p => { p with commitCount := c, hash := h })) i).blocked =
                    (if n.leadPeer = some i ∧ (12500 : Int) ≤ (c : Int) - n.commits then true
                      else if (c : Int) - n.commits < 1000 then false else n.blocked) ∧
                  (portBlocked n.out = n.blocked →
                    portBlocked (checkLag (n.setPeer i (fun p => { p with commitCount := c, hash := h })) i).out =
                    (checkLag (n.setPeer i (fun p => { p with commitCount := c, hash := h })) i).blocked) := by
                unfold checkLag
                dsimp only
                rw [hdiff]
                simp only [setPeer_leadPeer, setPeer_blocked]
                cases hb : n.blocked with
                | true =>
                  simp only [Bool.true_eq_false, and_false, if_false, and_true]
                  by_cases h1 : n.leadPeer = some i ∧ (12500 : Int) ≤ (c : Int) - n.commits
                  · rw [if_pos h1, if_neg (by omega)]
                    exact ⟨by simp [hb], fun hh => by simpa [hb] using hh⟩
                  · rw [if_neg h1]
                    by_cases h2 : (c : Int) - n.commits < 1000
                    · simp only [h2, if_true]
                      exact ⟨trivial, fun _ => by simp [emit, portBlocked, List.foldl_append]⟩
                    · simp only [h2, if_false]
                      exact ⟨by simp [hb], fun hh => by simpa [hb] using hh⟩
                | false =>
                  simp only [and_true, Bool.false_eq_true, and_false, if_false]
                  by_cases h1 : n.leadPeer = some i ∧ (12500 : Int) ≤ (c : Int) - n.commits
                  · simp only [h1, and_self, if_true]
                    exact ⟨trivial, fun _ => by simp [emit, portBlocked, List.foldl_append]⟩
                  · rw [if_neg h1, if_neg h1]
                    exact ⟨by simp [hb], fun hh => by simpa [hb] using hh⟩
              have hki : i < (checkLag (n.setPeer i (fun p => { p with commitCount := c, hash := h })) i).peers.length := by
                simpa using hi
              generalize (checkLag (n.setPeer i (fun p => { p with commitCount := c, hash := h })) i) = k at hlag hki
              have hrule : portRule n (.message i ⟨some c, some h, b⟩ o) =
                  (if n.leadPeer = some i ∧ (12500 : Int) ≤ (c : Int) - n.commits then true
                      else if (c : Int) - n.commits < 1000 then false else n.blocked) := by
                show (if n.dead = true ∨ n.peers.length ≤ i ∨ (n.peer i).forked = true then n.blocked else _) = _
                rw [if_neg]
                rintro (h | h | h)
                · rw [hd] at h; cases h
                · omega
                · exact hf h
              rw [hrule]
              refine ⟨(dispatch_blocked k i b o).trans hlag.1, fun hh => ?_⟩
              have hk := hlag.2 hh
              rw [dispatch_blocked, ← hk]
              rcases dispatch_special k i b o hki with h'' | ⟨scc, p, _, _, _, _, h''⟩
              · exact portBlocked_of_special h''
              · rw [← portBlocked_special, h'', portBlocked_append _ _ (by simp) (by simp), portBlocked_special]
      · rw [if_neg hi]
        refine ⟨?_, id⟩
        unfold portRule; split
        · rename_i h; cases h; rw [if_pos (Or.inr (Or.inl (Nat.le_of_not_lt hi)))]
        · rfl
    | disconnect i =>
      have es : step n (.disconnect i) = if i < n.peers.length then onDisconnect n i else n := e _
      rw [es]
      split
      · exact ofQ _ (onDisconnect_q n i)
      · exact ofQ _ ⟨rfl, rfl⟩
    | setPriority p =>
      have es : step n (.setPriority p) = (setPriority n p).1 := e _
      rw [es]; exact ofQ _ (setPriority_q n p)
    | setShutdownPriority =>
      have es : step n .setShutdownPriority = setShutdownPriority n := e _
      rw [es]
      refine ofQ _ ?_
      unfold setShutdownPriority; dsimp only; split
      · exact ⟨rfl, rfl⟩
      · exact ⟨rfl, emit_special _ _ rfl⟩
    | beginShutdown =>
      have es : step n .beginShutdown = { n with shuttingDown := true } := e _
      rw [es]; exact ofQ _ ⟨rfl, rfl⟩
    | database c j =>
      have es : step n (.database c j) = { n with commits := c, journal := j } := e _
      rw [es]; exact ofQ _ ⟨rfl, rfl⟩

end Bedrock.Node.Props
