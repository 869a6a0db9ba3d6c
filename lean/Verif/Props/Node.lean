import Verif.Lemmas.NodeOut

/-!
# Properties of the election and of the node's state machine

C08 (the node's half), C11-C20. `init` is a freshly constructed node with an arbitrary peer table,
`run` an arbitrary schedule of ticks, messages (any content, from any peer), disconnects, priority
changes and database changes.
-/

namespace Bedrock.Node.Props
open Bedrock Bedrock.Node Bedrock.Node.Node Bedrock.Node.Spec

/-! ### C14: the state machine -/

theorem run_append (n : Node) (a b : List Ev) : run n (a ++ b) = run (run n a) b := by
  unfold run; rw [List.foldl_append]

/-- The states a node goes through, from its construction, form a walk along documented edges, and
the walk ends in its current state. -/
theorem c14_walk (ps : List Peer) (c : Int) (v : Bytes) (k : Nat) (j : Nat → Bytes) (evs : List Ev) :
    Walk (edge (!ps.isEmpty)) .unknown (run (init ps c v k j) evs).hist
      (run (init ps c v k j) evs).state := by
  have h := run_moves evs (n := init ps c v k j)
  obtain ⟨l, h1, h2, _⟩ := h.walk
  have hp : (init ps c v k j).peers.isEmpty = ps.isEmpty := isEmpty_congr (by simp [init])
  rw [hp] at h2
  rw [h1]
  exact ⟨rfl, h2⟩

theorem walk_adjacent {e : NState → NState → Bool} : ∀ {l : List NState} {a b : NState},
    Walk e a l b → ∀ (i : Nat) (x y : NState), (a :: l)[i]? = some x → l[i]? = some y → e x y = true
  | [], _, _, _, _, _, _, _, h2 => by simp at h2
  | z :: l, a, b, h, 0, x, y, h1, h2 => by
    simp at h1 h2; subst h1; subst h2; exact h.1
  | z :: l, a, b, h, i + 1, x, y, h1, h2 => by
    simp at h1 h2
    exact walk_adjacent h.2 i x y (by simpa using h1) h2

/-- With peers, a node never leads without having stood up immediately before. -/
theorem c14_leads_only_after_standing_up (ps : List Peer) (c : Int) (v : Bytes) (k : Nat)
    (j : Nat → Bytes) (evs : List Ev) (hp : ps ≠ []) (i : Nat)
    (h : (run (init ps c v k j) evs).hist[i]? = some .leading) :
    ∃ i', i = i' + 1 ∧ (run (init ps c v k j) evs).hist[i']? = some .standingUp := by
  have hw := c14_walk ps c v k j evs
  have he : ps.isEmpty = false := by cases ps <;> simp_all
  rw [he] at hw
  generalize (run (init ps c v k j) evs).hist = l at *
  have hlt : i < (NState.unknown :: l).length := by
    have := (List.getElem?_eq_some_iff.mp h).1; simp; omega
  have ha := walk_adjacent hw i _ _ (List.getElem?_eq_getElem hlt) h
  cases i with
  | zero => simp [edge] at ha
  | succ i =>
    refine ⟨i, rfl, ?_⟩
    have hlt' : i < l.length := by simpa using hlt
    simp only [List.getElem_cons_succ] at ha
    rw [List.getElem?_eq_getElem hlt']
    cases hx : l[i] <;> simp [hx, edge] at ha ⊢

/-- A node never follows without having subscribed immediately before. -/
theorem c14_follows_only_after_subscribing (ps : List Peer) (c : Int) (v : Bytes) (k : Nat)
    (j : Nat → Bytes) (evs : List Ev) (i : Nat)
    (h : (run (init ps c v k j) evs).hist[i]? = some .following) :
    ∃ i', i = i' + 1 ∧ (run (init ps c v k j) evs).hist[i']? = some .subscribing := by
  have hw := c14_walk ps c v k j evs
  generalize (run (init ps c v k j) evs).hist = l at *
  have hlt : i < (NState.unknown :: l).length := by
    have := (List.getElem?_eq_some_iff.mp h).1; simp; omega
  have ha := walk_adjacent hw i _ _ (List.getElem?_eq_getElem hlt) h
  cases i with
  | zero => simp [edge] at ha
  | succ i =>
    refine ⟨i, rfl, ?_⟩
    have hlt' : i < l.length := by simpa using hlt
    simp only [List.getElem_cons_succ] at ha
    rw [List.getElem?_eq_getElem hlt']
    cases hx : l[i] <;> simp [hx, edge] at ha ⊢

/-- A node has a leader to follow exactly in SUBSCRIBING and FOLLOWING, a peer to synchronise from
exactly in SYNCHRONIZING, and both are peers it knows. None of the code's assertions on them fires. -/
theorem c14_lead_and_sync_peer (ps : List Peer) (c : Int) (v : Bytes) (k : Nat) (j : Nat → Bytes)
    (evs : List Ev) :
    let n := run (init ps c v k j) evs
    (n.leadPeer.isSome = true ↔ n.state = .subscribing ∨ n.state = .following) ∧
    (n.syncPeer.isSome = true ↔ n.state = .synchronizing) ∧
    (∀ i, n.leadPeer = some i ∨ n.syncPeer = some i → i < ps.length) := by
  intro n
  have hw : W n := run_w evs (init_w ps c v k j)
  have hlen : n.peers.length = ps.length := by
    rw [(run_moves evs (n := init ps c v k j)).len]; simp [init]
  refine ⟨⟨?_, ?_⟩, ⟨?_, ?_⟩, ?_⟩
  · intro h
    by_cases hs : n.state = .subscribing ∨ n.state = .following
    · exact hs
    · have := hw.lead0 (fun h => hs (Or.inl h)) (fun h => hs (Or.inr h)); simp [this] at h
  · intro h; obtain ⟨l, hl, _⟩ := hw.lead1 h; simp [hl]
  · intro h
    by_cases hs : n.state = .synchronizing
    · exact hs
    · have := hw.sync0 hs; simp [this] at h
  · intro h; obtain ⟨l, hl, _⟩ := hw.sync1 h; simp [hl]
  · rintro i (h | h)
    · by_cases hs : n.state = .subscribing ∨ n.state = .following
      · obtain ⟨l, hl, hlt⟩ := hw.lead1 hs; rw [h] at hl; cases hl; omega
      · have := hw.lead0 (fun h => hs (Or.inl h)) (fun h => hs (Or.inr h)); simp [this] at h
    · by_cases hs : n.state = .synchronizing
      · obtain ⟨l, hl, hlt⟩ := hw.sync1 hs; rw [h] at hl; cases hl; omega
      · have := hw.sync0 hs; simp [this] at h

/-! #### An example cluster -/

/-- Three full peers, of which two connect. -/
def exPeers : List Peer := [{}, {}, {}]

def login (p : Int) (s : NState) (c : Nat) : Msg :=
  { commitCount := some c, hash := some [], body := .login (some p) (some s) (some [1]) (some 7) }

/-- Two peers log in, after which the node finds itself up to date and waits; it reconnects (the
priority becomes its real one), stands up, is approved by both and leads. -/
def exElection : List Ev :=
  [ .message 0 (login 10 .waiting 0) {}, .message 1 (login 20 .waiting 0) {}, .update false true,
    .disconnect 0, .disconnect 1,
    .message 0 (login 10 .waiting 0) {}, .message 1 (login 20 .waiting 0) {}, .update false true,
    .message 0 { commitCount := some 0, hash := some [], body := .standupResponse (some 3) (some true) } {},
    .message 1 { commitCount := some 0, hash := some [], body := .standupResponse (some 3) (some true) } {},
    .update false true ]

def exNode : Node := init exPeers 100 [1] 0 (fun _ => [])

example : (run exNode exElection).hist = [.searching, .waiting, .standingUp, .leading] := by decide +kernel
example : (run exNode (exElection ++ [.update false true])).state = .leading := by decide +kernel
/-- A node that follows. -/
def exFollow : List Ev :=
  [ .message 0 (login 200 .leading 0) {}, .message 1 (login 20 .waiting 0) {}, .update false true,
    .disconnect 0, .disconnect 1,
    .message 0 (login 200 .leading 0) {}, .message 1 (login 20 .waiting 0) {}, .update false true,
    .message 0 { commitCount := some 0, hash := some [], body := .subscriptionApproved } {} ]
example : (run exNode exFollow).hist = [.searching, .waiting, .subscribing, .following] := by decide +kernel
example : (run exNode exFollow).leadPeer = some 0 := by decide +kernel

/-! ### C15: stale responses -/

/-- A response that names another attempt (by the node's state-change count), or arrives in another
state, has exactly the effect of a message that only reports the peer's commit. -/
theorem c15_stale_ignored (n : Node) (i : Nat) (c : Option Nat) (h : Option Bytes) (scc : Option Int)
    (r : Option Bool) (o : DbOutcome)
    (hs : n.state ≠ .standingUp ∨ scc.getD 0 ≠ (n.stateChangeCount : Int)) :
    onMessage n i ⟨c, h, .standupResponse scc r⟩ o = onMessage n i ⟨c, h, .followerStatus⟩ o := by
  unfold onMessage
  split
  · rfl
  · cases c <;> cases h
    · rfl
    · rfl
    · rfl
    · rename_i c h
      dsimp only
      generalize hk : ((n.setPeer i fun p => { p with commitCount := c, hash := h }).checkLag i) = k
      have h1 : k.state = n.state := by subst hk; simp
      have h2 : k.stateChangeCount = n.stateChangeCount := by subst hk; simp
      have : onStandupResponse k i scc r = k := by
        unfold onStandupResponse
        rcases hs with hs | hs
        · rw [if_neg (by rw [h1]; exact hs)]
        · split
          · rw [if_pos (by rw [h2]; exact hs)]
          · rfl
      show (if (k.peer i).loggedIn then onStandupResponse k i scc r else fail k i) =
        (if (k.peer i).loggedIn then k else fail k i)
      rw [this]

/-- The state-change count never repeats: if it is the same at two points of a history, the node
did not change state in between. So each stand-up attempt has its own number. -/
theorem c15_attempts_are_numbered (n : Node) (evs1 evs2 : List Ev)
    (h : (run n (evs1 ++ evs2)).stateChangeCount = (run n evs1).stateChangeCount) :
    (run n (evs1 ++ evs2)).hist = (run n evs1).hist ∧ (run n (evs1 ++ evs2)).state = (run n evs1).state := by
  rw [run_append] at h ⊢
  obtain ⟨l, h1, h2, h3⟩ := (run_moves evs2 (n := run n evs1)).walk
  have hl : l = [] := by cases l with
    | nil => rfl
    | cons a l => rw [List.length_cons] at h3; omega
  subst hl
  exact ⟨by simpa using h1, h2.symm⟩

/-- Peer `i` approved the stand-up attempt `scc` at some point of the history: it sent a response
with that number while the node was standing up in that attempt. -/
def ApprovedBy (n0 : Node) (evs : List Ev) (scc : Nat) (i : Nat) : Prop :=
  ∃ pre post c h s o, evs = pre ++ .message i ⟨some c, some h, .standupResponse s (some true)⟩ o :: post ∧
    (run n0 pre).state = .standingUp ∧ (run n0 pre).stateChangeCount = scc ∧ s.getD 0 = (scc : Int)

theorem ApprovedBy.more {n0 : Node} {evs : List Ev} {scc i : Nat} (h : ApprovedBy n0 evs scc i) (e : Ev) :
    ApprovedBy n0 (evs ++ [e]) scc i := by
  obtain ⟨pre, post, c, hh, s, o, h1, h2⟩ := h
  exact ⟨pre, post ++ [e], c, hh, s, o, by rw [h1]; simp, h2⟩

theorem dispatch_vote (k : Node) (i : Nat) (s : Option Int) (r : Option Bool) (o : DbOutcome) :
    dispatch k i (.standupResponse s r) o = fail k i ∨ dispatch k i (.standupResponse s r) o = k ∨
    ∃ r', r = some r' ∧ k.state = .standingUp ∧ s.getD 0 = (k.stateChangeCount : Int) ∧
      dispatch k i (.standupResponse s r) o =
        k.setPeer i (fun p => { p with standup := if r' then .approve else .deny }) := by
  show (if (k.peer i).loggedIn then onStandupResponse k i s r else fail k i) = fail k i ∨
    (if (k.peer i).loggedIn then onStandupResponse k i s r else fail k i) = k ∨
    ∃ r', r = some r' ∧ k.state = .standingUp ∧ s.getD 0 = (k.stateChangeCount : Int) ∧
      (if (k.peer i).loggedIn then onStandupResponse k i s r else fail k i) = _
  split
  · unfold onStandupResponse
    split
    · rename_i hs
      split
      · exact Or.inr (Or.inl rfl)
      · rename_i hc
        cases r with
        | none => exact Or.inl rfl
        | some r => exact Or.inr (Or.inr ⟨r, rfl, hs, by simpa using hc, rfl⟩)
    · exact Or.inr (Or.inl rfl)
  · exact Or.inl rfl

/-- How votes and stand-up attempts can change in one step. -/
theorem step_votes {n : Node} (ev : Ev) (hp : n.peers ≠ []) :
    (∀ i, ((step n ev).peer i).standup = .approve → (n.peer i).standup = .approve ∨
      ∃ c h s o, ev = .message i ⟨some c, some h, .standupResponse s (some true)⟩ o ∧
        n.state = .standingUp ∧ s.getD 0 = (n.stateChangeCount : Int)) ∧
    ((step n ev).state = .standingUp →
      (n.state = .standingUp ∧ (step n ev).stateChangeCount = n.stateChangeCount) ∨
      ∀ i, ((step n ev).peer i).standup = .none) := by
  have ofK : ∀ n' : Node, K n n' →
      (∀ i, (n'.peer i).standup = .approve → (n.peer i).standup = .approve ∨
        ∃ c h s o, ev = .message i ⟨some c, some h, .standupResponse s (some true)⟩ o ∧
          n.state = .standingUp ∧ s.getD 0 = (n.stateChangeCount : Int)) ∧
      (n'.state = .standingUp →
        (n.state = .standingUp ∧ n'.stateChangeCount = n.stateChangeCount) ∨
        ∀ i, (n'.peer i).standup = .none) := by
    intro n' hk
    refine ⟨fun i hi => Or.inl ?_, fun h => Or.inl (hk.up h)⟩
    rcases hk.keep i with h | h
    · rw [← h]; exact hi
    · rw [h] at hi; cases hi
  cases hd : n.dead with
  | true =>
    have : step n ev = n := by unfold step; rw [if_pos hd]
    rw [this]; exact ofK n (.refl n)
  | false =>
    have e : ∀ x : Node, (if n.dead then n else x) = x := by intro x; simp [hd]
    cases ev with
    | update t b =>
      have es : step n (.update t b) = update n t b := e _
      rw [es]
      unfold update
      split
      · exact ofK _ (.frame rfl rfl rfl rfl rfl)
      · exact ofK _ (updateSearching_k hp)
      · exact ofK _ (updateSynchronizing_k t)
      · rcases updateWaiting_k (n := n) with h | ⟨h, _⟩
        · exact ofK _ h
        · have hv : ∀ i, ((updateWaiting n).peer i).standup = .none := by
            intro i
            rw [h, changeState_field _ _ (·.standup) (fun _ _ _ => rfl)]
            unfold peer
            simp only [List.getD_eq_getElem?_getD, List.getElem?_map]
            cases n.peers[i]? <;> rfl
          exact ⟨fun i hi => (by rw [hv i] at hi; cases hi), fun _ => Or.inr hv⟩
      · rcases updateStandingUp_k (n := n) t with h | ⟨h, _⟩
        · exact ofK _ h
        · rw [h]
          refine ⟨fun i hi => Or.inl ?_, fun h => by simp at h⟩
          rw [← changeState_field n .leading (·.standup) (fun _ _ _ => rfl)]; exact hi
      · rename_i hs
        obtain ⟨h1, h2, _⟩ := updateLeading_k (Or.inl hs)
        refine ⟨fun i hi => Or.inl ?_, fun h => absurd h h2⟩
        rcases h1 i with h | h
        · rw [← h]; exact hi
        · rw [h] at hi; cases hi
      · rename_i hs
        obtain ⟨h1, h2, _⟩ := updateLeading_k (Or.inr hs)
        refine ⟨fun i hi => Or.inl ?_, fun h => absurd h h2⟩
        rcases h1 i with h | h
        · rw [← h]; exact hi
        · rw [h] at hi; cases hi
      · exact ofK _ (updateSubscribing_k t)
      · exact ofK _ (updateFollowing_k b)
    | message j m o =>
      by_cases hj : j < n.peers.length
      · have es : step n (.message j m o) = onMessage n j m o := by
          show (if n.dead then n else if j < n.peers.length then onMessage n j m o else n) = _
          rw [e, if_pos hj]
        rw [es]
        by_cases hb : ∀ s r, m.body ≠ .standupResponse s r
        · exact ofK _ (onMessage_k j m o hb)
        · obtain ⟨c, hh, body⟩ := m
          have : ∃ s r, body = .standupResponse s r := by
            cases body <;> first | exact ⟨_, _, rfl⟩ | exact absurd (by intro s r; simp) hb
          obtain ⟨s, r, rfl⟩ := this
          rcases onMessage_cases n j ⟨c, hh, .standupResponse s r⟩ o with h | h | ⟨c', h', _, hc, hh', h⟩
          · rw [h]; exact ofK _ (.refl n)
          · rw [h]; exact ofK _ (.fail j)
          · rw [h]
            dsimp only at hc hh' ⊢
            subst hc; subst hh'
            have hk := record_k (n := n) j c' h'
            have hst : (checkLag (n.setPeer j (fun p => { p with commitCount := c', hash := h' })) j).state =
              n.state := by simp
            have hsc : (checkLag (n.setPeer j (fun p => { p with commitCount := c', hash := h' })) j).stateChangeCount =
              n.stateChangeCount := by simp
            generalize (checkLag (n.setPeer j (fun p => { p with commitCount := c', hash := h' })) j) = k
              at hk hst hsc ⊢
            rcases dispatch_vote k j s r o with h | h | ⟨r', hr, hup, hscc, h⟩
            · rw [h]; exact ofK _ (hk.thenFail j)
            · rw [h]; exact ofK _ hk
            · rw [h]
              refine ⟨fun i hi => ?_, fun hs => Or.inl ?_⟩
              · rw [setPeer_peer] at hi
                split at hi
                · rename_i hij
                  obtain ⟨rfl, _⟩ := hij
                  right
                  cases r' with
                  | false => simp at hi
                  | true => exact ⟨c', h', s, o, by rw [hr], by rw [← hst]; exact hup, by rw [← hsc]; exact hscc⟩
                · left
                  rcases hk.keep i with h | h
                  · rw [← h]; exact hi
                  · rw [h] at hi; cases hi
              · exact ⟨by rw [← hst]; exact hup, by simpa using hsc⟩
      · have es : step n (.message j m o) = n := by
          show (if n.dead then n else if j < n.peers.length then onMessage n j m o else n) = _
          rw [e, if_neg hj]
        rw [es]; exact ofK _ (.refl n)
    | disconnect j =>
      have es : step n (.disconnect j) = if j < n.peers.length then onDisconnect n j else n := e _
      rw [es]
      split
      · exact ofK _ (onDisconnect_k j)
      · exact ofK _ (.refl n)
    | setPriority p =>
      have es : step n (.setPriority p) = (setPriority n p).1 := e _
      rw [es]
      have hk : Keep n (setPriority n p).1 ∧ ((setPriority n p).1.state = .standingUp →
          n.state = .standingUp ∧ (setPriority n p).1.stateChangeCount = n.stateChangeCount) := by
        have c : ∀ (m : Node) (s : NState), Keep m (m.changeState s) := fun m s i =>
          Or.inl (changeState_field m _ (·.standup) (fun _ _ _ => rfl) i)
        unfold setPriority
        dsimp only
        repeat' split
        · exact ⟨.of_eq rfl, fun h => ⟨h, rfl⟩⟩
        · exact ⟨.of_eq rfl, fun h => ⟨h, rfl⟩⟩
        · exact ⟨.of_eq rfl, fun h => ⟨h, rfl⟩⟩
        · exact ⟨.of_eq rfl, fun h => ⟨h, rfl⟩⟩
        · exact ⟨.of_eq rfl, fun h => ⟨h, rfl⟩⟩
        · exact ⟨Keep.trans (.of_eq (by simp)) (c _ _), by simp⟩
        · exact ⟨Keep.trans (.of_eq (by simp)) (c _ _), by simp⟩
        · exact ⟨.of_eq (by simp), fun h => ⟨by simpa using h, by simp⟩⟩
        · exact ⟨.of_eq (by simp), fun h => ⟨by simpa using h, by simp⟩⟩
        · exact ⟨.of_eq (by simp), fun h => ⟨by simpa using h, by simp⟩⟩
      refine ⟨fun i hi => Or.inl ?_, fun h => Or.inl (hk.2 h)⟩
      rcases hk.1 i with h | h
      · rw [← h]; exact hi
      · rw [h] at hi; cases hi
    | setShutdownPriority =>
      have es : step n .setShutdownPriority = setShutdownPriority n := e _
      rw [es]
      unfold setShutdownPriority
      dsimp only
      split
      · exact ⟨fun i hi => Or.inl hi, fun h => Or.inl ⟨h, rfl⟩⟩
      · exact ⟨fun i hi => Or.inl hi, fun h => Or.inl ⟨h, rfl⟩⟩
    | beginShutdown =>
      have es : step n .beginShutdown = { n with shuttingDown := true } := e _
      rw [es]; exact ⟨fun i hi => Or.inl hi, fun h => Or.inl ⟨h, rfl⟩⟩
    | database c j =>
      have es : step n (.database c j) = { n with commits := c, journal := j } := e _
      rw [es]; exact ⟨fun i hi => Or.inl hi, fun h => Or.inl ⟨h, rfl⟩⟩

theorem snocInd {α : Type} {P : List α → Prop} (h0 : P []) (h1 : ∀ l a, P l → P (l ++ [a])) (l : List α) :
    P l := by
  have : ∀ l : List α, P l.reverse := by
    intro l
    induction l with
    | nil => exact h0
    | cons a l ih => rw [List.reverse_cons]; exact h1 _ _ ih
  rw [← List.reverse_reverse l]; exact this _

/-- Every approval a node counts while standing up was sent for the current attempt, during the
current attempt. -/
theorem c15_counted_votes_are_current (ps : List Peer) (c : Int) (v : Bytes) (k : Nat) (j : Nat → Bytes)
    (evs : List Ev) (hp : ps ≠ []) (i : Nat)
    (hs : (run (init ps c v k j) evs).state = .standingUp)
    (hv : ((run (init ps c v k j) evs).peer i).standup = .approve) :
    ApprovedBy (init ps c v k j) evs (run (init ps c v k j) evs).stateChangeCount i := by
  induction evs using snocInd generalizing i with
  | h0 => exact absurd hs (by show (init ps c v k j).state ≠ _; simp [init])
  | h1 evs e ih =>
    have er : run (init ps c v k j) (evs ++ [e]) = step (run (init ps c v k j) evs) e := run_append ..
    have hne : (run (init ps c v k j) evs).peers ≠ [] := by
      have hl := (run_moves evs (n := init ps c v k j)).len
      intro h0; rw [h0] at hl; simp [init] at hl; exact hp (List.length_eq_zero_iff.mp hl.symm)
    obtain ⟨h1, h2⟩ := step_votes (n := run (init ps c v k j) evs) e hne
    rw [er] at hs hv ⊢
    rcases h2 hs with ⟨hs', hscc⟩ | h2
    · rw [hscc]
      rcases h1 i hv with hv' | ⟨c', h', s, o, he, hup, hse⟩
      · exact (ih i hs' hv').more e
      · exact ⟨evs, [], c', h', s, o, by rw [he], hup, rfl, hse⟩
    · rw [h2 i] at hv; cases hv

/-- The hypotheses are met: after two approvals for attempt 3 both are counted. -/
example : (run exNode (exElection.take 10)).state = .standingUp ∧
    (run exNode (exElection.take 10)).stateChangeCount = 3 ∧
    ((run exNode (exElection.take 10)).peer 1).standup = .approve := by decide +kernel

/-- And an approval of attempt 2 that arrives in attempt 3 is not. -/
example : ((run exNode (exElection.take 8 ++ [.message 1
    { commitCount := some 0, hash := some [], body := .standupResponse (some 2) (some true) } {}])).peer 1).standup
      = .none := by decide +kernel

/-! ### C11: elections need a majority -/

theorem countP_eq_indices (q : Peer → Bool) (hq : q {} = false) (ps : List Peer) :
    ps.countP q = ((List.range ps.length).filter (fun i => q (ps.getD i {}))).length := by
  induction ps using snocInd with
  | h0 => rfl
  | h1 ps p ih =>
    rw [List.countP_append, List.length_append, List.length_singleton, List.range_succ, List.filter_append,
      List.length_append]
    have e1 : (List.range ps.length).filter (fun i => q ((ps ++ [p]).getD i {})) =
        (List.range ps.length).filter (fun i => q (ps.getD i {})) := by
      apply List.filter_congr
      intro i hi
      have hlt := List.mem_range.mp hi
      simp [List.getD_eq_getElem?_getD, List.getElem?_append_left hlt]
    rw [e1, ← ih]
    congr 1
    cases hp : q p <;> simp [List.filter_cons, hp]

/-- The only way into LEADING for a node with peers. -/
theorem step_enters_leading {n : Node} {ev : Ev} (hp : n.peers ≠ []) (h0 : n.state ≠ .leading)
    (h1 : (step n ev).state = .leading) :
    n.state = .standingUp ∧ n.shuttingDown = false ∧
    (∀ p ∈ n.peers, ¬ (full p = true ∧ p.loggedIn = true ∧ p.standup = .deny)) ∧
    n.peers.countP full ≤ 2 * n.peers.countP (fun p => full p && p.loggedIn && p.standup = .approve) := by
  have ofK : ∀ n' : Node, K n n' → n'.state = .leading → False := fun n' hk h => h0 (hk.leading h)
  have hd : n.dead = false := by
    cases hd : n.dead with
    | false => rfl
    | true => exact absurd (by rw [show step n ev = n by unfold step; rw [if_pos hd]] at h1; exact h1) h0
  have e : ∀ x : Node, (if n.dead then n else x) = x := by intro x; simp [hd]
  cases ev with
  | update t b =>
    have es : step n (.update t b) = update n t b := e _
    rw [es] at h1
    unfold update at h1
    split at h1
    · exact (ofK _ (.frame rfl rfl rfl rfl rfl) h1).elim
    · exact (ofK _ (updateSearching_k hp) h1).elim
    · exact (ofK _ (updateSynchronizing_k t) h1).elim
    · rcases updateWaiting_k (n := n) with h | ⟨h, _⟩
      · exact (ofK _ h h1).elim
      · rw [h] at h1; simp at h1
    · rename_i hs
      rcases updateStandingUp_k (n := n) t with h | ⟨_, h2, h3, h4⟩
      · exact (ofK _ h h1).elim
      · exact ⟨hs, h2, h3, h4⟩
    · rename_i hs; exact absurd hs h0
    · rename_i hs
      exact absurd ((updateLeading_k (Or.inr hs)).2.2.1 h1) h0
    · exact (ofK _ (updateSubscribing_k t) h1).elim
    · exact (ofK _ (updateFollowing_k b) h1).elim
  | message j m o =>
    have es : step n (.message j m o) = if j < n.peers.length then onMessage n j m o else n := e _
    rw [es] at h1
    split at h1
    · by_cases hb : ∀ s r, m.body ≠ .standupResponse s r
      · exact (ofK _ (onMessage_k j m o hb) h1).elim
      · obtain ⟨c, hh, body⟩ := m
        have : ∃ s r, body = .standupResponse s r := by
          cases body <;> first | exact ⟨_, _, rfl⟩ | exact absurd (by intro s r; simp) hb
        obtain ⟨s, r, rfl⟩ := this
        exfalso
        rcases onMessage_cases n j ⟨c, hh, .standupResponse s r⟩ o with h | h | ⟨c', h', _, hc, hh', h⟩
        · rw [h] at h1; exact h0 h1
        · rw [h] at h1; exact h0 (by simpa using h1)
        · rw [h] at h1
          rcases dispatch_vote (checkLag (n.setPeer j (fun p => { p with commitCount := c', hash := h' })) j) j s r o
            with h | h | ⟨r', _, _, _, h⟩
          · rw [h] at h1; exact h0 (by simpa using h1)
          · rw [h] at h1; exact h0 (by simpa using h1)
          · rw [h] at h1; exact h0 (by simpa using h1)
    · exact absurd h1 h0
  | disconnect j =>
    have es : step n (.disconnect j) = if j < n.peers.length then onDisconnect n j else n := e _
    rw [es] at h1
    split at h1
    · exact (ofK _ (onDisconnect_k j) h1).elim
    · exact absurd h1 h0
  | setPriority p =>
    have es : step n (.setPriority p) = (setPriority n p).1 := e _
    rw [es] at h1
    exfalso
    revert h1
    unfold setPriority
    dsimp only
    repeat' split
    all_goals simp_all
  | setShutdownPriority =>
    have es : step n .setShutdownPriority = setShutdownPriority n := e _
    rw [es] at h1
    exfalso
    revert h1
    unfold setShutdownPriority; dsimp only
    split
    all_goals simp_all
  | beginShutdown =>
    have es : step n .beginShutdown = { n with shuttingDown := true } := e _
    rw [es] at h1; exact absurd h1 h0
  | database c j =>
    have es : step n (.database c j) = { n with commits := c, journal := j } := e _
    rw [es] at h1; exact absurd h1 h0

/-- `voters` elected the node: distinct full peers, all connected, each of which approved this very
attempt, and at least half of all full peers - with the node itself a strict majority of the full
nodes. -/
structure ElectedBy (n0 : Node) (evs : List Ev) (voters : List Nat) : Prop where
  nodup : voters.Nodup
  voter : ∀ i ∈ voters, i < n0.peers.length ∧ ((run n0 evs).peer i).permaFollower = false ∧
    ((run n0 evs).peer i).loggedIn = true ∧
    ApprovedBy n0 evs (run n0 evs).stateChangeCount i
  majority : fullCount (run n0 evs) + 1 < 2 * (voters.length + 1)

/-- A node with peers that starts to lead was elected, and no connected full peer denied it. -/
theorem c11_elected_by_majority (ps : List Peer) (c : Int) (v : Bytes) (k : Nat) (j : Nat → Bytes)
    (evs : List Ev) (ev : Ev) (hp : ps ≠ [])
    (h0 : (run (init ps c v k j) evs).state ≠ .leading)
    (h1 : (run (init ps c v k j) (evs ++ [ev])).state = .leading) :
    (∃ voters, ElectedBy (init ps c v k j) evs voters) ∧
    (∀ i, ((run (init ps c v k j) evs).peer i).permaFollower = false →
      ((run (init ps c v k j) evs).peer i).loggedIn = true →
      ((run (init ps c v k j) evs).peer i).standup ≠ .deny) := by
  have er : run (init ps c v k j) (evs ++ [ev]) = step (run (init ps c v k j) evs) ev := run_append ..
  rw [er] at h1
  have hlen : (run (init ps c v k j) evs).peers.length = (init ps c v k j).peers.length :=
    (run_moves evs (n := init ps c v k j)).len
  have hne : (run (init ps c v k j) evs).peers ≠ [] := by
    intro h; rw [h] at hlen; simp [init] at hlen; exact hp (List.length_eq_zero_iff.mp hlen.symm)
  obtain ⟨hs, _, hden, hmaj⟩ := step_enters_leading hne h0 h1
  have hvote := c15_counted_votes_are_current ps c v k j evs hp
  generalize hn : run (init ps c v k j) evs = n at *
  constructor
  · refine ⟨(List.range n.peers.length).filter
      (fun i => full (n.peer i) && (n.peer i).loggedIn && (n.peer i).standup = .approve), ?_, ?_, ?_⟩
    · exact List.Pairwise.filter _ List.nodup_range
    · intro i hi
      rw [List.mem_filter, List.mem_range] at hi
      simp only [Bool.and_eq_true, decide_eq_true_eq] at hi
      rw [hn]
      refine ⟨by omega, by simpa [full] using hi.2.1.1, hi.2.1.2, hvote i hs hi.2.2⟩
    · rw [countP_eq_indices (fun p => full p && p.loggedIn && decide (p.standup = .approve)) rfl] at hmaj
      rw [hn]
      have : fullCount n = n.peers.countP full := rfl
      have e : ((List.range n.peers.length).filter
          (fun i => full (n.peer i) && (n.peer i).loggedIn && decide ((n.peer i).standup = .approve))).length =
        ((List.range n.peers.length).filter (fun i => (fun p => full p && p.loggedIn && decide (p.standup = .approve))
          (n.peers.getD i {}))).length := rfl
      rw [e]
      dsimp only at hmaj ⊢
      omega
  · intro i hf hl hd
    by_cases hi : i < n.peers.length
    · have hm : n.peer i ∈ n.peers := by
        unfold peer; rw [List.getD_eq_getElem?_getD, List.getElem?_eq_getElem hi]; exact List.getElem_mem hi
      exact hden _ hm ⟨by simp [full, hf], hl, hd⟩
    · have : n.peer i = {} := by
        unfold peer; rw [List.getD_eq_getElem?_getD, List.getElem?_eq_none (Nat.le_of_not_lt hi)]; rfl
      rw [this] at hl; cases hl

theorem exElected : ElectedBy exNode (exElection.take 10) [0, 1] := by
  refine ⟨by decide, ?_, by decide +kernel⟩
  intro i hi
  have hi' : i = 0 ∨ i = 1 := by simpa using hi
  rcases hi' with rfl | rfl
  · exact ⟨by decide +kernel, by decide +kernel, by decide +kernel,
      exElection.take 8, _, _, _, _, _, rfl, by decide +kernel, by decide +kernel, by decide +kernel⟩
  · exact ⟨by decide +kernel, by decide +kernel, by decide +kernel,
      exElection.take 9, _, _, _, _, _, rfl, by decide +kernel, by decide +kernel, by decide +kernel⟩

theorem nodup_length_le {ι : Type} [DecidableEq ι] : ∀ {l all : List ι}, l.Nodup → (∀ x ∈ l, x ∈ all) →
    l.length ≤ all.length
  | [], _, _, _ => by simp
  | x :: l, all, hn, hs => by
    rw [List.nodup_cons] at hn
    have hx : x ∈ all := hs x (by simp)
    have ih := nodup_length_le (all := all.erase x) hn.2 (by
      intro y hy
      have hne : y ≠ x := fun h => hn.1 (h ▸ hy)
      exact (List.mem_erase_of_ne hne).mpr (hs y (by simp [hy])))
    rw [List.length_erase_of_mem hx] at ih
    have : 0 < all.length := List.length_pos_of_mem hx
    rw [List.length_cons]; omega

/-- Two duplicate-free lists inside a third that are together longer share an element. -/
theorem pigeonhole {ι : Type} [DecidableEq ι] {all a b : List ι} (ha : a.Nodup) (hb : b.Nodup)
    (hsa : ∀ x ∈ a, x ∈ all) (hsb : ∀ x ∈ b, x ∈ all) (hl : all.length < a.length + b.length) :
    ∃ x, x ∈ a ∧ x ∈ b := by
  apply Classical.byContradiction
  intro hno
  have hnd : (a ++ b).Nodup := by
    rw [List.nodup_append]
    exact ⟨ha, hb, fun x hx y hy hxy => hno ⟨x, hx, hxy ▸ hy⟩⟩
  have := nodup_length_le hnd (all := all) (by
    intro x hx
    rcases List.mem_append.mp hx with h | h
    · exact hsa x h
    · exact hsb x h)
  rw [List.length_append] at this
  omega

/-- Two elections in the same cluster. `all` lists the full nodes; `me₁`, `me₂` are the candidates
and `name₁`, `name₂` say which node each of their peers is. Whatever happened at each candidate and
however their histories overlap, there is a node that took part in both elections: it approved both,
or it is one of the candidates and approved the other. -/
theorem c11_elections_intersect {ι : Type} [DecidableEq ι] (all : List ι)
    (n₁ n₂ : Node) (evs₁ evs₂ : List Ev) (voters₁ voters₂ : List Nat)
    (me₁ me₂ : ι) (name₁ name₂ : Nat → ι)
    (e₁ : ElectedBy n₁ evs₁ voters₁) (e₂ : ElectedBy n₂ evs₂ voters₂)
    (hne : me₁ ≠ me₂) (hm₁ : me₁ ∈ all) (hm₂ : me₂ ∈ all)
    (hc₁ : all.length = fullCount (run n₁ evs₁) + 1) (hc₂ : all.length = fullCount (run n₂ evs₂) + 1)
    (hn₁ : ∀ i < n₁.peers.length, ((run n₁ evs₁).peer i).permaFollower = false → name₁ i ∈ all ∧ name₁ i ≠ me₁)
    (hn₂ : ∀ i < n₂.peers.length, ((run n₂ evs₂).peer i).permaFollower = false → name₂ i ∈ all ∧ name₂ i ≠ me₂)
    (hi₁ : ∀ i j, name₁ i = name₁ j → i = j) (hi₂ : ∀ i j, name₂ i = name₂ j → i = j) :
    (∃ i j, name₁ i = name₂ j ∧ ApprovedBy n₁ evs₁ (run n₁ evs₁).stateChangeCount i ∧
      ApprovedBy n₂ evs₂ (run n₂ evs₂).stateChangeCount j) ∨
    (∃ i, name₁ i = me₂ ∧ ApprovedBy n₁ evs₁ (run n₁ evs₁).stateChangeCount i) ∨
    (∃ j, name₂ j = me₁ ∧ ApprovedBy n₂ evs₂ (run n₂ evs₂).stateChangeCount j) := by
  have nd₁ : (me₁ :: voters₁.map name₁).Nodup := by
    rw [List.nodup_cons]
    refine ⟨?_, ?_⟩
    · intro h
      obtain ⟨i, hi, h⟩ := List.mem_map.mp h
      have hv := e₁.voter i hi
      exact (hn₁ i hv.1 hv.2.1).2 h
    · exact List.Pairwise.map _ (fun a b hab h => hab (hi₁ a b h)) e₁.nodup
  have nd₂ : (me₂ :: voters₂.map name₂).Nodup := by
    rw [List.nodup_cons]
    refine ⟨?_, ?_⟩
    · intro h
      obtain ⟨i, hi, h⟩ := List.mem_map.mp h
      have hv := e₂.voter i hi
      exact (hn₂ i hv.1 hv.2.1).2 h
    · exact List.Pairwise.map _ (fun a b hab h => hab (hi₂ a b h)) e₂.nodup
  have s₁ : ∀ x ∈ me₁ :: voters₁.map name₁, x ∈ all := by
    intro x hx
    rcases List.mem_cons.mp hx with rfl | hx
    · exact hm₁
    · obtain ⟨i, hi, rfl⟩ := List.mem_map.mp hx
      have hv := e₁.voter i hi
      exact (hn₁ i hv.1 hv.2.1).1
  have s₂ : ∀ x ∈ me₂ :: voters₂.map name₂, x ∈ all := by
    intro x hx
    rcases List.mem_cons.mp hx with rfl | hx
    · exact hm₂
    · obtain ⟨i, hi, rfl⟩ := List.mem_map.mp hx
      have hv := e₂.voter i hi
      exact (hn₂ i hv.1 hv.2.1).1
  have m₁ := e₁.majority
  have m₂ := e₂.majority
  obtain ⟨x, hx₁, hx₂⟩ := pigeonhole nd₁ nd₂ s₁ s₂ (by simp only [List.length_cons, List.length_map]; omega)
  rcases List.mem_cons.mp hx₁ with h₁ | h₁ <;> rcases List.mem_cons.mp hx₂ with h₂ | h₂
  · exact absurd (h₁.symm.trans h₂) hne
  · obtain ⟨j, hj, h⟩ := List.mem_map.mp h₂
    exact Or.inr (Or.inr ⟨j, h.trans h₁, (e₂.voter j hj).2.2.2⟩)
  · obtain ⟨i, hi, h⟩ := List.mem_map.mp h₁
    exact Or.inr (Or.inl ⟨i, h.trans h₂, (e₁.voter i hi).2.2.2⟩)
  · obtain ⟨i, hi, h⟩ := List.mem_map.mp h₁
    obtain ⟨j, hj, h'⟩ := List.mem_map.mp h₂
    exact Or.inl ⟨i, j, h.trans h'.symm, (e₁.voter i hi).2.2.2, (e₂.voter j hj).2.2.2⟩

/-- Two elections of the example: node 0 of four was elected by nodes 1 and 2, node 3 (with the same
history) by nodes 0 and 1; they meet in node 1. -/
example : (∃ i j, i + 1 = j ∧ ApprovedBy exNode (exElection.take 10) (run exNode (exElection.take 10)).stateChangeCount i ∧
      ApprovedBy exNode (exElection.take 10) (run exNode (exElection.take 10)).stateChangeCount j) ∨
    (∃ i, i + 1 = 3 ∧ ApprovedBy exNode (exElection.take 10) (run exNode (exElection.take 10)).stateChangeCount i) ∨
    (∃ j, j = 0 ∧ ApprovedBy exNode (exElection.take 10) (run exNode (exElection.take 10)).stateChangeCount j) :=
  c11_elections_intersect [0, 1, 2, 3] exNode exNode (exElection.take 10) (exElection.take 10) [0, 1] [0, 1]
    0 3 (· + 1) id exElected exElected (by decide) (by decide) (by decide) (by decide +kernel) (by decide +kernel)
    (by
      intro i hi _
      have : i < 3 := hi
      have : i = 0 ∨ i = 1 ∨ i = 2 := by omega
      rcases this with rfl | rfl | rfl <;> decide)
    (by
      intro i hi _
      have : i < 3 := hi
      have : i = 0 ∨ i = 1 ∨ i = 2 := by omega
      rcases this with rfl | rfl | rfl <;> decide)
    (by intro i j h; exact Nat.succ.inj h) (by intro i j h; exact h)

end Bedrock.Node.Props
