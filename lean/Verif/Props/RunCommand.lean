import Verif.Model.RunCommand
import Verif.Props.Forward

/-!
# C61, C62, C64: a command runs at most once, is answered once, and is retried within limits
-/

namespace Bedrock.RunCommand.Props
open Bedrock Bedrock.Http Bedrock.Forward Bedrock.RunCommand

/-! ## Vocabulary -/

/-- How often its transaction was committed on this node. -/
def commits (tr : List Ev) : Nat := tr.count (.commit true)
/-- How often all of it was handed to another node. -/
def sends (tr : List Ev) : Nat := tr.count (.forward true)
/-- The command left the hands of the thread: answered or put into a queue. -/
def handoff : Ev → Bool
  | .reply | .push _ | .setAside => true
  | _ => false

@[simp] theorem commits_nil : commits [] = 0 := rfl
@[simp] theorem sends_nil : sends [] = 0 := rfl
@[simp] theorem commits_append (a b : List Ev) : commits (a ++ b) = commits a + commits b := by
  simp [commits, List.count_append]
@[simp] theorem sends_append (a b : List Ev) : sends (a ++ b) = sends a + sends b := by
  simp [sends, List.count_append]
@[simp] theorem commits_cons (e : Ev) (l : List Ev) :
    commits (e :: l) = (if e = .commit true then 1 else 0) + commits l := by
  simp [commits, List.count_cons]; omega
@[simp] theorem sends_cons (e : Ev) (l : List Ev) :
    sends (e :: l) = (if e = .forward true then 1 else 0) + sends l := by
  simp [sends, List.count_cons]; omega

/-- A call ends by exactly one hand-off, its last event, or is still running, dropped or dead without. -/
def Good (o : Out) : Prop :=
  match o.fin with
  | .replied => ∃ tr, o.trace = tr ++ [.reply] ∧ ∀ e ∈ tr, handoff e = false
  | .queued => ∃ tr e, o.trace = tr ++ [e] ∧ (∀ e ∈ tr, handoff e = false) ∧ handoff e = true ∧ e ≠ .reply
  | _ => ∀ e ∈ o.trace, handoff e = false

/-- What is known of a command from how it was finished. -/
def Fine (c : Cmd) (tr : List Ev) : Prop :=
  match c.done with
  | none | some .read | some .processed => commits tr = 0 ∧ sends tr = 0
  | some .committed => commits tr = 1 ∧ sends tr = 0
  | some .refused | some .timedOut | some .forwarded | some .lost => commits tr = 0 ∧ sends tr ≤ 1

theorem Fine.le {c : Cmd} {tr : List Ev} (h : Fine c tr) : commits tr + sends tr ≤ 1 := by
  unfold Fine at h
  split at h <;> omega

/-- The part of `Fine` that remains true while a call hangs. -/
def FineOut (o : Out) : Prop :=
  (o.fin = .running → commits o.trace = 0 ∧ sends o.trace ≤ 1) ∧ (o.fin ≠ .running → Fine o.cmd o.trace)

/-! ## Forwarding -/

theorem forward_events (l : Bool) (a : Attempt) (c : Cmd) :
    ∀ e ∈ (forward l a c).2.1, handoff e = false := by
  intro e he
  unfold forward at he
  dsimp only at he
  split at he
  · simp at he
  · simp at he; rw [he]; rfl

theorem forward_spec (l : Bool) (a : Attempt) (c : Cmd) (ha : a.req ≠ []) (hc : c.done = none) :
    let r := forward l a c
    commits r.2.1 = 0 ∧ sends r.2.1 ≤ 1 ∧
    (r.2.2 = some true → r.1.done = some .forwarded) ∧
    (r.2.2 = some false → (r.1.done = none ∧ sends r.2.1 = 0) ∨ r.1.done = some .lost) := by
  intro r
  have hr : r = forward l a c := rfl
  unfold forward at hr
  dsimp only at hr
  have hretry := Forward.Props.c63_retry_only_if_unsent l a.req ha {} a.rounds
  have hsucc := Forward.Props.c63_success l a.req ha {} a.rounds
  generalize runOnPeer l a.req {} a.rounds = s at hr hretry hsucc
  obtain ⟨d, comp, resp, res⟩ := s
  simp only at hr hretry hsucc
  rw [hr]
  refine ⟨?_, ?_, ?_, ?_⟩
  · dsimp only; split <;> simp
  · dsimp only; split
    · simp
    · simp; split <;> simp
  · intro h
    dsimp only at h ⊢
    rw [(hsucc h).1, if_pos rfl, if_pos h]
  · intro h
    dsimp only at h ⊢
    cases comp with
    | true => right; rw [if_pos rfl, if_neg (by rw [h]; simp)]
    | false =>
      left
      rw [if_neg (by simp)]
      refine ⟨hc, ?_⟩
      obtain ⟨hlt, _⟩ := hretry h rfl
      have hne : d ≠ a.req := by intro h'; rw [h'] at hlt; omega
      split
      · simp
      · simp [hne]

/-! ## One turn -/

/-- The conditions under which a turn cannot run the command twice: a node that committed is still leading
when it looks again (BedrockServer.cpp:779). -/
def Steady (t : Turn) : Prop :=
  t.attempt.req ≠ [] ∧ (t.processRes = .needsCommit → t.commitOk = true → t.leadingAfter = true)

/-- What a step must guarantee. -/
def StepOk (s : Step) : Prop :=
  match s with
  | .ret o => Good o
  | .again _ tr => ∀ e ∈ tr, handoff e = false

def StepFine (s : Step) : Prop :=
  match s with
  | .ret o => FineOut o
  | .again c tr => c.done = none ∧ commits tr = 0 ∧ sends tr = 0

theorem all_append {tr : List Ev} (h : ∀ e ∈ tr, handoff e = false) {b : List Ev}
    (hb : ∀ e ∈ b, handoff e = false) : ∀ e ∈ tr ++ b, handoff e = false := by
  intro e he
  rcases List.mem_append.mp he with h1 | h1
  · exact h e h1
  · exact hb e h1

theorem finish_ok (c : Cmd) (w : Why) (tr : List Ev) (h : ∀ e ∈ tr, handoff e = false) :
    StepOk (finish c w tr) := ⟨tr, rfl, h⟩

theorem retry_ok (d : Bool) (t : Turn) (c : Cmd) (tr : List Ev) (h : ∀ e ∈ tr, handoff e = false) :
    StepOk (retry d t c tr) := by
  unfold retry
  split
  · split
    · split
      · exact finish_ok _ _ _ h
      · exact ⟨tr, _, rfl, h, rfl, by simp⟩
    · exact h
  · split
    · exact h
    · exact ⟨tr, _, rfl, h, rfl, by simp⟩

theorem endTurn_ok (d : Bool) (t : Turn) (c : Cmd) (tr : List Ev) (h : ∀ e ∈ tr, handoff e = false) :
    StepOk (endTurn d t c tr) := by
  unfold endTurn
  split
  · exact finish_ok _ _ _ h
  · exact retry_ok _ _ _ _ h

theorem processTurn_ok (d : Bool) (t : Turn) (c : Cmd) (tr : List Ev) (h : ∀ e ∈ tr, handoff e = false) :
    StepOk (processTurn d t c tr) := by
  have h1 : ∀ e ∈ tr ++ [Ev.process], handoff e = false := all_append h (by simp [handoff])
  have h2 : ∀ b, ∀ e ∈ tr ++ [Ev.process, .commit b], handoff e = false := fun b =>
    all_append h (by simp [handoff])
  unfold processTurn
  split
  · split
    · exact h2 _
    · split
      · exact endTurn_ok _ _ _ _ (h2 _)
      · split
        · exact endTurn_ok _ _ _ _ (h2 _)
        · exact endTurn_ok _ _ _ _ (h2 _)
  · exact endTurn_ok _ _ _ _ h1
  · split
    · exact finish_ok _ _ _ h1
    · exact endTurn_ok _ _ _ _ h1

theorem writeTurn_ok (d : Bool) (t : Turn) (c : Cmd) (tr : List Ev) (h : ∀ e ∈ tr, handoff e = false) :
    StepOk (writeTurn d t c tr) := by
  unfold writeTurn
  split
  · exact h
  split
  · exact ⟨tr, _, rfl, h, rfl, by simp⟩
  split
  · have hf := forward_events true t.attempt c
    split <;> rename_i c' ev he <;> rw [he] at hf
    · exact ⟨tr ++ ev, rfl, all_append h hf⟩
    · exact ⟨tr ++ ev, _, rfl, all_append h hf, rfl, by simp⟩
    · exact all_append h hf
  · exact processTurn_ok _ _ _ _ h

theorem peekTurn_ok (d : Bool) (t : Turn) (c : Cmd) (tr : List Ev) (h : ∀ e ∈ tr, handoff e = false) :
    StepOk (peekTurn d t c tr) := by
  have h1 : ∀ e ∈ tr ++ [Ev.peek], handoff e = false := all_append h (by simp [handoff])
  unfold peekTurn
  split
  · split
    · exact endTurn_ok _ _ _ _ h1
    · exact writeTurn_ok _ _ _ _ h1
  · exact writeTurn_ok _ _ _ _ h

theorem turn_ok (d : Bool) (t : Turn) (c : Cmd) (tr : List Ev) (h : ∀ e ∈ tr, handoff e = false) :
    StepOk (turn d t c tr) := by
  have h1 : ∀ e ∈ tr ++ [Ev.peek], handoff e = false := all_append h (by simp [handoff])
  unfold turn
  split
  · exact finish_ok _ _ _ h
  split
  · exact ⟨tr, _, rfl, h, rfl, by simp⟩
  split
  · split
    · exact finish_ok _ _ _ h1
    · exact peekTurn_ok _ _ _ _ h1
    · exact peekTurn_ok _ _ _ _ h
  · exact peekTurn_ok _ _ _ _ h

theorem loop_ok (d : Bool) (ts : List Turn) : ∀ (c : Cmd) (tr : List Ev), (∀ e ∈ tr, handoff e = false) →
    Good (loop d ts c tr) := by
  induction ts with
  | nil => intro c tr h; exact h
  | cons t ts ih =>
    intro c tr h
    have := turn_ok d t c tr h
    unfold loop
    split <;> rename_i h' <;> rw [h'] at this
    · exact this
    · exact ih _ _ this

/-! The same for what is known of the executions. -/

theorem retry_fine (d : Bool) (t : Turn) (c : Cmd) (tr : List Ev) (hc : c.done = none)
    (h1 : commits tr = 0) (h2 : sends tr = 0) : StepFine (retry d t c tr) := by
  have hq : ∀ b, FineOut { cmd := c, trace := tr ++ [.push b], fin := .queued } := by
    intro b
    refine ⟨fun h => by simp at h, fun _ => ?_⟩
    unfold Fine
    rw [hc]
    simp [h1, h2]
  unfold retry
  split
  · split
    · split
      · refine ⟨fun h => by simp at h, fun _ => ?_⟩
        unfold Fine
        simp [h1, h2]
      · exact hq _
    · exact ⟨hc, h1, h2⟩
  · split
    · exact ⟨hc, h1, h2⟩
    · exact hq _

theorem endTurn_fine (d : Bool) (t : Turn) (c : Cmd) (tr : List Ev) (h : Fine c tr) :
    StepFine (endTurn d t c tr) := by
  unfold endTurn
  split
  · rename_i w hw
    refine ⟨fun h => by simp at h, fun _ => ?_⟩
    unfold Fine at h ⊢
    rw [hw] at h
    dsimp only
    cases w <;> simpa using h
  · rename_i hn
    unfold Fine at h
    rw [hn] at h
    exact retry_fine _ _ _ _ hn h.1 h.2

theorem processTurn_fine (d : Bool) (t : Turn) (ht : Steady t) (c : Cmd) (tr : List Ev) (hc : c.done = none)
    (h1 : commits tr = 0) (h2 : sends tr = 0) : StepFine (processTurn d t c tr) := by
  unfold processTurn
  split
  · rename_i hp
    split
    · rename_i hl
      have hk : t.commitOk = false := by
        cases hk : t.commitOk with
        | false => rfl
        | true => rw [ht.2 hp hk] at hl; simp at hl
      exact ⟨hc, by simp [h1, hk], by simp [h2]⟩
    · split
      · exact endTurn_fine _ _ _ _ (by unfold Fine; simp [h1, h2])
      · split
        · exact endTurn_fine _ _ _ _ (by unfold Fine; simp [h1, h2])
        · exact endTurn_fine _ _ _ _ (by unfold Fine; simp [h1, h2, hc])
  · exact endTurn_fine _ _ _ _ (by unfold Fine; simp [h1, h2])
  · split
    · refine ⟨fun h => by simp at h, fun _ => ?_⟩
      unfold Fine
      simp [h1, h2]
    · exact endTurn_fine _ _ _ _ (by unfold Fine; simp [h1, h2, hc])

theorem writeTurn_fine (d : Bool) (t : Turn) (ht : Steady t) (c : Cmd) (tr : List Ev) (hc : c.done = none)
    (h1 : commits tr = 0) (h2 : sends tr = 0) : StepFine (writeTurn d t c tr) := by
  unfold writeTurn
  split
  · exact ⟨hc, h1, h2⟩
  split
  · refine ⟨fun h => by simp at h, fun _ => ?_⟩
    unfold Fine
    rw [hc]
    simp [h1, h2]
  split
  · have hf := forward_spec true t.attempt c ht.1 hc
    split <;> rename_i c' ev he <;> rw [he] at hf <;> dsimp only at hf
    · refine ⟨fun h => by simp at h, fun _ => ?_⟩
      unfold Fine
      rw [hf.2.2.1 rfl]
      simp [h1, h2, hf.1, hf.2.1]
    · refine ⟨fun h => by simp at h, fun _ => ?_⟩
      unfold Fine
      rcases hf.2.2.2 rfl with ⟨h3, h4⟩ | h3
      · rw [h3]; simp [h1, h2, hf.1, h4]
      · rw [h3]; simp [h1, h2, hf.1, hf.2.1]
    · exact ⟨fun _ => by simp [h1, h2, hf.1, hf.2.1], fun h => absurd rfl h⟩
  · exact processTurn_fine _ _ ht _ _ hc h1 h2

theorem peekTurn_fine (d : Bool) (t : Turn) (ht : Steady t) (c : Cmd) (tr : List Ev) (hc : c.done = none)
    (h1 : commits tr = 0) (h2 : sends tr = 0) : StepFine (peekTurn d t c tr) := by
  unfold peekTurn
  split
  · split
    · exact endTurn_fine _ _ _ _ (by unfold Fine; simp [h1, h2])
    · exact writeTurn_fine _ _ ht _ _ hc (by simp [h1]) (by simp [h2])
  · exact writeTurn_fine _ _ ht _ _ hc h1 h2

theorem turn_fine (d : Bool) (t : Turn) (ht : Steady t) (c : Cmd) (tr : List Ev) (hc : c.done = none)
    (h1 : commits tr = 0) (h2 : sends tr = 0) : StepFine (turn d t c tr) := by
  unfold turn
  split
  · refine ⟨fun h => by simp at h, fun _ => ?_⟩
    unfold Fine
    simp [h1, h2]
  split
  · refine ⟨fun h => by simp at h, fun _ => ?_⟩
    unfold Fine
    rw [hc]
    simp [h1, h2]
  split
  · split
    · refine ⟨fun h => by simp at h, fun _ => ?_⟩
      unfold Fine
      simp [h1, h2]
    · exact peekTurn_fine _ _ ht _ _ hc (by simp [h1]) (by simp [h2])
    · exact peekTurn_fine _ _ ht _ _ hc h1 h2
  · exact peekTurn_fine _ _ ht _ _ hc h1 h2

theorem loop_fine (d : Bool) (ts : List Turn) : ∀ (c : Cmd) (tr : List Ev), (∀ t ∈ ts, Steady t) →
    c.done = none → commits tr = 0 → sends tr = 0 → FineOut (loop d ts c tr) := by
  induction ts with
  | nil =>
    intro c tr _ _ h1 h2
    exact ⟨fun _ => ⟨h1, by show sends tr ≤ 1; omega⟩, fun h => absurd rfl h⟩
  | cons t ts ih =>
    intro c tr hs hc h1 h2
    have := turn_fine d t (hs t (by simp)) c tr hc h1 h2
    unfold loop
    split <;> rename_i h' <;> rw [h'] at this
    · exact this
    · exact ih _ _ (fun t ht => hs t (by simp [ht])) this.1 this.2.1 this.2.2

/-! ## One call -/

theorem runRest_ok (x : Call) (c : Cmd) (tr : List Ev) (h : ∀ e ∈ tr, handoff e = false) :
    Good (runRest x c tr) := by
  unfold runRest
  split
  · split
    · exact h
    · split
      · exact ⟨tr, rfl, h⟩
      · exact h
  · split
    · split
      · exact ⟨tr, rfl, h⟩
      · exact ⟨tr, _, rfl, h, rfl, by simp⟩
    · exact loop_ok _ _ _ _ h

theorem runSync_ok (x : Call) (c : Cmd) (tr : List Ev) (h : ∀ e ∈ tr, handoff e = false) :
    Good (runSync x c tr) := by
  unfold runSync
  split
  · have hf := forward_events false x.whileSync c
    split <;> rename_i he <;> rw [he] at hf
    · exact all_append h hf
    · exact runRest_ok _ _ _ (all_append h hf)
  · exact runRest_ok _ _ _ h

theorem runToPeer_ok (x : Call) (c : Cmd) (tr : List Ev) (h : ∀ e ∈ tr, handoff e = false) :
    Good (runToPeer x c tr) := by
  unfold runToPeer
  split
  · have hf := forward_events false x.toPeer c
    split <;> rename_i he <;> rw [he] at hf
    · exact all_append h hf
    · exact runSync_ok _ _ _ (all_append h hf)
    · exact ⟨_, _, rfl, all_append h hf, rfl, by simp⟩
  · exact ⟨tr, _, rfl, h, rfl, by simp⟩

theorem runCommand_ok (x : Call) (c : Cmd) : Good (runCommand x c) := by
  unfold runCommand
  split
  · exact ⟨[], rfl, by simp⟩
  split
  · exact ⟨[], rfl, by simp⟩
  split
  · exact ⟨[], rfl, by simp⟩
  split
  · exact ⟨[], _, rfl, by simp, rfl, by simp⟩
  split
  · exact ⟨[], rfl, by simp⟩
  split
  · split
    · have hf := forward_events true x.toLeader c
      split <;> rename_i he <;> rw [he] at hf
      · exact hf
      · exact runSync_ok _ _ _ hf
      · exact runToPeer_ok _ _ _ hf
    · exact runToPeer_ok _ _ _ (by simp)
  · exact runSync_ok _ _ _ (by simp)

/-- The conditions under which one call cannot run a command twice. -/
structure Calm (x : Call) (c : Cmd) : Prop where
  turns : ∀ t ∈ x.turns, Steady t
  reqs : x.toLeader.req ≠ [] ∧ x.toPeer.req ≠ [] ∧ x.whileSync.req ≠ []
  /-- the node does not start to synchronize after the command was forwarded -/
  sync : x.synchronizing = true → c.done = none ∧ x.following = false
  /-- a command that skips the queue is not offered to a second node -/
  once : c.escalateImmediately = true → x.versionDiffers' = false

theorem runRest_fine (x : Call) (c : Cmd) (tr : List Ev) (ht : ∀ t ∈ x.turns, Steady t) (h : Fine c tr) :
    FineOut (runRest x c tr) := by
  unfold runRest
  split
  · rename_i w hw
    have h' : ∀ l, commits l = 0 → sends l = 0 → Fine c (tr ++ l) := by
      intro l hl1 hl2
      unfold Fine at h ⊢
      rw [hw] at h ⊢
      cases w <;> simpa [hl1, hl2] using h
    split
    · exact ⟨fun h => by simp at h, fun _ => h⟩
    · split
      · exact ⟨fun h => by simp at h, fun _ => h' _ (by simp) (by simp)⟩
      · exact ⟨fun h => by simp at h, fun _ => h⟩
  · rename_i hn
    have h0 := h
    unfold Fine at h
    rw [hn] at h
    split
    · split
      · refine ⟨fun h => by simp at h, fun _ => ?_⟩
        unfold Fine
        simp [h.1, h.2]
      · refine ⟨fun h => by simp at h, fun _ => ?_⟩
        unfold Fine
        rw [hn]
        simp [h.1, h.2]
    · exact loop_fine _ _ _ _ ht hn h.1 h.2

theorem forward_fine (l : Bool) (a : Attempt) (c : Cmd) (tr : List Ev) (ha : a.req ≠ []) (hc : c.done = none)
    (h : Fine c tr) : ((forward l a c).2.2 ≠ none → Fine (forward l a c).1 (tr ++ (forward l a c).2.1)) ∧
      commits (tr ++ (forward l a c).2.1) = 0 ∧ sends (tr ++ (forward l a c).2.1) ≤ 1 := by
  have hf := forward_spec l a c ha hc
  dsimp only at hf
  unfold Fine at h
  rw [hc] at h
  refine ⟨fun hr => ?_, by simp [h.1, hf.1], by simp [h.2, hf.2.1]⟩
  unfold Fine
  cases hres : (forward l a c).2.2 with
  | none => exact absurd hres hr
  | some b =>
    cases b with
    | true => rw [hf.2.2.1 hres]; simp [h.1, h.2, hf.1, hf.2.1]
    | false =>
      rcases hf.2.2.2 hres with ⟨h3, h4⟩ | h3
      · rw [h3]; simp [h.1, h.2, hf.1, h4]
      · rw [h3]; simp [h.1, h.2, hf.1, hf.2.1]

theorem runSync_fine (x : Call) (c : Cmd) (tr : List Ev) (ht : ∀ t ∈ x.turns, Steady t)
    (hr : x.whileSync.req ≠ []) (hs : x.synchronizing = true → c.done = none) (h : Fine c tr) :
    FineOut (runSync x c tr) := by
  unfold runSync
  split
  · rename_i hsync
    have hf := forward_fine false x.whileSync c tr hr (hs hsync) h
    split <;> rename_i he <;> rw [he] at hf <;> dsimp only at hf
    · exact ⟨fun _ => hf.2, fun h => absurd rfl h⟩
    · exact runRest_fine _ _ _ ht (hf.1 (by simp))
  · exact runRest_fine _ _ _ ht h

theorem runToPeer_fine (x : Call) (c : Cmd) (tr : List Ev) (ht : ∀ t ∈ x.turns, Steady t)
    (hr : x.whileSync.req ≠ [] ∧ x.toPeer.req ≠ []) (hs : x.synchronizing = false)
    (hc : x.versionDiffers' = true → c.done = none) (h : Fine c tr) :
    FineOut (runToPeer x c tr) := by
  have push : ∀ (c' : Cmd) (l : List Ev), Fine c' l →
      FineOut { cmd := c', trace := l ++ [.push false], fin := .queued } := by
    intro c' l h
    refine ⟨fun h => by simp at h, fun _ => ?_⟩
    unfold Fine at h ⊢
    split at h <;> simp_all
  unfold runToPeer
  split
  · rename_i hv
    have hf := forward_fine false x.toPeer c tr hr.2 (hc hv) h
    split <;> rename_i he <;> rw [he] at hf <;> dsimp only at hf
    · exact ⟨fun _ => hf.2, fun h => absurd rfl h⟩
    · exact runSync_fine _ _ _ ht hr.1 (fun h => by rw [hs] at h; simp at h) (hf.1 (by simp))
    · exact push _ _ (hf.1 (by simp))
  · exact push _ _ h

theorem Fine.shift {c : Cmd} {tr l : List Ev} (h : Fine c l) (h1 : commits tr = 0) (h2 : sends tr = 0) :
    Fine c (tr ++ l) := by
  unfold Fine at h ⊢
  split at h <;> simp_all

/-- A command that is already finished (it was sent to a peer, the answer was lost) is only answered. -/
theorem runCommand_done (x : Call) (c : Cmd) (w : Why) (hc : c.done = some w)
    (hs : x.synchronizing = false) :
    commits (runCommand x c).trace = 0 ∧ sends (runCommand x c).trace = 0 ∧ (runCommand x c).fin ≠ .running ∧
    ((runCommand x c).cmd.done = some w ∨ (runCommand x c).cmd.done = some .refused ∨
      (runCommand x c).cmd.done = some .timedOut) := by
  unfold runCommand
  split
  · simp
  split
  · simp
  split
  · simp
  split
  · simp [hc]
  split
  · simp
  rw [if_neg (by rw [hc]; simp)]
  unfold runSync
  rw [if_neg (by simp [hs])]
  unfold runRest
  rw [hc]
  dsimp only
  split
  · simp [hc]
  · split <;> simp [hc]

theorem runCommand_fine (x : Call) (c : Cmd) (hx : Calm x c) (hc : c.done = none) :
    FineOut (runCommand x c) := by
  have h0 : Fine c [] := by unfold Fine; rw [hc]; simp
  unfold runCommand
  split
  · exact ⟨fun h => by simp at h, fun _ => by unfold Fine; simp⟩
  split
  · exact ⟨fun h => by simp at h, fun _ => by unfold Fine; simp⟩
  split
  · exact ⟨fun h => by simp at h, fun _ => by unfold Fine; simp⟩
  split
  · exact ⟨fun h => by simp at h, fun _ => by unfold Fine; rw [hc]; simp⟩
  split
  · exact ⟨fun h => by simp at h, fun _ => by unfold Fine; simp⟩
  split
  · rename_i hfol
    have hs : x.synchronizing = false := by
      cases hs : x.synchronizing with
      | false => rfl
      | true => rw [(hx.sync hs).2] at hfol; simp at hfol
    split
    · rename_i hesc
      have hf := forward_fine true x.toLeader c [] hx.reqs.1 hc h0
      split <;> rename_i he <;> rw [he] at hf <;> dsimp only at hf <;> rw [List.nil_append] at hf
      · exact ⟨fun _ => hf.2, fun h => absurd rfl h⟩
      · exact runSync_fine _ _ _ hx.turns hx.reqs.2.2 (fun h => by rw [hs] at h; simp at h) (hf.1 (by simp))
      · exact runToPeer_fine _ _ _ hx.turns ⟨hx.reqs.2.2, hx.reqs.2.1⟩ hs
          (fun h => by rw [hx.once hesc] at h; simp at h) (hf.1 (by simp))
    · exact runToPeer_fine _ _ _ hx.turns ⟨hx.reqs.2.2, hx.reqs.2.1⟩ hs (fun _ => hc) h0
  · exact runSync_fine _ _ _ hx.turns hx.reqs.2.2 (fun h => (hx.sync h).1) h0

/-! ## C62: answered exactly once -/

/-- **C62** Every call of every command ends in exactly one of these ways, whatever the stages, the clock,
the node and the network do: one answer, and nothing after it; or into exactly one queue, and nothing
after it; or without either, if the call hangs, if nobody waits for the answer, or on an assertion. -/
theorem c62_one_handoff (x : Call) (c : Cmd) :
    ((runCommand x c).fin = .replied →
      ∃ tr, (runCommand x c).trace = tr ++ [.reply] ∧ ∀ e ∈ tr, handoff e = false) ∧
    ((runCommand x c).fin = .queued →
      ∃ tr e, (runCommand x c).trace = tr ++ [e] ∧ (∀ e ∈ tr, handoff e = false) ∧ handoff e = true ∧ e ≠ .reply) ∧
    ((runCommand x c).fin ≠ .replied → (runCommand x c).fin ≠ .queued →
      ∀ e ∈ (runCommand x c).trace, handoff e = false) := by
  have h := runCommand_ok x c
  unfold Good at h
  refine ⟨fun hf => ?_, fun hf => ?_, fun h1 h2 => ?_⟩
  · rw [hf] at h; exact h
  · rw [hf] at h; exact h
  · split at h
    · contradiction
    · contradiction
    · exact h

theorem count_reply_of_not {tr : List Ev} (h : ∀ e ∈ tr, handoff e = false) : tr.count .reply = 0 := by
  rw [List.count_eq_zero]
  intro hm
  have := h _ hm
  simp [handoff] at this

/-- **C62** Over its whole life, however often it is put back into a queue, a command is answered exactly
once if its life ends with an answer, and never answered before or otherwise. -/
theorem c62_answered_once (xs : List Call) : ∀ (c : Cmd) (tr : List Ev), tr.count .reply = 0 →
    (life xs c tr).trace.count .reply = if (life xs c tr).fin = .replied then 1 else 0 := by
  induction xs with
  | nil => intro c tr h; simpa [life] using h
  | cons x xs ih =>
    intro c tr h
    obtain ⟨h1, h2, h3⟩ := c62_one_handoff x c
    unfold life
    dsimp only
    split
    · rename_i hq
      apply ih
      obtain ⟨t, e, ht, hn, _, he⟩ := h2 hq
      rw [List.count_append, h, ht, List.count_append, count_reply_of_not hn]
      simp [List.count_cons, he]
    · rename_i hq
      dsimp only
      rw [List.count_append, h]
      split
      · rename_i hr
        obtain ⟨t, ht, hn⟩ := h1 hr
        rw [ht, List.count_append, count_reply_of_not hn]
        simp
      · rename_i hr
        rw [count_reply_of_not (h3 hr hq)]

/-- **C62** A command for which a client waits is never dropped. -/
theorem c62_never_dropped (x : Call) (c : Cmd) (hc : 0 < c.client) :
    (runCommand x c).fin ≠ .dropped ∧ (runCommand x c).fin ≠ .died := by
  have hret : ∀ (d : Bool) (t : Turn) (c : Cmd) (tr : List Ev) (o : Out),
      retry d t c tr = .ret o → o.fin ≠ .dropped ∧ o.fin ≠ .died := by
    intro d t c tr o h
    unfold retry finish at h
    split at h
    · split at h
      · split at h <;> (injection h with h; subst h; simp)
      · simp at h
    · split at h
      · simp at h
      · injection h with h; subst h; simp
  have hend : ∀ (d : Bool) (t : Turn) (c : Cmd) (tr : List Ev) (o : Out),
      endTurn d t c tr = .ret o → o.fin ≠ .dropped ∧ o.fin ≠ .died := by
    intro d t c tr o h
    unfold endTurn at h
    split at h
    · unfold finish at h; injection h with h; subst h; simp
    · exact hret _ _ _ _ _ h
  have hproc : ∀ (d : Bool) (t : Turn) (c : Cmd) (tr : List Ev) (o : Out),
      processTurn d t c tr = .ret o → o.fin ≠ .dropped ∧ o.fin ≠ .died := by
    intro d t c tr o h
    unfold processTurn at h
    split at h
    · split at h
      · simp at h
      · split at h
        · exact hend _ _ _ _ _ h
        · split at h <;> exact hend _ _ _ _ _ h
    · exact hend _ _ _ _ _ h
    · split at h
      · unfold finish at h; injection h with h; subst h; simp
      · exact hend _ _ _ _ _ h
  have hwrite : ∀ (d : Bool) (t : Turn) (c : Cmd) (tr : List Ev) (o : Out),
      writeTurn d t c tr = .ret o → o.fin ≠ .dropped ∧ o.fin ≠ .died := by
    intro d t c tr o h
    unfold writeTurn at h
    split at h
    · simp at h
    split at h
    · injection h with h; subst h; simp
    split at h
    · split at h <;> (injection h with h; subst h; simp)
    · exact hproc _ _ _ _ _ h
  have hpeek : ∀ (d : Bool) (t : Turn) (c : Cmd) (tr : List Ev) (o : Out),
      peekTurn d t c tr = .ret o → o.fin ≠ .dropped ∧ o.fin ≠ .died := by
    intro d t c tr o h
    unfold peekTurn at h
    split at h
    · split at h
      · exact hend _ _ _ _ _ h
      · exact hwrite _ _ _ _ _ h
    · exact hwrite _ _ _ _ _ h
  have hturn : ∀ (d : Bool) (t : Turn) (c : Cmd) (tr : List Ev) (o : Out),
      turn d t c tr = .ret o → o.fin ≠ .dropped ∧ o.fin ≠ .died := by
    intro d t c tr o h
    unfold turn at h
    split at h
    · unfold finish at h; injection h with h; subst h; simp
    split at h
    · injection h with h; subst h; simp
    split at h
    · split at h
      · unfold finish at h; injection h with h; subst h; simp
      · exact hpeek _ _ _ _ _ h
      · exact hpeek _ _ _ _ _ h
    · exact hpeek _ _ _ _ _ h
  have hloop : ∀ (d : Bool) (ts : List Turn) (c : Cmd) (tr : List Ev),
      (loop d ts c tr).fin ≠ .dropped ∧ (loop d ts c tr).fin ≠ .died := by
    intro d ts
    induction ts with
    | nil => intro c tr; simp [loop]
    | cons t ts ih =>
      intro c tr
      unfold loop
      split
      · rename_i o h; exact hturn _ _ _ _ _ h
      · exact ih _ _
  have hrest : ∀ (c : Cmd) (tr : List Ev), 0 < c.client →
      (runRest x c tr).fin ≠ .dropped ∧ (runRest x c tr).fin ≠ .died := by
    intro c tr hc
    unfold runRest
    split
    · rw [if_neg (by omega), if_pos hc]; simp
    · split
      · split <;> simp
      · exact hloop _ _ _ _
  have hfc : ∀ l a (c : Cmd), (forward l a c).1.client = c.client := fun _ _ _ => rfl
  have hsync : ∀ (c : Cmd) (tr : List Ev), 0 < c.client →
      (runSync x c tr).fin ≠ .dropped ∧ (runSync x c tr).fin ≠ .died := by
    intro c tr hc
    have h1 := hfc false x.whileSync c
    unfold runSync
    split
    · split <;> rename_i he <;> rw [he] at h1
      · simp
      · exact hrest _ _ (by rw [h1]; exact hc)
    · exact hrest _ _ hc
  have hpeer : ∀ (c : Cmd) (tr : List Ev), 0 < c.client →
      (runToPeer x c tr).fin ≠ .dropped ∧ (runToPeer x c tr).fin ≠ .died := by
    intro c tr hc
    have h1 := hfc false x.toPeer c
    unfold runToPeer
    split
    · split <;> rename_i he <;> rw [he] at h1
      · simp
      · exact hsync _ _ (by rw [h1]; exact hc)
      · simp
    · simp
  unfold runCommand
  split
  · simp
  split
  · simp
  split
  · simp
  split
  · simp
  split
  · simp
  split
  · split
    · have h1 := hfc true x.toLeader c
      split <;> rename_i he <;> rw [he] at h1
      · simp
      · exact hsync _ _ (by rw [h1]; exact hc)
      · exact hpeer _ _ (by rw [h1]; exact hc)
    · exact hpeer _ _ hc
  · exact hsync _ _ hc

/-! ## C61: run at most once -/

/-- The conditions over a whole life. -/
def CalmLife : List Call → Cmd → Prop
  | [], _ => True
  | x :: xs, c => Calm x c ∧ CalmLife xs (runCommand x c).cmd

theorem life_done (xs : List Call) : ∀ (c : Cmd) (tr : List Ev), CalmLife xs c → c.done ≠ none →
    Fine c tr → c.done ≠ some .committed → c.done ≠ some .read → c.done ≠ some .processed →
    FineOut (life xs c tr) := by
  induction xs with
  | nil => intro c tr _ _ h _ _ _; exact ⟨fun h => by simp [life] at h, fun _ => h⟩
  | cons x xs ih =>
    intro c tr hl hne h hn1 hn2 hn3
    obtain ⟨hx, hl⟩ := hl
    cases hw : c.done with
    | none => exact absurd hw hne
    | some w =>
      have hs : x.synchronizing = false := by
        cases hs : x.synchronizing with
        | false => rfl
        | true => rw [(hx.sync hs).1] at hw; simp at hw
      obtain ⟨h1, h2, h3, h4⟩ := runCommand_done x c w hw hs
      have hk : commits tr = 0 ∧ sends tr ≤ 1 := by
        unfold Fine at h
        rw [hw] at h
        rw [hw] at hn1 hn2 hn3
        cases w <;> simp_all
      rw [hw] at hn1 hn2 hn3
      have hd : (runCommand x c).cmd.done ≠ none ∧ (runCommand x c).cmd.done ≠ some .committed ∧
          (runCommand x c).cmd.done ≠ some .read ∧ (runCommand x c).cmd.done ≠ some .processed := by
        rcases h4 with h4 | h4 | h4 <;> rw [h4] <;> simp_all
      have hfine : Fine (runCommand x c).cmd (tr ++ (runCommand x c).trace) := by
        unfold Fine
        rcases h4 with h4 | h4 | h4 <;> rw [h4]
        · cases w <;> simp_all
        · simp; omega
        · simp; omega
      unfold life
      dsimp only
      split
      · exact ih _ _ hl hd.1 hfine hd.2.1 hd.2.2.1 hd.2.2.2
      · refine ⟨fun hf => absurd hf h3, fun _ => hfine⟩

/-- A call that ends in a queue leaves the command unfinished, or finished by a lost answer. -/
theorem queued_done (x : Call) (c : Cmd) (hc : c.done = none) (hq : (runCommand x c).fin = .queued) :
    (runCommand x c).cmd.done = none ∨ (runCommand x c).cmd.done = some .lost := by
  have hfwd : ∀ l a (c : Cmd), c.done = none → (forward l a c).2.2 = some false →
      (forward l a c).1.done = none ∨ (forward l a c).1.done = some .lost := by
    intro l a c hc h
    unfold forward at h ⊢
    dsimp only at h ⊢
    split
    · right; rw [if_neg (by rw [h]; simp)]
    · left; exact hc
  have hret : ∀ (d : Bool) (t : Turn) (c : Cmd) (tr : List Ev) (o : Out), c.done = none →
      retry d t c tr = .ret o → o.fin = .queued → o.cmd.done = none := by
    intro d t c tr o hc h hq
    unfold retry finish at h
    split at h
    · split at h
      · split at h
        · injection h with h; subst h; simp at hq
        · injection h with h; subst h; exact hc
      · simp at h
    · split at h
      · simp at h
      · injection h with h; subst h; exact hc
  have hend : ∀ (d : Bool) (t : Turn) (c : Cmd) (tr : List Ev) (o : Out),
      endTurn d t c tr = .ret o → o.fin = .queued → o.cmd.done = none := by
    intro d t c tr o h hq
    unfold endTurn at h
    split at h
    · unfold finish at h; injection h with h; subst h; simp at hq
    · rename_i hn; exact hret _ _ _ _ _ hn h hq
  have hproc : ∀ (d : Bool) (t : Turn) (c : Cmd) (tr : List Ev) (o : Out),
      processTurn d t c tr = .ret o → o.fin = .queued → o.cmd.done = none := by
    intro d t c tr o h hq
    unfold processTurn at h
    split at h
    · split at h
      · simp at h
      · split at h
        · exact hend _ _ _ _ _ h hq
        · split at h <;> exact hend _ _ _ _ _ h hq
    · exact hend _ _ _ _ _ h hq
    · split at h
      · unfold finish at h; injection h with h; subst h; simp at hq
      · exact hend _ _ _ _ _ h hq
  have hwrite : ∀ (d : Bool) (t : Turn) (c : Cmd) (tr : List Ev) (o : Out), c.done = none →
      (writeTurn d t c tr = .ret o → o.fin = .queued → o.cmd.done = none ∨ o.cmd.done = some .lost) ∧
      (∀ c' tr', writeTurn d t c tr = .again c' tr' → c'.done = none) := by
    intro d t c tr o hc
    have hagain : ∀ c' tr', processTurn d t c tr = .again c' tr' → c'.done = none := by
      intro c' tr' h
      have he : ∀ (c1 : Cmd) (l : List Ev), endTurn d t c1 l = .again c' tr' → c'.done = none := by
        intro c1 l h
        unfold endTurn at h
        split at h
        · simp [finish] at h
        · rename_i hn
          unfold retry finish at h
          repeat' split at h
          all_goals first
            | (injection h with h h'; subst h; exact hn)
            | simp at h
      unfold processTurn at h
      split at h
      · split at h
        · injection h with h _; subst h; exact hc
        · split at h
          · exact he _ _ h
          · split at h <;> exact he _ _ h
      · exact he _ _ h
      · split at h
        · simp [finish] at h
        · exact he _ _ h
    refine ⟨fun h hq => ?_, fun c' tr' h => ?_⟩
    · unfold writeTurn at h
      split at h
      · simp at h
      split at h
      · injection h with h; subst h; exact Or.inl hc
      split at h
      · have hf := hfwd true t.attempt c hc
        split at h <;> rename_i he <;> rw [he] at hf
        · injection h with h; subst h; simp at hq
        · injection h with h; subst h; exact hf rfl
        · injection h with h; subst h; simp at hq
      · exact Or.inl (hproc _ _ _ _ _ h hq)
    · unfold writeTurn at h
      split at h
      · injection h with h _; subst h; exact hc
      split at h
      · simp at h
      split at h
      · split at h <;> simp at h
      · exact hagain _ _ h
  have hpeek : ∀ (d : Bool) (t : Turn) (c : Cmd) (tr : List Ev) (o : Out), c.done = none →
      (peekTurn d t c tr = .ret o → o.fin = .queued → o.cmd.done = none ∨ o.cmd.done = some .lost) ∧
      (∀ c' tr', peekTurn d t c tr = .again c' tr' → c'.done = none) := by
    intro d t c tr o hc
    unfold peekTurn
    split
    · split
      · refine ⟨fun h hq => Or.inl (hend _ _ _ _ _ h hq), fun c' tr' h => ?_⟩
        simp [endTurn, finish] at h
      · exact hwrite d t _ _ o hc
    · exact hwrite d t _ _ o hc
  have hturn : ∀ (d : Bool) (t : Turn) (c : Cmd) (tr : List Ev) (o : Out), c.done = none →
      (turn d t c tr = .ret o → o.fin = .queued → o.cmd.done = none ∨ o.cmd.done = some .lost) ∧
      (∀ c' tr', turn d t c tr = .again c' tr' → c'.done = none) := by
    intro d t c tr o hc
    unfold turn
    split
    · refine ⟨fun h hq => ?_, fun c' tr' h => by simp [finish] at h⟩
      unfold finish at h; injection h with h; subst h; simp at hq
    split
    · refine ⟨fun h hq => ?_, fun c' tr' h => by simp at h⟩
      injection h with h; subst h; exact Or.inl hc
    split
    · split
      · refine ⟨fun h hq => ?_, fun c' tr' h => by simp [finish] at h⟩
        unfold finish at h; injection h with h; subst h; simp at hq
      · exact hpeek d t _ _ o hc
      · exact hpeek d t _ _ o hc
    · exact hpeek d t _ _ o hc
  have hloop : ∀ (d : Bool) (ts : List Turn) (c : Cmd) (tr : List Ev), c.done = none →
      (loop d ts c tr).fin = .queued →
      (loop d ts c tr).cmd.done = none ∨ (loop d ts c tr).cmd.done = some .lost := by
    intro d ts
    induction ts with
    | nil => intro c tr _ h; simp [loop] at h
    | cons t ts ih =>
      intro c tr hc hq
      unfold loop at hq ⊢
      split
      · rename_i o h
        rw [h] at hq
        exact (hturn d t c tr o hc).1 h hq
      · rename_i c' tr' h
        rw [h] at hq
        exact ih _ _ ((hturn d t c tr { cmd := c, fin := .died } hc).2 _ _ h) hq
  have hrest : ∀ (c : Cmd) (tr : List Ev), (runRest x c tr).fin = .queued →
      (runRest x c tr).cmd.done = none ∨ (runRest x c tr).cmd.done = some .lost := by
    intro c tr hq
    unfold runRest at hq ⊢
    split
    · rename_i w hw
      rw [hw] at hq
      dsimp only at hq
      repeat' split at hq
      all_goals simp at hq
    · rename_i hn
      rw [hn] at hq
      dsimp only at hq
      split
      · rename_i hif
        rw [if_pos hif] at hq
        split
        · rename_i hl; rw [if_pos hl] at hq; simp at hq
        · exact Or.inl hn
      · rename_i hif
        rw [if_neg hif] at hq
        exact hloop _ _ _ _ hn hq
  have hsync : ∀ (c : Cmd) (tr : List Ev), (runSync x c tr).fin = .queued →
      (runSync x c tr).cmd.done = none ∨ (runSync x c tr).cmd.done = some .lost := by
    intro c tr hq
    unfold runSync at hq ⊢
    split
    · rename_i hs
      rw [if_pos hs] at hq
      split
      · rename_i he; rw [he] at hq; simp at hq
      · rename_i he; rw [he] at hq; exact hrest _ _ hq
    · rename_i hs
      rw [if_neg hs] at hq
      exact hrest _ _ hq
  have hpeer : ∀ (c : Cmd) (tr : List Ev), (c.done = none ∨ c.done = some .lost) →
      (runToPeer x c tr).fin = .queued →
      (runToPeer x c tr).cmd.done = none ∨ (runToPeer x c tr).cmd.done = some .lost := by
    intro c tr hc hq
    have hf : (forward false x.toPeer c).2.2 = some false →
        (forward false x.toPeer c).1.done = none ∨ (forward false x.toPeer c).1.done = some .lost := by
      intro h
      unfold forward at h ⊢
      dsimp only at h ⊢
      split
      · right; rw [if_neg (by rw [h]; simp)]
      · exact hc
    unfold runToPeer at hq ⊢
    split
    · rename_i hs
      rw [if_pos hs] at hq
      split
      · rename_i he; rw [he] at hq; simp at hq
      · rename_i he; rw [he] at hq; exact hsync _ _ hq
      · rename_i he; rw [he] at hf; exact hf rfl
    · exact hc
  unfold runCommand at hq ⊢
  split
  · rename_i h; rw [if_pos h] at hq; simp at hq
  rename_i h; rw [if_neg h] at hq
  split
  · rename_i h; rw [if_pos h] at hq; simp at hq
  rename_i h; rw [if_neg h] at hq
  split
  · rename_i h; rw [if_pos h] at hq; simp at hq
  rename_i h; rw [if_neg h] at hq
  split
  · exact Or.inl hc
  rename_i h; rw [if_neg h] at hq
  split
  · rename_i h; rw [if_pos h] at hq; simp at hq
  rename_i h; rw [if_neg h] at hq
  split
  · rename_i h; rw [if_pos h] at hq
    split
    · rename_i h; rw [if_pos h] at hq
      have hf := hfwd true x.toLeader c hc
      split
      · rename_i he; rw [he] at hq; simp at hq
      · rename_i he; rw [he] at hq; exact hsync _ _ hq
      · rename_i he; rw [he] at hq hf; exact hpeer _ _ (hf rfl) hq
    · rename_i h; rw [if_neg h] at hq; exact hpeer _ _ (Or.inl hc) hq
  · rename_i h; rw [if_neg h] at hq; exact hsync _ _ hq

theorem life_fine (xs : List Call) : ∀ (c : Cmd) (tr : List Ev), CalmLife xs c → c.done = none →
    commits tr = 0 → sends tr = 0 → FineOut (life xs c tr) := by
  induction xs with
  | nil =>
    intro c tr _ hc h1 h2
    refine ⟨fun h => by simp [life] at h, fun _ => ?_⟩
    have : Fine c tr := by
      unfold Fine
      rw [hc]
      exact ⟨h1, h2⟩
    exact this
  | cons x xs ih =>
    intro c tr hl hc h1 h2
    obtain ⟨hx, hl⟩ := hl
    have hf := runCommand_fine x c hx hc
    unfold life
    dsimp only
    split
    · rename_i hq
      have hfine := hf.2 (by rw [hq]; simp)
      rcases queued_done x c hc hq with hd | hd
      · unfold Fine at hfine
        rw [hd] at hfine
        exact ih _ _ hl hd (by simp [h1, hfine.1]) (by simp [h2, hfine.2])
      · exact life_done xs _ _ hl (by rw [hd]; simp) (hfine.shift h1 h2) (by rw [hd]; simp) (by rw [hd]; simp)
          (by rw [hd]; simp)
    · refine ⟨fun hr => ?_, fun hr => (hf.2 hr).shift h1 h2⟩
      have := hf.1 hr
      simp [h1, h2, this.1, this.2]

/-- **C61** (restricted to calm lives, see the witnesses below for what happens otherwise) Over its whole
life, through any number of conflicts, retries, queues, escalations and lost connections, a command is
committed here or handed completely to another node at most once in total.  If it is answered as
committed it was committed here exactly once; if it is answered as read, or as processed without a
change, nothing was committed or handed over; if it is refused or timed out it was not committed here. -/
theorem c61_at_most_once_partial (xs : List Call) (c : Cmd) (hc : c.done = none) (hl : CalmLife xs c) :
    let o := life xs c []
    commits o.trace + sends o.trace ≤ 1 ∧
    (o.fin = .replied →
      (o.cmd.done = some .committed → commits o.trace = 1 ∧ sends o.trace = 0) ∧
      (o.cmd.done = some .read ∨ o.cmd.done = some .processed → commits o.trace = 0 ∧ sends o.trace = 0) ∧
      (o.cmd.done = some .refused ∨ o.cmd.done = some .timedOut → commits o.trace = 0)) := by
  intro o
  have h := life_fine xs c [] hl hc rfl rfl
  refine ⟨?_, fun hr => ?_⟩
  · by_cases hrun : o.fin = .running
    · have := h.1 hrun
      show commits (life xs c []).trace + sends (life xs c []).trace ≤ 1
      omega
    · exact (h.2 hrun).le
  · have hf : Fine o.cmd o.trace := h.2 (by show o.fin ≠ _; rw [hr]; simp)
    unfold Fine at hf
    refine ⟨fun hd => ?_, fun hd => ?_, fun hd => ?_⟩
    · rw [hd] at hf; exact hf
    · rcases hd with hd | hd <;> (rw [hd] at hf; exact hf)
    · rcases hd with hd | hd <;> (rw [hd] at hf; exact hf.1)

/-- A node that loses leadership right after a commit succeeded throws the success away
(BedrockServer.cpp:777-787) and runs the command again: here it commits twice; and if its time is over by
then the client is told that it timed out although it was committed. -/
theorem c61_stopped_leading_runs_twice :
    (let o := life [{ turns := [{ leadingAfter := false }, {}] }] {} []
     o.fin = .replied ∧ commits o.trace = 2) ∧
    (let o := life [{ turns := [{ leadingAfter := false }, { timedOut := true }] }] {} []
     o.fin = .replied ∧ o.cmd.done = some .timedOut ∧ commits o.trace = 1) := by decide +kernel

/-- An attempt that hands over everything and then loses the connection. -/
def lostAttempt : Attempt := { req := [88, 13, 10, 13, 10], rounds := [.socket [.took 5] [.closed] false] }

/-- A command that was handed to the leader and whose answer was lost is handed to another node when the
versions differ (BedrockServer.cpp:568-573). -/
theorem c61_lost_then_offered_again :
    let o := life [{ following := true, versionDiffers' := true, toLeader := lostAttempt
                     toPeer := lostAttempt }, {}] { escalateImmediately := true } []
    sends o.trace = 2 := by decide +kernel

/-- A command that was handed to the leader and whose answer was lost is handed to another node when this
node is synchronizing by the time it comes out of the queue (BedrockServer.cpp:582-590: the forwarding
does not look at `complete`). -/
theorem c61_lost_then_synchronizing :
    let o := life [{ turns := [{ leading := false, attempt := lostAttempt }] },
                   { synchronizing := true, whileSync := lostAttempt }] {} []
    sends o.trace = 2 ∧ o.fin = .replied := by decide +kernel

/-- Non-vacuity of C61: a life with a conflict, a requeue and a commit; and one that ends with a lost
answer. -/
def exLife : List Call :=
  [{ turns := [{ commitOk := false }] }, { dedicated := true, turns := [{ commitOk := false }, {}] }]

theorem exTurn_steady {t : Turn} (h : t.attempt.req ≠ []) (h' : t.leadingAfter = true) : Steady t :=
  ⟨h, fun _ _ => h'⟩

example : CalmLife exLife {} := by
  refine ⟨⟨?_, by decide, by decide, by decide⟩, ⟨?_, by decide, by decide, by decide⟩, trivial⟩
  · intro t ht
    simp at ht
    subst ht
    exact exTurn_steady (by decide) rfl
  · intro t ht
    simp at ht
    rcases ht with rfl | rfl <;> exact exTurn_steady (by decide) rfl

example : (life exLife {} []).fin = .replied ∧ (life exLife {} []).cmd.done = some .committed ∧
    (life exLife {} []).trace = [.peek, .process, .commit false, .push false, .peek, .process, .commit false,
      .peek, .process, .commit true, .reply] := by decide +kernel

/-! ## C64: retries are bounded and spaced -/

/-- **C64** The wait before attempt `n + 1` is between three quarters and five quarters of 10, 25, 50, 100,
250, 500, 500, … milliseconds (rounded), for every random number; in particular it never wraps around. -/
theorem c64_backoff (n rand : Nat) :
    let ideal := match n with | 1 => 10 | 2 => 25 | 3 => 50 | 4 => 100 | 5 => 250 | _ => 500
    ideal - ideal / 4 ≤ backoff n rand ∧ backoff n rand < ideal + ideal / 4 + 1 ∧ 8 ≤ backoff n rand := by
  unfold backoff
  have hms : ∀ ms : Nat, (ms = 10 ∨ ms = 25 ∨ ms = 50 ∨ ms = 100 ∨ ms = 250 ∨ ms = 500) →
      ms - ms / 4 ≤ (ms + (rand % (ms / 2) + 2 ^ 64 - ms / 4)) % 2 ^ 64 ∧
      (ms + (rand % (ms / 2) + 2 ^ 64 - ms / 4)) % 2 ^ 64 < ms + ms / 4 + 1 ∧
      8 ≤ (ms + (rand % (ms / 2) + 2 ^ 64 - ms / 4)) % 2 ^ 64 := by
    intro ms h
    rcases h with h | h | h | h | h | h <;> subst h <;> omega
  exact hms _ (by split <;> simp)

def processed (tr : List Ev) : Nat := tr.count .process

@[simp] theorem processed_append (a b : List Ev) : processed (a ++ b) = processed a + processed b := by
  simp [processed, List.count_append]
@[simp] theorem processed_cons (e : Ev) (l : List Ev) :
    processed (e :: l) = (if e = .process then 1 else 0) + processed l := by
  simp [processed, List.count_cons]; omega
@[simp] theorem processed_nil : processed [] = 0 := rfl

/-- With a retry limit in force (and a node that keeps leading). -/
def Limited (m : Nat) (t : Turn) : Prop := t.maxRetries = m ∧ t.leadingAfter = true

def StepLim (m : Nat) (s : Step) : Prop :=
  match s with
  | .ret o => processed o.trace ≤ m + 1
  | .again c tr => processed tr = c.processCount ∧ c.processCount ≤ m

theorem forward_processed (l : Bool) (a : Attempt) (c : Cmd) : processed (forward l a c).2.1 = 0 := by
  unfold forward
  dsimp only
  split <;> simp

/-- **C64** With a retry limit `m`, a thread processes a command at most `m + 1` times before it hands it to
the blocking queue (or answers it), as long as the node keeps leading. -/
theorem c64_bounded_retries (m : Nat) (hm : 0 < m) (d : Bool) (ts : List Turn) : ∀ (c : Cmd) (tr : List Ev),
    (∀ t ∈ ts, Limited m t) → processed tr = c.processCount → c.processCount ≤ m →
    processed (loop d ts c tr).trace ≤ m + 1 := by
  have hend : ∀ t, Limited m t → ∀ (c : Cmd) (tr : List Ev), processed tr = c.processCount →
      c.processCount ≤ m + 1 → StepLim m (endTurn d t c tr) := by
    intro t ht c tr h1 h2
    have hr : t.maxRetries ≠ 0 ∨ t.stopping = true := Or.inl (by rw [ht.1]; omega)
    unfold endTurn
    split
    · simp only [finish, StepLim, processed_append]; simp; omega
    · unfold retry
      rw [if_pos hr, ht.1]
      split
      · split
        · simp only [finish, StepLim, processed_append]; simp; omega
        · simp only [StepLim, processed_append]; simp; omega
      · exact ⟨h1, by omega⟩
  have hproc : ∀ t, Limited m t → ∀ (c : Cmd) (tr : List Ev), processed tr = c.processCount →
      c.processCount ≤ m → StepLim m (processTurn d t c tr) := by
    intro t ht c tr h1 h2
    unfold processTurn
    split
    · rw [if_neg (by rw [ht.2]; simp)]
      split
      · exact hend t ht _ _ (by simp [h1]) (by simp; omega)
      · split <;> exact hend t ht _ _ (by simp [h1]) (by simp; omega)
    · exact hend t ht _ _ (by simp [h1]) (by simp; omega)
    · split
      · simp only [finish, StepLim, processed_append]; simp; omega
      · exact hend t ht _ _ (by simp [h1]) (by simp; omega)
  have hwrite : ∀ t, Limited m t → ∀ (c : Cmd) (tr : List Ev), processed tr = c.processCount →
      c.processCount ≤ m → StepLim m (writeTurn d t c tr) := by
    intro t ht c tr h1 h2
    unfold writeTurn
    split
    · exact ⟨h1, h2⟩
    split
    · simp only [StepLim, processed_append]; simp; omega
    split
    · have hf := forward_processed true t.attempt c
      split <;> rename_i he <;> rw [he] at hf <;> dsimp only at hf <;>
        (simp only [StepLim, processed_append, hf]; simp; omega)
    · exact hproc t ht _ _ h1 h2
  have hpeek : ∀ t, Limited m t → ∀ (c : Cmd) (tr : List Ev), processed tr = c.processCount →
      c.processCount ≤ m → StepLim m (peekTurn d t c tr) := by
    intro t ht c tr h1 h2
    unfold peekTurn
    split
    · split
      · exact hend t ht _ _ (by simp [h1]) (by simp; omega)
      · exact hwrite t ht _ _ (by simp [h1]) h2
    · exact hwrite t ht _ _ h1 h2
  have hturn : ∀ t, Limited m t → ∀ (c : Cmd) (tr : List Ev), processed tr = c.processCount →
      c.processCount ≤ m → StepLim m (turn d t c tr) := by
    intro t ht c tr h1 h2
    unfold turn
    split
    · simp only [finish, StepLim, processed_append]; simp; omega
    split
    · simp only [StepLim, processed_append]; simp; omega
    split
    · split
      · simp only [finish, StepLim, processed_append]; simp; omega
      · exact hpeek t ht _ _ (by simp [h1]) h2
      · exact hpeek t ht _ _ h1 h2
    · exact hpeek t ht _ _ h1 h2
  induction ts with
  | nil => intro c tr _ h1 h2; simp only [loop]; omega
  | cons t ts ih =>
    intro c tr hts h1 h2
    have := hturn t (hts t (by simp)) c tr h1 h2
    unfold loop
    split <;> rename_i h' <;> rw [h'] at this
    · exact this
    · exact ih _ _ (fun t ht => hts t (by simp [ht])) this.1 this.2

/-- What is handed to the blocking queue has used up its retries, and the other way round. -/
def StepBlock (m : Nat) : Step → Prop
  | .ret o => Ev.push true ∈ o.trace ↔ (o.fin = .queued ∧ m < o.cmd.processCount)
  | .again c tr => Ev.push true ∉ tr ∧ c.processCount ≤ m

theorem forward_block (l : Bool) (a : Attempt) (c : Cmd) :
    Ev.push true ∉ (forward l a c).2.1 ∧ (forward l a c).1.processCount = c.processCount := by
  unfold forward
  dsimp only
  split <;> simp

/-- **C64** With a retry limit `m`, the command is handed to the blocking queue exactly if it goes back to a queue and has been
processed more than `m` times; before that it goes to the main queue or waits for a commit. -/
theorem c64_blocking_queue (m : Nat) (hm : 0 < m) (d : Bool) (ts : List Turn) : ∀ (c : Cmd) (tr : List Ev),
    (∀ t ∈ ts, Limited m t) → Ev.push true ∉ tr → c.processCount ≤ m →
    (Ev.push true ∈ (loop d ts c tr).trace ↔ ((loop d ts c tr).fin = .queued ∧ m < (loop d ts c tr).cmd.processCount)) := by
  have hend : ∀ t, Limited m t → ∀ (c : Cmd) (tr : List Ev), Ev.push true ∉ tr → StepBlock m (endTurn d t c tr) := by
    intro t ht c tr h1
    have hr : t.maxRetries ≠ 0 ∨ t.stopping = true := Or.inl (by rw [ht.1]; omega)
    unfold endTurn
    split
    · simp [finish, StepBlock, h1]
    · unfold retry
      rw [if_pos hr, ht.1]
      split
      · rename_i hlt
        split
        · simp [finish, StepBlock, h1]
        · simp [StepBlock, hlt]
      · exact ⟨h1, by omega⟩
  have hproc : ∀ t, Limited m t → ∀ (c : Cmd) (tr : List Ev), Ev.push true ∉ tr → StepBlock m (processTurn d t c tr) := by
    intro t ht c tr h1
    unfold processTurn
    split
    · rw [if_neg (by rw [ht.2]; simp)]
      split
      · exact hend t ht _ _ (by simp [h1])
      · split <;> exact hend t ht _ _ (by simp [h1])
    · exact hend t ht _ _ (by simp [h1])
    · split
      · simp [finish, StepBlock, h1]
      · exact hend t ht _ _ (by simp [h1])
  have hwrite : ∀ t, Limited m t → ∀ (c : Cmd) (tr : List Ev), Ev.push true ∉ tr →
      c.processCount ≤ m → StepBlock m (writeTurn d t c tr) := by
    intro t ht c tr h1 h2
    unfold writeTurn
    split
    · exact ⟨h1, h2⟩
    split
    · simp [StepBlock, h1, h2]
    split
    · have hf := forward_block true t.attempt c
      split <;> rename_i he <;> rw [he] at hf <;> dsimp only at hf <;> simp [StepBlock, h1, hf.1, hf.2, h2]
    · exact hproc t ht _ _ h1
  have hpeek : ∀ t, Limited m t → ∀ (c : Cmd) (tr : List Ev), Ev.push true ∉ tr →
      c.processCount ≤ m → StepBlock m (peekTurn d t c tr) := by
    intro t ht c tr h1 h2
    unfold peekTurn
    split
    · split
      · exact hend t ht _ _ (by simp [h1])
      · exact hwrite t ht _ _ (by simp [h1]) h2
    · exact hwrite t ht _ _ h1 h2
  have hturn : ∀ t, Limited m t → ∀ (c : Cmd) (tr : List Ev), Ev.push true ∉ tr →
      c.processCount ≤ m → StepBlock m (turn d t c tr) := by
    intro t ht c tr h1 h2
    unfold turn
    split
    · simp [finish, StepBlock, h1]
    split
    · simp [StepBlock, h1, h2]
    split
    · split
      · simp [finish, StepBlock, h1]
      · exact hpeek t ht _ _ (by simp [h1]) h2
      · exact hpeek t ht _ _ h1 h2
    · exact hpeek t ht _ _ h1 h2
  induction ts with
  | nil => intro c tr _ h1 h2; simp [loop, h1]
  | cons t ts ih =>
    intro c tr hts h1 h2
    have := hturn t (hts t (by simp)) c tr h1 h2
    unfold loop
    split <;> rename_i h' <;> rw [h'] at this
    · exact this
    · exact ih _ _ (fun t ht => hts t (by simp [ht])) this.1 this.2

/-- Three conflicts with a limit of two retries: the third failure hands over to the blocking queue. -/
example : loop true (List.replicate 5 { commitOk := false, maxRetries := 2 }) {} [] =
    { cmd := { processCount := 3 }
      trace := [.peek, .process, .commit false, .peek, .process, .commit false, .peek, .process, .commit false,
        .push true]
      fin := .queued } := by decide +kernel

/-- **C64** A command that the first look finishes is answered with that, and neither peeked nor processed. -/
theorem c64_first_look (d : Bool) (t : Turn) (ts : List Turn) (c : Cmd) (tr : List Ev) (h1 : t.timedOut = false)
    (h2 : t.future = false) (hr : c.repeek = false) (hh : c.https = false) (hp : t.prePeek = some true) :
    loop d (t :: ts) c tr = { cmd := { c with done := some .read }, trace := tr ++ [.peek] ++ [.reply], fin := .replied } := by
  simp [loop, turn, h1, h2, hr, hh, hp, finish]

/-- **C64** That look is had at most once for a command that has network requests or asked to be peeked again: such a turn
is the same whether or not there is one. -/
theorem c64_first_look_once (d : Bool) (t : Turn) (c : Cmd) (tr : List Ev) (h : c.repeek = true ∨ c.https = true)
    (p : Option Bool) : turn d { t with prePeek := p } c tr = turn d { t with prePeek := none } c tr := by
  have hn : ¬ (c.repeek = false ∧ c.https = false) := by
    rintro ⟨h1, h2⟩
    rcases h with h | h
    · rw [h1] at h; cases h
    · rw [h2] at h; cases h
  unfold turn
  rw [if_neg hn, if_neg hn]
  rfl

/-- **C64** A turn that finds the time to be over answers the command without running any stage. -/
theorem c64_expired_turn (d : Bool) (t : Turn) (ts : List Turn) (c : Cmd) (tr : List Ev) (h : t.timedOut = true) :
    loop d (t :: ts) c tr =
      { cmd := { c with done := some .timedOut }, trace := tr ++ [.reply], fin := .replied } := by
  simp [loop, turn, h, finish]

example : backoff 1 7 = 10 ∧ backoff 1 5 = 8 ∧ backoff 9 249 = 624 := by decide

/-- **C61** A command with network requests is not run again if the node turns out to lead no more while processing it:
it is answered with an error, so that the requests are not sent twice. -/
theorem c61_network_requests_once (d : Bool) (t : Turn) (ts : List Turn) (c : Cmd) (tr : List Ev)
    (hc : c.https = true ∧ c.repeek = false) (ht : t.timedOut = false ∧ t.future = false ∧ t.httpsDone = true)
    (hl : (t.dbReady = true ∨ c.upgrade = true) ∧ t.leading = true) (hn : t.processRes = .notLeading) :
    (loop d (t :: ts) c tr).fin = .replied ∧ (loop d (t :: ts) c tr).cmd.done = some .refused ∧
      (loop d (t :: ts) c tr).trace = tr ++ [.process, .reply] := by
  have hr : ¬ (t.dbReady = false ∧ c.upgrade = false) := by
    rintro ⟨h1, h2⟩
    rcases hl.1 with h | h
    · rw [h] at h1; simp at h1
    · rw [h] at h2; simp at h2
  simp only [loop, turn, ht.1, ht.2.1, hc.1, hc.2, peekTurn, writeTurn, processTurn, hn, finish, hl.2, ht.2.2, hr]
  simp

example : loop true [{ processRes := .notLeading, https := true }] { https := true } [] =
    { cmd := { https := true, done := some .refused, processCount := 1 }, trace := [.process, .reply], fin := .replied } := by
  decide +kernel

end Bedrock.RunCommand.Props
