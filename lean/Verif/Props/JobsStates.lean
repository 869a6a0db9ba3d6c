import Verif.Props.JobsTree

/-!
# C47: job commands are accepted only in the documented states
-/

namespace Bedrock.Jobs.Props
open Bedrock Bedrock.Jobs

/-- What the documentation of each command asks of the job it names.  (CancelJob is documented for QUEUED, RUNQUEUED
and FAILED children; it also acts on a CANCELLED one, see `c44_cancel_child_twice`.) -/
def Documented (db : Table) : Op → Prop
  | .create .. => True
  | .get .. => True
  | .update id .. => ∃ j ∈ db, j.id = id
  | .finish id _ _ | .retry id _ _ _ => ∃ j ∈ db, j.id = id ∧
      (j.state = .running ∨ j.state = .runqueued ∨ j.data.mocked = true) ∧
      (j.parent = 0 ∨ ∃ p ∈ db, p.id = j.parent ∧ p.state = .paused)
  | .cancel id => ∃ j ∈ db, j.id = id ∧ j.parent ≠ 0 ∧ (∀ c ∈ db, c.parent ≠ 0 → c.parent ≠ id) ∧
      (j.state = .queued ∨ j.state = .runqueued ∨ j.state = .failed ∨ j.state = .cancelled)
  | .fail id _ => ∃ j ∈ db, j.id = id ∧ (j.state = .running ∨ j.state = .runqueued)
  | .delete id => ∃ j ∈ db, j.id = id ∧ j.state ≠ .running ∧ j.state ≠ .paused
  | .requeue .. => True

theorem finish_documented {env : Env} {now id : Int} {data : Option (Data × Bool)} {ign : Bool} {retry : Option Retry}
    {db db' : Table} (h : finish env now id data ign retry db = .ok db') :
    ∃ j ∈ db, j.id = id ∧ (j.state = .running ∨ j.state = .runqueued ∨ j.data.mocked = true) ∧
      (j.parent = 0 ∨ ∃ p ∈ db, p.id = j.parent ∧ p.state = .paused) := by
  obtain ⟨_, j, hl, hs, hp, _⟩ := finish_ok h
  refine ⟨j, (lookup_mem hl).1, (lookup_mem hl).2, hs, ?_⟩
  rcases hp with hp | hp
  · exact Or.inl hp
  · right
    cases hlp : lookup db j.parent with
    | none => rw [hlp] at hp; simp at hp
    | some p =>
      rw [hlp] at hp
      exact ⟨p, (lookup_mem hlp).1, (lookup_mem hlp).2, by simpa using hp⟩

/-- C47: a command changes the table only if the job it names exists and is in a documented state. -/
theorem c47_only_documented {env : Env} {now : Int} {op : Op} {db : Table} (h : (step env now op db).1 ≠ db) :
    Documented db op := by
  cases op with
  | create single mock ns => trivial
  | get pat crash mock prio num => trivial
  | requeue ids name dec => trivial
  | update id data rep clear nextRun prio =>
    simp only [step] at h
    split at h
    · rename_i he
      obtain ⟨_, _, j, hl, _⟩ := update_ok he
      exact ⟨j, (lookup_mem hl).1, (lookup_mem hl).2⟩
    · exact absurd rfl h
  | finish id data ign =>
    simp only [step] at h
    split at h
    · rename_i he; exact finish_documented he
    · exact absurd rfl h
  | retry id data ign q =>
    simp only [step] at h
    split at h
    · rename_i he; exact finish_documented he
    · exact absurd rfl h
  | cancel id =>
    simp only [step] at h
    split at h
    · rename_i db' he
      obtain ⟨_, j, hl, hno, hp, hcase⟩ := cancel_ok he
      refine ⟨j, (lookup_mem hl).1, (lookup_mem hl).2, hp, ?_, ?_⟩
      · intro c hc h0 hcp
        rw [List.any_eq_false] at hno
        exact hno c hc (isChild_iff.mpr ⟨h0, hcp⟩)
      · rcases hcase with ⟨rfl, _⟩ | ⟨hs, _⟩
        · exact absurd rfl h
        · exact hs
    · exact absurd rfl h
  | fail id data =>
    simp only [step] at h
    split at h
    · rename_i he
      obtain ⟨_, j, hl, hs, _⟩ := fail_ok he
      exact ⟨j, (lookup_mem hl).1, (lookup_mem hl).2, hs⟩
    · exact absurd rfl h
  | delete id =>
    simp only [step] at h
    split at h
    · rename_i he
      obtain ⟨_, j, hl, h1, h2, _⟩ := delete_ok he
      exact ⟨j, (lookup_mem hl).1, (lookup_mem hl).2, h1, h2⟩
    · exact absurd rfl h

/-- C47: a command that answers with an error changes nothing. -/
theorem c47_error_changes_nothing {env : Env} {now : Int} {op : Op} {db : Table} {e : Err}
    (h : (step env now op db).2 = .err e) : (step env now op db).1 = db := by
  cases op with
  | create single mock ns => simp only [step] at h ⊢; split at h <;> simp_all
  | get pat crash mock prio num => simp only [step] at h ⊢; split at h <;> simp_all
  | update id data rep clear nextRun prio => simp only [step] at h ⊢; split at h <;> simp_all
  | finish id data ign => simp only [step] at h ⊢; split at h <;> simp_all
  | retry id data ign q => simp only [step] at h ⊢; split at h <;> simp_all
  | cancel id => simp only [step] at h ⊢; split at h <;> simp_all
  | fail id data => simp only [step] at h ⊢; split at h <;> simp_all
  | delete id => simp only [step] at h ⊢; split at h <;> simp_all
  | requeue ids name dec => simp [step] at h

/-- C47: FailJob on a running job succeeds, fails that job and touches no other. -/
theorem c47_fail {env : Env} {now id : Int} {data : Option Data} {db : Table} (hu : Uniq db) (hid : 1 ≤ id)
    {j : Job} (hj : j ∈ db) (hjid : j.id = id) (hs : j.state = .running ∨ j.state = .runqueued) :
    (step env now (.fail id data) db).2 = .ok ∧
    (∀ k, k ∈ (step env now (.fail id data) db).1 ↔
      (k = { j with state := .failed, data := data.getD j.data } ∨ (k ∈ db ∧ k.id ≠ id))) := by
  have hl : lookup db id = some j := by rw [← hjid]; exact lookup_eq hu hj
  have hf : fail id data db = .ok (set id (fun j => { j with data := data.getD j.data, state := .failed }) db) := by
    unfold fail
    rw [if_neg (by omega), hl]
    dsimp only
    rw [if_neg (by rcases hs with h | h <;> simp [h])]
  simp only [step, hf, true_and]
  intro k
  rw [mem_set]
  constructor
  · rintro ⟨x, hx, rfl⟩
    by_cases hxid : x.id = id
    · left
      rw [if_pos hxid, hu.eq hx hj (hxid.trans hjid.symm)]
    · right
      rw [if_neg hxid]
      exact ⟨hx, hxid⟩
  · rintro (rfl | ⟨hk, hkid⟩)
    · exact ⟨j, hj, by rw [if_pos hjid]⟩
    · exact ⟨k, hk, by rw [if_neg hkid]⟩

/-- C47: DeleteJob on a job that is neither running nor paused succeeds and removes exactly that job. -/
theorem c47_delete {env : Env} {now id : Int} {db : Table} (hu : Uniq db) (hid : 1 ≤ id)
    {j : Job} (hj : j ∈ db) (hjid : j.id = id) (hs : j.state ≠ .running ∧ j.state ≠ .paused) :
    (step env now (.delete id) db).2 = .ok ∧
    (∀ k, k ∈ (step env now (.delete id) db).1 ↔ (k ∈ db ∧ k.id ≠ id)) := by
  have hl : lookup db id = some j := by rw [← hjid]; exact lookup_eq hu hj
  have hf : delete id db = .ok (db.filter (·.id ≠ id)) := by
    unfold delete
    rw [if_neg (by omega), hl]
    dsimp only
    rw [if_neg (by rintro (h | h); exact hs.1 h; exact hs.2 h)]
  simp only [step, hf, true_and]
  intro k
  simp

/-- C47: a running job without parent and children that does not repeat is gone after FinishJob, and nothing else
changes. -/
theorem c47_finish_simple {env : Env} {now id : Int} {ign : Bool} {db : Table} (hu : Uniq db) (hid : 1 ≤ id)
    {j : Job} (hj : j ∈ db) (hjid : j.id = id) (hs : j.state = .running ∨ j.state = .runqueued) (hp : j.parent = 0)
    (hrep : j.rep = none) (hch : ∀ c ∈ db, c.parent ≠ 0 → c.parent ≠ id) :
    (step env now (.finish id none ign) db).2 = .ok ∧
    (∀ k, k ∈ (step env now (.finish id none ign) db).1 ↔ (k ∈ db ∧ k.id ≠ id)) := by
  have hl : lookup db id = some j := by rw [← hjid]; exact lookup_eq hu hj
  have hnc : ∀ c ∈ db, isChild id c = false := by
    intro c hc
    cases h : isChild id c with
    | false => rfl
    | true => exact absurd (isChild_iff.mp h).2 (hch c hc (isChild_iff.mp h).1)
  have hdrop : dropDone id db = db := by
    unfold dropDone
    rw [List.filter_eq_self]
    intro c hc
    simp [hnc c hc]
  have hpend : hasPending (storeData id none db) id = false := by
    have := hasPending_store id none db id
    rw [hdrop] at this
    rw [this]
    cases h : hasPending db id with
    | false => rfl
    | true =>
      obtain ⟨c, hc, h0, h1, _⟩ := hasPending_iff.mp h
      exact absurd h1 (hch c hc h0)
  have hany : ((storeData id none db).filter (·.id ≠ id)).any (isChild id) = false := by
    rw [List.any_eq_false]
    intro c hc
    obtain ⟨y, hy, rfl⟩ := mem_set.mp (List.mem_filter.mp hc).1
    split
    · have : isChild id y = false := hnc y hy
      simpa [isChild] using this
    · simp [hnc y hy]
  have hf : finish env now id none ign none db = .ok ((storeData id none db).filter (·.id ≠ id)) := by
    unfold finish
    rw [if_neg (by omega), hl]
    dsimp only
    rw [if_neg (by rcases hs with h | h <;> simp [h]), if_neg (by simp [hp]), if_neg (by simp), hdrop,
      if_neg (by simp [hpend]), if_neg (by simp)]
    simp only [Option.any_none, Bool.false_eq_true, if_false, hrep, rescheduled, conclude, Option.isSome_none, relabel]
    rw [if_neg (by simp [hp])]
    simp only [hany, Bool.false_eq_true, if_false]
  simp only [step, hf, true_and]
  intro k
  rw [List.mem_filter]
  constructor
  · rintro ⟨hk, hkid⟩
    obtain ⟨y, hy, rfl⟩ := mem_set.mp hk
    by_cases hyid : y.id = id
    · rw [if_pos hyid] at hkid; simp [hyid] at hkid
    · rw [if_neg hyid]; exact ⟨hy, hyid⟩
  · rintro ⟨hk, hkid⟩
    exact ⟨mem_set.mpr ⟨k, hk, by rw [if_neg hkid]⟩, by simp [hkid]⟩

/-- C47: UpdateJob, FailJob, DeleteJob and CancelJob leave every job alone that is neither the one they name nor its
parent. -/
theorem c47_frame {env : Env} {now id : Int} {op : Op} {db : Table}
    (hop : (∃ d r c n p, op = .update id d r c n p) ∨ (∃ d, op = .fail id d) ∨ op = .delete id ∨ op = .cancel id)
    {k : Job} (hk : k ∈ db) (hkid : k.id ≠ id) (hpar : ∀ j ∈ db, j.id = id → j.parent ≠ k.id) :
    k ∈ (step env now op db).1 := by
  rcases hop with ⟨d, r, c, n, p, rfl⟩ | ⟨d, rfl⟩ | rfl | rfl
  · simp only [step]
    split
    · rename_i he
      obtain ⟨_, _, j, _, rfl⟩ := update_ok he
      exact mem_set.mpr ⟨k, hk, by rw [if_neg hkid]⟩
    · exact hk
  · simp only [step]
    split
    · rename_i he
      obtain ⟨_, j, _, _, rfl⟩ := fail_ok he
      exact mem_set.mpr ⟨k, hk, by rw [if_neg hkid]⟩
    · exact hk
  · simp only [step]
    split
    · rename_i he
      obtain ⟨_, j, _, _, _, rfl⟩ := delete_ok he
      exact List.mem_filter.mpr ⟨hk, by simp [hkid]⟩
    · exact hk
  · simp only [step]
    split
    · rename_i he
      obtain ⟨_, j, hl, _, _, hcase⟩ := cancel_ok he
      have hjp := hpar j (lookup_mem hl).1 (lookup_mem hl).2
      rcases hcase with ⟨rfl, _⟩ | ⟨_, rfl⟩
      · exact hk
      · have h1 : k ∈ set id (fun j => { j with state := .cancelled }) db :=
          mem_set.mpr ⟨k, hk, by rw [if_neg hkid]⟩
        split
        · exact h1
        · exact mem_set.mpr ⟨k, h1, by rw [if_neg (fun h => hjp h.symm)]⟩
    · exact hk

/-- Cases for the theorems above. -/
example : Documented db0 (.fail 5 none) ∧ ¬ Documented db0 (.fail 1 none) := by
  constructor
  · exact ⟨db0[4], by decide, rfl, Or.inl rfl⟩
  · rintro ⟨j, hj, hid, hs⟩
    simp [db0] at hj
    rcases hj with rfl | rfl | rfl | rfl | rfl <;> simp_all

/-- C47: a mocked job is finished in any state, also one that nobody has. -/
theorem c47_mocked_any_state :
    (step env0 100 (.finish 1 none false) [{ id := 1, state := .queued, nextRun := 5000, data := { mocked := true } }]) =
      ([], .ok) := by
  decide +kernel

/-- C47: a repeating job with `retryAfter` on a fixed schedule is finished with the time `GetJob` noted; a manual one
has no such note, and FinishJob always fails. -/
theorem c47_manual_scheduled_stuck :
    let all : Bytes → Bool := fun _ => true
    let no : Bytes → Bool := fun _ => false
    let env := { env0 with next := fun _ sched _ _ => if sched = 0 then .null else .time (sched + 1000) }
    (run env [] [
      (100, .create true false [({ name := [109, 97, 110, 117, 97, 108, 47, 97], rep := some 1, retryAfter := some 1 }, 7)]),
      (200, .get all no false none 1),
      (300, .finish 7 none false),
      (400, .finish 7 none false)]).2.drop 2 = [.err .constraint, .err .constraint] := by
  decide +kernel

end Bedrock.Jobs.Props
