import Verif.Props.JobsHandout

/-!
# C49: automatic retries are bounded
-/

namespace Bedrock.Jobs.Props
open Bedrock Bedrock.Jobs

/-- The answer contains job `id`. -/
def Mentions (id : Int) : Ans → Bool
  | .jobs l => l.any (·.id = id)
  | _ => false

/-- In how many answers the job was handed out. -/
def handouts (id : Int) (l : List Ans) : Nat := l.countP (Mentions id)

/-- A command that does not give job `id` of this name a fresh count: it does not finish, retry or update it, does
not replace its data, does not rename it, and does not create it or a unique job of the same name. -/
def NoReset (id : Int) (name : Bytes) : Op → Prop
  | .create _ _ ns => ∀ n ∈ ns, n.2 ≠ id ∧ (n.1.unique = true → n.1.name ≠ name)
  | .get .. => True
  | .update u .. => u ≠ id
  | .finish u _ _ => u ≠ id
  | .retry u _ _ _ => u ≠ id
  | .cancel _ => True
  | .fail u data => u = id → data = none
  | .delete _ => True
  | .requeue ids name dec => id ∈ ids → name = none ∧ dec = false

/-- The job is retried automatically, is not manual and has been handed out `c` times or more. -/
def Counted (id : Int) (name : Bytes) (c : Int) (db : Table) : Prop :=
  ∀ j ∈ db, j.id = id → j.name = name ∧ j.retryAfter ≠ none ∧ c ≤ count j

theorem taken_counted {env : Env} (hnull : ∀ m now j, retryTime env now m j ≠ none) {now : Int} {crash : Bytes → Bool}
    {j : Job} (hr : j.retryAfter ≠ none) (hman : manual j.name = false) :
    (taken env now crash j).name = j.name ∧ (taken env now crash j).retryAfter = j.retryAfter ∧
    count j ≤ count (taken env now crash j) ∧
    (crash j.name = false → count j < 10 → count (taken env now crash j) = count j + 1) := by
  unfold taken
  split
  · rename_i hc
    refine ⟨rfl, rfl, Int.le_refl _, ?_⟩
    intro h; rw [h] at hc; simp at hc
  split
  · rename_i h; exact absurd h hr
  split
  · rename_i h
    refine ⟨rfl, rfl, Int.le_refl _, ?_⟩
    intro _ h'; omega
  split
  · rename_i m _ _ _ h; exact absurd h (hnull m now j)
  · rw [if_neg (by simp [hman])]
    refine ⟨rfl, rfl, ?_, ?_⟩
    · simp only [count, Option.getD_some]; omega
    · intro _ _; simp only [count, Option.getD_some]

theorem counted_step {env : Env} (hnull : ∀ m now j, retryTime env now m j ≠ none) {id : Int} {name : Bytes} {c : Int}
    (hman : manual name = false) {now : Int} {op : Op} {db : Table} (hu : Uniq db) (h : Counted id name c db)
    (hq : NoReset id name op) :
    Counted id name c (step env now op db).1 ∧
    (Mentions id (step env now op db).2 = true → c < 10 ∧ Counted id name (c + 1) (step env now op db).1) := by
  have keep : ∀ {j k : Job}, j ∈ db → j.id = id → k.name = j.name → k.retryAfter = j.retryAfter → k.data = j.data →
      k.name = name ∧ k.retryAfter ≠ none ∧ c ≤ count k := by
    intro j k hj hid h1 h2 h3
    obtain ⟨a, b, d⟩ := h j hj hid
    exact ⟨h1.trans a, by rw [h2]; exact b, by unfold count at *; rw [h3]; exact d⟩
  constructor
  · intro k hk hid
    rcases step_row hu hk with hc | ⟨j, hj, hjk, hrow⟩
    · cases op <;> simp only [Created] at hc
      obtain ⟨_, n, hn, hn2, _⟩ := hc
      exact absurd (hn2.symm.trans hid) (hq n hn).1
    · have hjid : j.id = id := hjk.trans hid
      obtain ⟨hname, hra, hcnt⟩ := h j hj hjid
      cases op with
      | create single mock ns =>
        rcases hrow.2 with rfl | ⟨n, hn, hun, hnn⟩
        · exact h k hj hid
        · exact absurd (hnn.trans hname) ((hq n hn).2 hun)
      | get pat crash mock prio num =>
        rcases hrow with rfl | ⟨rfl, _⟩
        · exact h k hj hid
        · obtain ⟨h1, h2, h3, _⟩ := taken_counted hnull (now := now) (crash := crash) hra (by rw [hname]; exact hman)
          exact ⟨h1.trans hname, by rw [h2]; exact hra, by omega⟩
      | update u data rep clear nextRun prio =>
        rcases hrow with rfl | ⟨hju, _⟩
        · exact h k hj hid
        · exact absurd (hju.symm.trans hjid) hq
      | finish u data ign =>
        rcases hrow with ⟨hju, _⟩ | ⟨_, rfl | ⟨_, _, rfl⟩ | ⟨_, rfl⟩⟩
        · exact absurd (hju.symm.trans hjid) hq
        · exact h k hj hid
        · exact keep hj hjid rfl rfl rfl
        · exact keep hj hjid rfl rfl rfl
      | retry u data ign q =>
        rcases hrow with ⟨hju, _⟩ | ⟨_, rfl | ⟨_, _, rfl⟩ | ⟨_, rfl⟩⟩
        · exact absurd (hju.symm.trans hjid) hq
        · exact h k hj hid
        · exact keep hj hjid rfl rfl rfl
        · exact keep hj hjid rfl rfl rfl
      | cancel u =>
        rcases hrow with rfl | ⟨_, rfl⟩ | ⟨_, rfl⟩
        · exact h k hj hid
        · exact keep hj hjid rfl rfl rfl
        · exact keep hj hjid rfl rfl rfl
      | fail u data =>
        rcases hrow with rfl | ⟨hju, rfl⟩
        · exact h k hj hid
        · have hd : data = none := hq (hju.symm.trans hjid)
          exact keep hj hjid rfl rfl (by simp [hd])
      | delete u =>
        rw [show k = j from hrow]; exact h j hj hjid
      | requeue ids nm dec =>
        rcases hrow with rfl | ⟨hin, rfl⟩
        · exact h k hj hid
        · rw [hjid] at hin
          obtain ⟨h1, h2⟩ := hq hin
          exact keep hj hjid (by simp [h1]) rfl (by simp [h2])
  · intro hm
    cases op with
    | get pat crash mock prio num =>
      simp only [step] at hm ⊢
      split at hm
      · rename_i db' l hg
        obtain ⟨h1, h2⟩ := get_ok hg
        simp only [Mentions, List.any_eq_true] at hm
        obtain ⟨j, hj, hjid⟩ := hm
        have hjid : j.id = id := by simpa using hjid
        rw [h2] at hj
        obtain ⟨hsel, hjc⟩ := List.mem_filter.mp hj
        have hjc : crash j.name = false ∧ count j < 10 := by simpa using hjc
        have hjm := (mem_select hsel).1
        obtain ⟨hname, hra, hcnt⟩ := h j hjm hjid
        refine ⟨by omega, ?_⟩
        intro k hk hid
        dsimp only at hk
        rw [h1] at hk
        obtain ⟨j0, hj0, rfl⟩ := List.mem_map.mp hk
        have hj0id : j0.id = id := by
          split at hid
          · rw [taken_id] at hid; exact hid
          · exact hid
        rw [hu.eq hj0 hjm (hj0id.trans hjid.symm)]
        rw [if_pos (by rw [List.any_eq_true]; exact ⟨j, hsel, by simp⟩)]
        obtain ⟨a, b, _, d⟩ := taken_counted hnull (now := now) (crash := crash) hra (by rw [hname]; exact hman)
        refine ⟨a.trans hname, by rw [b]; exact hra, ?_⟩
        rw [d hjc.1 hjc.2]; omega
      · simp [Mentions] at hm
    | create single mock ns => simp only [step] at hm; split at hm <;> simp [Mentions] at hm
    | update u data rep clear nextRun prio => simp only [step] at hm; split at hm <;> simp [Mentions] at hm
    | finish u data ign => simp only [step] at hm; split at hm <;> simp [Mentions] at hm
    | retry u data ign q => simp only [step] at hm; split at hm <;> simp [Mentions] at hm
    | cancel u => simp only [step] at hm; split at hm <;> simp [Mentions] at hm
    | fail u data => simp only [step] at hm; split at hm <;> simp [Mentions] at hm
    | delete u => simp only [step] at hm; split at hm <;> simp [Mentions] at hm
    | requeue ids name dec => simp [step, Mentions] at hm

/-- C49: a job with `retryAfter` that is not manual is handed out at most ten times, counting what its data already
says, in any history of commands of any length that does not finish, retry or update it or change its name or data.
The hypothesis on `env` says that the date functions give a time (see `c49_null_date`).  "Partial" because an update,
an overwriting CreateJob and a RequeueJobs that decrements also have to be excluded (`c49_update_resets`). -/
theorem c49_bounded_partial {env : Env} (hnull : ∀ m now j, retryTime env now m j ≠ none) {id : Int} {name : Bytes}
    (hman : manual name = false) {ops : List (Int × Op)} (hq : ∀ o ∈ ops, NoReset id name o.2) :
    ∀ {db : Table} {c : Int}, Uniq db →
      (∀ j ∈ db, j.id = id → j.name = name ∧ j.retryAfter ≠ none ∧ c ≤ j.data.retryAfterCount.getD 0) →
      (handouts id (run env db ops).2 : Int) ≤ max 0 (10 - c) := by
  induction ops with
  | nil => intro db c _ _; simp [run, handouts]; omega
  | cons o ops ih =>
    obtain ⟨now, op⟩ := o
    intro db c hu h
    have ih := @ih (fun o ho => hq o (by simp [ho]))
    obtain ⟨h1, h2⟩ := counted_step hnull hman (now := now) hu h (hq (now, op) (by simp))
    simp only [run, handouts, List.countP_cons]
    by_cases hm : Mentions id (step env now op db).2 = true
    · obtain ⟨hc, h3⟩ := h2 hm
      have := ih (step_uniq env now op db hu) h3
      rw [if_pos hm]
      simp only [handouts] at this
      omega
    · have := ih (step_uniq env now op db hu) h1
      rw [if_neg hm]
      simp only [handouts] at this
      omega

theorem env0_time : ∀ m now j, retryTime env0 now m j ≠ none := by
  intro m now j
  simp only [retryTime, env0]
  split
  · simp
  · rename_i r _
    by_cases h : r = 1
    · simp [h]
    · simp [h]

/-- The bound is reached: ten times handed out, then FAILED. -/
example :
    let all : Bytes → Bool := fun _ => true
    let no : Bytes → Bool := fun _ => false
    let ops := (1, Op.create true false [({ name := [97], retryAfter := some 1000 }, 7)]) ::
      (List.range 20).map fun (i : Nat) => ((10000 * (i : Int) + 10000), Op.get all no false none 1)
    handouts 7 (run env0 [] ops).2 = 10 ∧ (run env0 [] ops).1.map (·.state) = [.failed] := by
  decide +kernel

/-- C49: UpdateJob replaces the data, and the count with it: a job that is updated is retried for ever. -/
theorem c49_update_resets :
    let all : Bytes → Bool := fun _ => true
    let no : Bytes → Bool := fun _ => false
    let gets : Int → List (Int × Op) := fun t0 =>
      (List.range 20).map fun (i : Nat) => ((10000 * (i : Int) + t0), Op.get all no false none 1)
    let ops := (1, Op.create true false [({ name := [97], retryAfter := some 1000 }, 7)]) ::
      ((gets 10000).take 10 ++ [(200000, .update 7 {} none false none none)] ++ (gets 300000).take 10)
    handouts 7 (run env0 [] ops).2 = 20 := by
  decide +kernel

/-- C49: a job at the limit that comes up is FAILED and not returned. -/
theorem c49_then_failed {env : Env} {now : Int} {pat crash : Bytes → Bool} {mock : Bool} {prio : Option Int} {num : Int}
    {db db' : Table} {l : List Job} (hu : Uniq db) (h : get env now pat crash mock prio num db = .ok (db', l))
    {a : Job} (ha : a ∈ db) (hd : Due now pat mock prio a) (hr : a.retryAfter ≠ none) (hc : 10 ≤ a.data.retryAfterCount.getD 0) :
    a ∉ l ∧ ((∃ k ∈ db', k = { a with state := .failed }) ∨ (a ∈ db' ∧ ∀ c ∈ l, Before c a)) := by
  obtain ⟨h1, h2⟩ := get_ok h
  have hcount : 10 ≤ count a := hc
  constructor
  · rw [h2]
    intro h'
    have := (List.mem_filter.mp h').2
    have : crash a.name = false ∧ count a < 10 := by simpa using this
    omega
  · by_cases hs : a ∈ select now pat mock prio (max num 1).toNat db
    · left
      refine ⟨_, ?_, rfl⟩
      rw [h1, List.mem_map]
      refine ⟨a, ha, ?_⟩
      rw [if_pos (by rw [List.any_eq_true]; exact ⟨a, hs, by simp⟩)]
      unfold taken
      split
      · rfl
      split
      · rename_i h'; exact absurd h' hr
      · first | rfl | rw [if_pos hcount]
    · right
      constructor
      · by_cases hany : (select now pat mock prio (max num 1).toNat db).any (·.id = a.id) = true
        · rw [List.any_eq_true] at hany
          obtain ⟨c, hc1, hc2⟩ := hany
          rw [hu.eq (mem_select hc1).1 ha (by simpa using hc2)] at hc1
          exact absurd hc1 hs
        · rw [h1, List.mem_map]
          exact ⟨a, ha, by rw [if_neg hany]⟩
      · intro c hc'
        rw [h2] at hc'
        exact (select_left ha hd hs).2 c (List.mem_filter.mp hc').1

/-- The loop of `c49_manual_exempt`: time `2000 k`, a manual job with a retry time of one second. -/
def manualJob (st : St) (next last : Int) : Job :=
  { id := 7, state := st, name := [109, 97, 110, 117, 97, 108, 47, 97], nextRun := next, lastRun := last, retryAfter := some 1000 }

def getAll : Op := .get (fun _ => true) (fun _ => false) false none 1

theorem manual_step (st : St) (hst : st = .queued ∨ st = .runqueued) (next last now : Int) (hn : next ≤ now) :
    step env0 now getAll [manualJob st next last] =
      ([manualJob .runqueued (sec now + 1000) (sec now)], .jobs [manualJob st next last]) := by
  have he : eligible now (fun _ => true) false (manualJob st next last) = true :=
    eligible_iff.mpr ⟨hst, hn, rfl, Or.inr rfl⟩
  have hsel : select now (fun _ => true) false none (max 1 1 : Int).toNat [manualJob st next last] =
      [manualJob st next last] := by
    rw [select_none_eq]
    have hp : (manualJob st next last).priority = .num 500 := rfl
    simp [candidatesAt, byNextRun, he, hp, sortBy, insertBy]
  simp only [step, getAll, get, hsel]
  simp [taken, manualJob, count, retryTime, env0, manual]

/-- C49: manual jobs are exempt: one is handed out any number of times. -/
theorem c49_manual_exempt (n : Nat) : ∃ ops : List (Int × Op),
    ops.length = n ∧ (∀ o ∈ ops, NoReset 7 (manualJob .queued 0 0).name o.2) ∧
    handouts 7 (run env0 [manualJob .queued 0 0] ops).2 = n := by
  have key : ∀ n : Nat, ∀ (st : St) (next last now : Int), (st = .queued ∨ st = .runqueued) → next ≤ now →
      ∃ ops : List (Int × Op), ops.length = n ∧ (∀ o ∈ ops, NoReset 7 (manualJob .queued 0 0).name o.2) ∧
        handouts 7 (run env0 [manualJob st next last] ops).2 = n := by
    intro n
    induction n with
    | zero => intro st next last now _ _; exact ⟨[], rfl, by simp, rfl⟩
    | succ n ih =>
      intro st next last now hst hn
      obtain ⟨ops, h1, h2, h3⟩ := ih .runqueued (sec now + 1000) (sec now) (sec now + 1000) (Or.inr rfl) (Int.le_refl _)
      refine ⟨(now, getAll) :: ops, by simp [h1], ?_, ?_⟩
      · intro o ho
        rcases List.mem_cons.mp ho with rfl | ho
        · trivial
        · exact h2 o ho
      · simp only [run, manual_step st hst next last now hn, handouts, List.countP_cons]
        simp only [handouts] at h3
        rw [h3]
        simp [Mentions, manualJob]
  exact key n .queued 0 0 0 (Or.inl rfl) (Int.le_refl _)

/-- C49: a job without `retryAfter` whose data says it was retried ten times is set to RUNNING but given to nobody. -/
theorem c49_lost_job :
    let all : Bytes → Bool := fun _ => true
    let no : Bytes → Bool := fun _ => false
    (run env0 [] [
      (100, .create true false [({ name := [97], data := some { retryAfterCount := some 10 } }, 7)]),
      (200, .get all no false none 1)]).2 = [.ids [7], .jobs []] ∧
    ((run env0 [] [
      (100, .create true false [({ name := [97], data := some { retryAfterCount := some 10 } }, 7)]),
      (200, .get all no false none 1)]).1.map (·.state)) = [.running] := by
  decide +kernel

/-- C49, C47: a job whose next run cannot be computed is FAILED, and returned to the worker all the same, who can then
not finish it. -/
theorem c49_null_date :
    let all : Bytes → Bool := fun _ => true
    let no : Bytes → Bool := fun _ => false
    let env := { env0 with retryAt := fun _ _ => none }
    (run env [] [
      (100, .create true false [({ name := [97], retryAfter := some 1 }, 7)]),
      (200, .get all no false none 1),
      (300, .finish 7 none false)]).2 =
      [.ids [7], .jobs [{ id := 7, state := .queued, name := [97], nextRun := 100, retryAfter := some 1 }],
       .err .badState] := by
  decide +kernel

end Bedrock.Jobs.Props
