import Verif.Model.GetRequest
import Verif.Props.JobsHandout
import Verif.Props.Param
import Verif.Props.Deadline

/-! # C139: a worker gets what its request asks for -/

namespace Bedrock.GetRequest.Props
open Bedrock Text Http JobText Attr

/-- **C139** Exactly these requests are accepted: with a name of 1 to 12750 bytes, a number of results if and only if it is `GetJobs`,
and no priority or one that jobs can have. -/
theorem c139_accepted (verb : Bytes) (t : Table) : peek verb t = .ok () ↔
    (1 ≤ (t.get (b!"name")).length ∧ (t.get (b!"name")).length ≤ 12750) ∧
    (sIEquals verb (b!"GetJobs") = true ↔ (t.find (b!"numResults")).isSome) ∧
    ((t.find (b!"jobPriority")).isSome → strtoll (t.get (b!"jobPriority")) ∈ ([0, 250, 500, 750, 850, 1000] : List Int)) := by
  unfold peek verifySize isSet Jobs.validPriority
  by_cases h1 : (t.get (b!"name")).length < 1
  · rw [if_pos h1]
    constructor
    · intro h; cases h
    · intro h; omega
  rw [if_neg h1]
  by_cases h2 : 255 * 50 < (t.get (b!"name")).length
  · rw [if_pos h2]
    constructor
    · intro h; cases h
    · intro h; omega
  rw [if_neg h2]
  dsimp only
  have hlen : 1 ≤ (t.get (b!"name")).length ∧ (t.get (b!"name")).length ≤ 12750 := by omega
  by_cases h3 : sIEquals verb (b!"GetJobs") = (t.find (b!"numResults")).isSome
  · rw [if_neg (fun h => h h3), h3]
    by_cases h4 : (t.find (b!"jobPriority")).isSome = true ∧
        decide (strtoll (t.get (b!"jobPriority")) ∈ ([0, 250, 500, 750, 850, 1000] : List Int)) = false
    · rw [if_pos h4]
      constructor
      · intro h; cases h
      · intro h
        exact absurd (h.2.2 h4.1) (of_decide_eq_false h4.2)
    · rw [if_neg h4]
      refine ⟨fun _ => ⟨hlen, Iff.rfl, fun hs => ?_⟩, fun _ => rfl⟩
      exact Decidable.byContradiction fun hn => h4 ⟨hs, decide_eq_false hn⟩
  · rw [if_pos h3]
    constructor
    · intro h; split at h <;> cases h
    · intro h
      exact absurd (Bool.eq_iff_iff.mpr h.2.1) h3

theorem answer_jobs {env : Jobs.Env} {now : Int} {glob : Bytes → Bytes → Bool} {crash : Bytes → Bool} {verb : Bytes} {t : Table}
    {db db' : Jobs.Table} {l : List Jobs.Job} (h : answer env now glob crash verb t db = .jobs db' l) :
    peek verb t = .ok () ∧ Jobs.get env now (wanted glob (t.get (b!"name"))) crash (mocked t) (priority t)
      (calcInt t (b!"numResults")) db = .ok (db', l) := by
  unfold answer at h
  split at h
  · cases h
  · rename_i hp
    split at h
    · cases h
    · rename_i r hr
      cases h
      exact ⟨hp, hr⟩

/-- **C139** `GetJob` hands out at most one job. -/
theorem c139_one {env : Jobs.Env} {now : Int} {glob : Bytes → Bytes → Bool} {crash : Bytes → Bool} {verb : Bytes} {t : Table}
    {db db' : Jobs.Table} {l : List Jobs.Job} (h : answer env now glob crash verb t db = .jobs db' l)
    (hv : sIEquals verb (b!"GetJobs") = false) : l.length ≤ 1 := by
  obtain ⟨hp, hg⟩ := answer_jobs h
  have hn := ((c139_accepted verb t).mp hp).2.1
  have hf : t.find (b!"numResults") = none := by
    cases hf : t.find (b!"numResults") with
    | none => rfl
    | some v =>
      rw [hf] at hn
      have := hn.mpr rfl
      rw [hv] at this
      cases this
  have hc : calcInt t (b!"numResults") = 0 := by
    unfold calcInt Http.Table.get
    rw [hf]
    decide +kernel
  have := (Jobs.Props.c45_returned hg).1
  rw [hc] at this
  omega

/-- **C139** `GetJobs` hands out at most the number asked for, and one if a number that is not positive was, down to -2147483648. -/
theorem c139_many {env : Jobs.Env} {now : Int} {glob : Bytes → Bytes → Bool} {crash : Bytes → Bool} {verb : Bytes} {t : Table}
    {db db' : Jobs.Table} {l : List Jobs.Job} (h : answer env now glob crash verb t db = .jobs db' l) {n : Int}
    (hn : t.find (b!"numResults") = some (intDec n)) (h1 : -2 ^ 31 ≤ n) (h2 : n < 2 ^ 63) : (l.length : Int) ≤ max n 1 := by
  obtain ⟨hp, hg⟩ := answer_jobs h
  have := (Jobs.Props.c45_returned hg).1
  have hs : strtoll (t.get (b!"numResults")) = n := by
    unfold Http.Table.get
    rw [hn]
    exact Param.Props.strtoll_intDec (by omega) h2
  have hc : calcInt t (b!"numResults") = min n 0x7fffffff := by
    unfold calcInt toInt32
    rw [hs]
    omega
  rw [hc] at this
  omega

/-- **C139** Every job handed out has a name that was asked for, the priority that was asked for, if one was, and is due; it is mocked
only if mocked jobs were asked for. -/
theorem c139_asked {env : Jobs.Env} {now : Int} {glob : Bytes → Bytes → Bool} {crash : Bytes → Bool} {verb : Bytes} {t : Table}
    {db db' : Jobs.Table} {l : List Jobs.Job} (h : answer env now glob crash verb t db = .jobs db' l) :
    ∀ j ∈ l, j ∈ db ∧ wanted glob (t.get (b!"name")) j.name = true ∧ crash j.name = false ∧ j.nextRun ≤ now ∧
      ((t.find (b!"jobPriority")).isSome → j.priority = .num (strtoll (t.get (b!"jobPriority")))) ∧
      (t.find (b!"mockRequest") = none → t.find (b!"getMockedJobs") = none → j.data.mocked = false) := by
  obtain ⟨hp, hg⟩ := answer_jobs h
  have hv := ((c139_accepted verb t).mp hp).2.2
  intro j hj
  obtain ⟨hdb, hdue, hcr⟩ := (Jobs.Props.c45_returned hg).2.1 j hj
  obtain ⟨_, hrun, hname, hmock, hprio⟩ := hdue
  refine ⟨hdb, hname, hcr, hrun, fun hs => ?_, fun m1 m2 => ?_⟩
  · have hr := hv hs
    have hc : priority t = some (strtoll (t.get (b!"jobPriority"))) := by
      unfold priority isSet
      rw [if_pos hs]
      unfold calcInt toInt32
      congr 1
      simp only [List.mem_cons, List.not_mem_nil, or_false] at hr
      omega
    rw [hc] at hprio
    exact hprio
  · have : mocked t = false := by
      unfold mocked isSet
      rw [m1, m2]
      rfl
    rw [this] at hmock
    rcases hmock with hmock | hmock
    · cases hmock
    · exact hmock

/-- A job that a request asks for, in terms of its headers. -/
def Asked (now : Int) (glob : Bytes → Bytes → Bool) (t : Table) (j : Jobs.Job) : Prop :=
  (j.state = .queued ∨ j.state = .runqueued) ∧ j.nextRun ≤ now ∧ wanted glob (t.get (b!"name")) j.name = true ∧
  ((t.find (b!"mockRequest")).isSome ∨ (t.find (b!"getMockedJobs")).isSome ∨ j.data.mocked = false) ∧
  ∃ p : Int, p ∈ ([0, 250, 500, 750, 850, 1000] : List Int) ∧ j.priority = .num p ∧
    ∀ v, t.find (b!"jobPriority") = some v → p = strtoll v

theorem due_of_asked {now : Int} {glob : Bytes → Bytes → Bool} {t : Table} {j : Jobs.Job} (h : Asked now glob t j) :
    Jobs.Props.Due now (wanted glob (t.get (b!"name"))) (mocked t) (priority t) j := by
  obtain ⟨h1, h2, h3, h4, p, h5, h6, h7⟩ := h
  refine ⟨h1, h2, h3, ?_, ?_⟩
  · unfold mocked isSet
    rcases h4 with h4 | h4 | h4
    · left; rw [h4]; rfl
    · left; rw [h4, Bool.or_true]
    · exact Or.inr h4
  · unfold priority isSet calcInt Http.Table.get
    cases hf : t.find (b!"jobPriority") with
    | none => exact ⟨p, decide_eq_true h5, h6⟩
    | some v =>
      have hp := h7 v hf
      have e : toInt32 (min (strtoll v) 0x7fffffff) = p := by
        rw [← hp]
        unfold toInt32
        simp only [List.mem_cons, List.not_mem_nil, or_false] at h5
        omega
      show j.priority = .num (toInt32 (min (strtoll v) 0x7fffffff))
      rw [e]; exact h6

/-- **C139** A worker is told that there is no job only if none that its request asks for is due. -/
theorem c139_none {env : Jobs.Env} {now : Int} {glob : Bytes → Bytes → Bool} {crash : Bytes → Bool} {verb : Bytes} {t : Table}
    {db : Jobs.Table} (h : answer env now glob crash verb t db = .failed .notFound) : ∀ j ∈ db, ¬ Asked now glob t j := by
  intro j hj ha
  unfold answer at h
  split at h
  · cases h
  · split at h
    · rename_i hg
      cases h
      exact Jobs.Props.c45_none hg j hj (due_of_asked ha)
    · cases h

/-- **C139** A job that was asked for and is left behind comes after all that are handed out; and then, unless jobs were failed, as many
were handed out as the request asks for. -/
theorem c139_best {env : Jobs.Env} {now : Int} {glob : Bytes → Bytes → Bool} {crash : Bytes → Bool} {verb : Bytes} {t : Table}
    {db db' : Jobs.Table} {l : List Jobs.Job} (h : answer env now glob crash verb t db = .jobs db' l) {j : Jobs.Job} (hj : j ∈ db)
    (ha : Asked now glob t j) (hc : crash j.name = false ∧ Jobs.count j < 10) (hl : j ∉ l) :
    (∀ c ∈ l, Jobs.Props.Before c j) ∧ ((∀ b ∈ db, crash b.name = false ∧ Jobs.count b < 10) →
      ∀ n : Nat, (t.find (b!"numResults") = some (intDec n) ∧ 1 ≤ n ∧ n < 2 ^ 31) ∨ (t.find (b!"numResults") = none ∧ n = 1) →
        l.length = n) := by
  obtain ⟨_, hg⟩ := answer_jobs h
  obtain ⟨h1, h2⟩ := Jobs.Props.c45_best hg hj (due_of_asked ha) hc hl
  refine ⟨h1, fun hb n hn => ?_⟩
  have hlen := h2 hb
  rcases hn with ⟨hn, hn1, hn2⟩ | ⟨hn, rfl⟩
  · have hs : strtoll (t.get (b!"numResults")) = n := by
      unfold Http.Table.get
      rw [hn]
      exact Param.Props.strtoll_intDec (by omega) (by omega)
    have hc : calcInt t (b!"numResults") = n := by
      unfold calcInt toInt32
      rw [hs]
      omega
    rw [hc] at hlen
    omega
  · have hc : calcInt t (b!"numResults") = 0 := by
      unfold calcInt Http.Table.get
      rw [hn]
      decide +kernel
    rw [hc] at hlen
    omega

/-- **C139** A request that is refused changes nothing and the answer tells why: the name, the number of results or the priority. -/
theorem c139_refused (verb : Bytes) (t : Table) {line : Bytes} (h : peek verb t = .error line) :
    (line = (b!"402 Missing name") ∧ t.get (b!"name") = []) ∨
    (line = (b!"402 Malformed name") ∧ 12750 < (t.get (b!"name")).length) ∨
    (line = (b!"402 Missing numResults") ∧ t.find (b!"numResults") = none) ∨
    (line = (b!"402 Cannot use numResults with GetJob; try GetJobs") ∧ (t.find (b!"numResults")).isSome) ∨
    (line = (b!"402 Invalid priority value") ∧ (t.find (b!"jobPriority")).isSome ∧
      strtoll (t.get (b!"jobPriority")) ∉ ([0, 250, 500, 750, 850, 1000] : List Int)) := by
  unfold peek verifySize isSet at h
  by_cases h1 : (t.get (b!"name")).length < 1
  · rw [if_pos h1] at h
    cases h
    exact Or.inl ⟨rfl, List.eq_nil_of_length_eq_zero (by omega)⟩
  rw [if_neg h1] at h
  by_cases h2 : 255 * 50 < (t.get (b!"name")).length
  · rw [if_pos h2] at h
    cases h
    exact Or.inr (Or.inl ⟨rfl, by omega⟩)
  rw [if_neg h2] at h
  dsimp only at h
  split at h
  · rename_i h3
    split at h
    · rename_i h4
      cases h
      refine Or.inr (Or.inr (Or.inl ⟨rfl, ?_⟩))
      rw [h4] at h3
      cases hf : t.find (b!"numResults") with
      | none => rfl
      | some v => rw [hf] at h3; exact absurd rfl h3
    · rename_i h4
      cases h
      refine Or.inr (Or.inr (Or.inr (Or.inl ⟨rfl, ?_⟩)))
      cases hf : t.find (b!"numResults") with
      | none => rw [hf, Bool.not_eq_true _ |>.mp h4] at h3; exact absurd rfl h3
      | some v => rfl
  · split at h
    · rename_i h5
      cases h
      refine Or.inr (Or.inr (Or.inr (Or.inr ⟨rfl, h5.1, ?_⟩)))
      exact of_decide_eq_false h5.2
    · cases h

/-- **C139** fails for numbers below -2147483648: they are narrowed and may count as huge. -/
theorem c139_negative_partial : calcInt [(b!"numResults", b!"-2147483649")] (b!"numResults") = 2147483647 ∧
    peek (b!"GetJobs") [(b!"name", b!"*"), (b!"numResults", b!"-2147483649")] = .ok () := by
  constructor
  · decide +kernel
  · rw [c139_accepted]; decide +kernel

/-- **C139** fails for a priority that is not a number: it is accepted, and counts as 0. -/
theorem c139_word_partial : peek (b!"GetJob") [(b!"jobPriority", b!"high"), (b!"name", b!"*")] = .ok () ∧
    priority [(b!"jobPriority", b!"high"), (b!"name", b!"*")] = some 0 := by
  constructor
  · rw [c139_accepted]; decide +kernel
  · decide +kernel

example : peek (b!"getjobs") [(b!"jobPriority", b!"850"), (b!"name", b!"mail/*"), (b!"numResults", b!"5")] = .ok () := by
  rw [c139_accepted]; decide +kernel
/-- A world for the example. -/
def env0 : Jobs.Env :=
  { next := fun _ _ _ _ => .invalid, retryAt := fun _ _ => none, scheduled := fun _ => false, delayed := fun _ _ => .invalid }

def given : Answer → List Int
  | .jobs _ l => l.map (·.id)
  | _ => []

example : given (answer env0 5 (fun _ _ => true) (fun _ => false) (b!"GetJob") [(b!"name", b!"*")]
    [{ id := 1, name := (b!"a"), state := .queued, nextRun := 3 }, { id := 2, state := .queued, nextRun := 9 }]) = [1] := by decide +kernel

end Bedrock.GetRequest.Props
