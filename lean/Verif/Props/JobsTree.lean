import Verif.Lemmas.JobsTree
import Verif.Props.JobsHandout

/-!
# C46: parents and children
-/

namespace Bedrock.Jobs.Props
open Bedrock Bedrock.Jobs

/-- No job has a grandparent. -/
def Flat (db : Table) : Prop := ∀ j ∈ db, j.parent ≠ 0 → ∀ p ∈ db, p.id = j.parent → p.parent = 0

/-- A worker has the job or may get it. -/
def active : St → Bool
  | .queued | .runqueued | .running => true
  | _ => false

/-- A child runs, or may be handed out, only while its parent is paused. -/
def NotParallel (db : Table) : Prop :=
  ∀ c ∈ db, c.parent ≠ 0 → active c.state = true → ∀ p ∈ db, p.id = c.parent → p.state = .paused

/-- The IDs of new jobs are not those of jobs that were deleted while they had children. -/
def FreshIds (db : Table) : Op → Prop
  | .create _ _ ns => ∀ n ∈ ns, ∀ j ∈ db, j.parent ≠ 0 → j.parent = n.2 → ∃ p ∈ db, p.id = n.2
  | _ => True

/-- Commands that do not push jobs of a family into the queue by force: RequeueJobs only for jobs without parent and
children, and RetryJob not for a paused job (which it refuses unless the job is mocked). -/
def Gentle (db : Table) : Op → Prop
  | .retry u _ _ _ => ∀ j ∈ db, j.id = u → j.state ≠ .paused
  | .requeue ids _ _ => ∀ j ∈ db, j.id ∈ ids → j.parent = 0 ∧ ∀ c ∈ db, c.parent ≠ 0 → c.parent ≠ j.id
  | _ => True

theorem Flat.self {db : Table} (h : Flat db) : ∀ j ∈ db, j.parent ≠ 0 → j.parent ≠ j.id :=
  fun j hj h0 he => h0 (h j hj h0 j hj he.symm)

theorem flat_of_eff {db db' : Table} {g : Job → St} (he : Eff db db' g) (h : Flat db) : Flat db' := by
  intro k hk h0 q hq hid
  obtain ⟨j, hj, _, hp, _⟩ := he k hk
  obtain ⟨p, hpm, hpid, hpp, _⟩ := he q hq
  rw [hpp]
  exact h j hj (by rw [← hp]; exact h0) p hpm (by rw [hpid, hid, hp])

theorem np_of_eff {db db' : Table} {g : Job → St} (he : Eff db db' g)
    (h : ∀ c ∈ db, c.parent ≠ 0 → active (g c) = true → ∀ p ∈ db, p.id = c.parent → g p = .paused) : NotParallel db' := by
  intro k hk h0 ha q hq hid
  obtain ⟨j, hj, _, hp, hs⟩ := he k hk
  obtain ⟨p, hpm, hpid, _, hqs⟩ := he q hq
  rw [hqs]
  exact h j hj (by rw [← hp]; exact h0) (by rw [← hs]; exact ha) p hpm (by rw [hpid, hid, hp])

theorem taken_parent (env : Env) (now : Int) (crash : Bytes → Bool) (j : Job) :
    (taken env now crash j).parent = j.parent := by
  unfold taken
  repeat' split
  all_goals rfl

/-- The effect on states of every command but CreateJob(s), FinishJob and RetryJob. -/
theorem eff_get {env : Env} {now : Int} {crash : Bytes → Bool} {db : Table} (l : List Job) :
    Eff db (db.map fun j => if l.any (·.id = j.id) then taken env now crash j else j)
      (fun j => if l.any (·.id = j.id) then (taken env now crash j).state else j.state) := by
  intro k hk
  obtain ⟨j, hj, rfl⟩ := List.mem_map.mp hk
  refine ⟨j, hj, ?_⟩
  by_cases h : l.any (·.id = j.id) = true
  · simp only [h, if_true]
    exact ⟨(taken_id ..).symm, taken_parent .., trivial⟩
  · simp only [h]
    exact ⟨rfl, rfl, rfl⟩

theorem family_create {env : Env} {now : Int} {single mock : Bool} {ns : List (NewJob × Int)} {db db' : Table}
    {ids : List Int} (hu : Uniq db) (hf : Flat db) (hfresh : FreshIds db (.create single mock ns))
    (h : create env now single mock ns db = .ok (db', ids)) :
    Flat db' ∧ (NotParallel db → NotParallel db') := by
  have key : Uniq db' ∧ Flat db' ∧ (NotParallel db → NotParallel db') ∧
      (∀ n ∈ ns, ∀ j ∈ db', j.parent ≠ 0 → j.parent = n.2 → ∃ p ∈ db', p.id = n.2) := by
    refine create_induction (P := fun d => Uniq d ∧ Flat d ∧ (NotParallel db → NotParallel d) ∧
      (∀ n ∈ ns, ∀ j ∈ d, j.parent ≠ 0 → j.parent = n.2 → ∃ p ∈ d, p.id = n.2)) ns ?_
      ⟨hu, hf, fun h => h, hfresh⟩ h
    rintro n hn m d d' id ⟨hu, hf, hnp, hfr⟩ hp
    have hu' := processCreate_uniq hu hp
    rcases processCreate_ok hp with ⟨_, _, _, _, _, rfl⟩ | ⟨e, he, _, _, _, _, _, rfl⟩ | ⟨_, hl, _, hc, rfl⟩
    · exact ⟨hu, hf, hnp, hfr⟩
    · split
      · have hE : Eff d (set e.id (overwrite m n.1) d) (·.state) := by
          intro k hk
          obtain ⟨j, hj, rfl⟩ := mem_set.mp hk
          refine ⟨j, hj, ?_⟩
          split <;> exact ⟨rfl, rfl, rfl⟩
        refine ⟨?_, flat_of_eff hE hf, fun h => np_of_eff hE (hnp h), ?_⟩
        · refine hu.set ?_; intro _; rfl
        · intro n' hn' j hj h0 hjn
          obtain ⟨j0, hj0, _, hjp, _⟩ := hE j hj
          obtain ⟨p, hp, hpid⟩ := hfr n' hn' j0 hj0 (by rw [← hjp]; exact h0) (by rw [← hjp]; exact hjn)
          refine ⟨_, mem_set.mpr ⟨p, hp, rfl⟩, ?_⟩
          split <;> exact hpid
      · exact ⟨hu, hf, hnp, hfr⟩
    · -- a new row
      have hnone := lookup_none hl
      have hold : ∀ j ∈ d, j.parent ≠ 0 → j.parent ≠ n.2 := by
        intro j hj h0 hjn
        obtain ⟨p, hp, hpid⟩ := hfr n hn j hj h0 hjn
        exact hnone p hp hpid
      have hpar : n.1.parent ≠ 0 → ∃ p ∈ d, p.id = n.1.parent ∧ lookup d n.1.parent = some p ∧
          canHaveChildren p.state = true ∧ p.parent = 0 := by
        intro h0
        obtain ⟨p, hl, hcs, _, hp0⟩ := (checkParent_ok hc).resolve_left h0
        exact ⟨p, (lookup_mem hl).1, (lookup_mem hl).2, hl, hcs, hp0⟩
      refine ⟨hu', ?_, ?_, ?_⟩
      · intro j hj h0 p hpm hpid
        rcases List.mem_append.mp hj with hj | hj
        · rcases List.mem_append.mp hpm with hpm | hpm
          · exact hf j hj h0 p hpm hpid
          · simp at hpm; subst hpm
            exact absurd hpid.symm (hold j hj h0)
        · simp at hj; subst hj
          obtain ⟨q, hq, hqid, _, _, hq0⟩ := hpar h0
          rcases List.mem_append.mp hpm with hpm | hpm
          · rw [hu.eq hpm hq (hpid.trans hqid.symm)]; exact hq0
          · simp at hpm; subst hpm
            exact absurd (hqid.trans hpid.symm) (hnone q hq)
      · intro h c hcm h0 ha p hpm hpid
        rcases List.mem_append.mp hcm with hcm | hcm
        · rcases List.mem_append.mp hpm with hpm | hpm
          · exact hnp h c hcm h0 ha p hpm hpid
          · simp at hpm; subst hpm
            exact absurd hpid.symm (hold c hcm h0)
        · simp at hcm; subst hcm
          obtain ⟨q, hq, hqid, hql, hqs, _⟩ := hpar h0
          rcases List.mem_append.mp hpm with hpm | hpm
          · rw [hu.eq hpm hq (hpid.trans hqid.symm)]
            have h0' : n.1.parent ≠ 0 := h0
            simp only [newRow, h0', if_false, hql] at ha
            cases hst : q.state <;> simp_all [canHaveChildren, active]
          · simp at hpm; subst hpm
            exact absurd (hqid.trans hpid.symm) (hnone q hq)
      · intro n' hn' j hj h0 hjn
        rcases List.mem_append.mp hj with hj | hj
        · obtain ⟨p, hp, hpid⟩ := hfr n' hn' j hj h0 hjn
          exact ⟨p, List.mem_append_left _ hp, hpid⟩
        · simp at hj; subst hj
          obtain ⟨q, hq, hqid, _⟩ := hpar h0
          exact ⟨q, List.mem_append_left _ hq, hqid.trans hjn⟩
  exact ⟨key.2.1, key.2.2.1⟩

theorem np_finish {env : Env} {now id : Int} {data : Option (Data × Bool)} {ign : Bool} {retry : Option Retry}
    {db db' : Table} (hu : Uniq db) (hf : Flat db) (h : finish env now id data ign retry db = .ok db') :
    Flat db' ∧ ((retry ≠ none → ∀ j ∈ db, j.id = id → j.state ≠ .paused) → NotParallel db → NotParallel db') := by
  obtain ⟨f, hl, _, hpar, hcases⟩ := finish_cases hf.self h
  obtain ⟨hfm, hfid⟩ := lookup_mem hl
  rcases hcases with ⟨_, _, hE⟩ | ⟨hnot, hE | ⟨hp0, b, hb, hE⟩ | ⟨_, _, hE⟩⟩
  · refine ⟨flat_of_eff hE hf, fun _ hnp => np_of_eff hE ?_⟩
    intro c hc h0 ha p hp hpid
    by_cases hci : c.id = id
    · simp [hci, active] at ha
    · simp only [hci, if_false] at ha
      by_cases hcc : isChild id c = true ∧ c.state = .paused
      · have := (isChild_iff.mp hcc.1).2
        simp [hpid, this]
      · simp only [hcc, if_false] at ha
        have hps := hnp c hc h0 ha p hp hpid
        have hpp := hf c hc h0 p hp hpid
        have hnc : isChild id p = false := by simp [isChild, hpp]
        simp [hnc, hps]
  · refine ⟨flat_of_eff hE hf, fun hg hnp => np_of_eff hE ?_⟩
    intro c hc h0 ha p hp hpid
    by_cases hci : c.id = id
    · have hcf : c = f := hu.eq hc hfm (hci.trans hfid.symm)
      have hpi : p.id ≠ id := by
        intro hpi
        exact hf.self c hc h0 (by rw [← hpid, hpi, hci])
      simp only [hpi, if_false]
      have := hpar.resolve_left (by rw [← hcf]; exact h0)
      rw [← hcf, ← hpid, lookup_eq hu hp] at this
      simpa using this
    · simp only [hci, if_false] at ha
      have hps := hnp c hc h0 ha p hp hpid
      by_cases hpi : p.id = id
      · exfalso
        have hpend : hasPending db id = true :=
          hasPending_iff.mpr ⟨c, hc, h0, hpid.symm.trans hpi, by cases hst : c.state <;> simp_all [active, pending]⟩
        exact hg (fun hr => hnot ⟨hr, hpend⟩) p hp hpi hps
      · simp only [hpi, if_false]; exact hps
  · refine ⟨flat_of_eff hE hf, fun _ hnp => np_of_eff hE ?_⟩
    intro c hc h0 ha p hp hpid
    by_cases hci : b = false ∧ c.id = f.parent
    · exact absurd (hf f hfm hp0 c hc hci.2) h0
    · simp only [hci, if_false] at ha
      by_cases hci' : c.id = id
      · simp [hci', active] at ha
      · simp only [hci', if_false] at ha
        have hps := hnp c hc h0 ha p hp hpid
        by_cases hpi : b = false ∧ p.id = f.parent
        · refine absurd (hb hpi.1 c hc (hpid.symm.trans hpi.2) ?_) hci'
          cases hst : c.state <;> simp_all [active, pending]
        · simp only [hpi, if_false]
          by_cases hpi' : p.id = id
          · rw [hu.eq hp hfm (hpi'.trans hfid.symm)] at hpid
            exact absurd (hf c hc h0 f hfm hpid) hp0
          · simp only [hpi', if_false]; exact hps
  · exact ⟨flat_of_eff hE hf, fun _ hnp => np_of_eff hE hnp⟩

theorem np_cancel {id : Int} {db db' : Table} (hu : Uniq db) (hf : Flat db) (h : cancel id db = .ok db') :
    Flat db' ∧ (NotParallel db → NotParallel db') := by
  obtain ⟨_, f, hl, hnoc, hp0, h⟩ := cancel_ok h
  obtain ⟨hfm, hfid⟩ := lookup_mem hl
  rcases h with ⟨rfl, _⟩ | ⟨_, rfl⟩
  · exact ⟨hf, fun h => h⟩
  · have h1 : Eff db (set id (fun j => { j with state := .cancelled }) db) (fun j => if j.id = id then .cancelled else j.state) := by
      refine eff_set _ id _ ?_ ?_ (s := fun _ => .cancelled) ?_ <;> intro _ <;> rfl
    have hnp1 : NotParallel db → NotParallel (set id (fun j => { j with state := .cancelled }) db) := by
      intro hnp
      refine np_of_eff h1 ?_
      intro c hc h0 ha p hp hpid
      by_cases hci : c.id = id
      · simp [hci, active] at ha
      · simp only [hci, if_false] at ha
        have hps := hnp c hc h0 ha p hp hpid
        by_cases hpi : p.id = id
        · rw [List.any_eq_false] at hnoc
          exact absurd (isChild_iff.mpr ⟨h0, hpid.symm.trans hpi⟩) (hnoc c hc)
        · simp only [hpi, if_false]; exact hps
    split
    · exact ⟨flat_of_eff h1 hf, hnp1⟩
    · rename_i hany
      have h2 : Eff (set id (fun j => { j with state := .cancelled }) db)
          (set f.parent (fun j => { j with state := .queued }) (set id (fun j => { j with state := .cancelled }) db))
          (fun j => if j.id = f.parent then .queued else j.state) := by
        refine eff_set _ f.parent _ ?_ ?_ (s := fun _ => .queued) ?_ <;> intro _ <;> rfl
      have hf1 := flat_of_eff h1 hf
      refine ⟨flat_of_eff h2 hf1, fun hnp => np_of_eff h2 ?_⟩
      have hnp := hnp1 hnp
      have hany : ∀ c ∈ set id (fun j => { j with state := .cancelled }) db, c.parent ≠ 0 → c.parent = f.parent →
          active c.state = false := by
        intro c hc h0 hcp
        cases hact : active c.state with
        | false => rfl
        | true =>
          refine absurd (List.any_eq_true.mpr ⟨c, hc, ?_⟩) hany
          have : isChild f.parent c = true := isChild_iff.mpr ⟨h0, hcp⟩
          cases hst : c.state <;> simp_all [active]
      intro c hc h0 ha p hp hpid
      by_cases hci : c.id = f.parent
      · exfalso
        -- `c` is the parent of `f`, so it has no parent
        obtain ⟨c0, hc0, hc0id, hc0p, _⟩ := h1 c hc
        exact h0 (by rw [hc0p]; exact hf f hfm hp0 c0 hc0 (hc0id.trans hci))
      · simp only [hci, if_false] at ha
        by_cases hpi : p.id = f.parent
        · rw [hany c hc h0 (hpid.symm.trans hpi)] at ha
          exact absurd ha (by simp)
        · simp only [hpi, if_false]
          exact hnp c hc h0 ha p hp hpid

theorem taken_active {env : Env} {now : Int} {crash : Bytes → Bool} {j : Job} :
    (taken env now crash j).state = .running ∨ (taken env now crash j).state = .runqueued ∨
      (taken env now crash j).state = .failed := by
  unfold taken
  repeat' split
  all_goals simp

/-- C46: the tree stays one level deep, and no child runs beside its parent, in every step. -/
theorem family_step {env : Env} {now : Int} {op : Op} {db : Table} (hu : Uniq db) (hf : Flat db)
    (hfresh : FreshIds db op) :
    Flat (step env now op db).1 ∧ (Gentle db op → NotParallel db → NotParallel (step env now op db).1) := by
  cases op with
  | create single mock ns =>
    simp only [step]
    split
    · rename_i h
      exact ⟨(family_create hu hf hfresh h).1, fun _ => (family_create hu hf hfresh h).2⟩
    · exact ⟨hf, fun _ h => h⟩
  | get pat crash mock prio num =>
    simp only [step]
    split
    · rename_i db' l h
      rw [(get_ok h).1]
      dsimp only
      have hE := eff_get (env := env) (now := now) (crash := crash) (db := db) (select now pat mock prio (max num 1).toNat db)
      refine ⟨flat_of_eff hE hf, fun _ hnp => np_of_eff hE ?_⟩
      have hsel : ∀ j ∈ db, (select now pat mock prio (max num 1).toNat db).any (·.id = j.id) = true →
          j.state = .queued ∨ j.state = .runqueued := by
        intro j hj h
        rw [List.any_eq_true] at h
        obtain ⟨c, hc, hid⟩ := h
        have := hu.eq (mem_select hc).1 hj (by simpa using hid)
        rw [← this]
        exact (eligible_iff.mp (mem_select hc).2).1
      intro c hc h0 ha p hp hpid
      have hact : active c.state = true := by
        by_cases hs : (select now pat mock prio (max num 1).toNat db).any (·.id = c.id) = true
        · rcases hsel c hc hs with h | h <;> rw [h] <;> rfl
        · simpa [hs] using ha
      have hps := hnp c hc h0 hact p hp hpid
      by_cases hs : (select now pat mock prio (max num 1).toNat db).any (·.id = p.id) = true
      · rcases hsel p hp hs with h | h <;> rw [h] at hps <;> exact absurd hps (by simp)
      · simp only [hs]; exact hps
    · exact ⟨hf, fun _ h => h⟩
  | update id data rep clear nextRun prio =>
    simp only [step]
    split
    · rename_i h
      obtain ⟨_, _, f, _, rfl⟩ := update_ok h
      dsimp only
      have hE : Eff db (set id (updated data rep clear (updatedRun env now f rep nextRun) prio) db) (·.state) := by
        intro k hk
        obtain ⟨j, hj, rfl⟩ := mem_set.mp hk
        refine ⟨j, hj, ?_⟩
        split <;> exact ⟨rfl, rfl, rfl⟩
      exact ⟨flat_of_eff hE hf, fun _ hnp => np_of_eff hE hnp⟩
    · exact ⟨hf, fun _ h => h⟩
  | finish id data ign =>
    simp only [step]
    split
    · rename_i h
      obtain ⟨h1, h2⟩ := np_finish hu hf h
      exact ⟨h1, fun _ => h2 (fun h => absurd rfl h)⟩
    · exact ⟨hf, fun _ h => h⟩
  | retry id data ign q =>
    simp only [step]
    split
    · rename_i h
      obtain ⟨h1, h2⟩ := np_finish hu hf h
      exact ⟨h1, fun hg => h2 (fun _ => hg)⟩
    · exact ⟨hf, fun _ h => h⟩
  | cancel id =>
    simp only [step]
    split
    · rename_i h
      exact ⟨(np_cancel hu hf h).1, fun _ => (np_cancel hu hf h).2⟩
    · exact ⟨hf, fun _ h => h⟩
  | fail id data =>
    simp only [step]
    split
    · rename_i h
      obtain ⟨_, f, hl, hs, rfl⟩ := fail_ok h
      obtain ⟨hfm, hfid⟩ := lookup_mem hl
      dsimp only
      have hE : Eff db (set id (fun j => { j with data := data.getD j.data, state := .failed }) db)
          (fun j => if j.id = id then .failed else j.state) := by
        refine eff_set _ id _ ?_ ?_ (s := fun _ => .failed) ?_ <;> intro _ <;> rfl
      refine ⟨flat_of_eff hE hf, fun _ hnp => np_of_eff hE ?_⟩
      intro c hc h0 ha p hp hpid
      by_cases hci : c.id = id
      · simp [hci, active] at ha
      · simp only [hci, if_false] at ha
        have hps := hnp c hc h0 ha p hp hpid
        by_cases hpi : p.id = id
        · rw [hu.eq hp hfm (hpi.trans hfid.symm)] at hps
          rw [hps] at hs
          exact absurd hs (by simp)
        · simp only [hpi, if_false]; exact hps
    · exact ⟨hf, fun _ h => h⟩
  | delete id =>
    simp only [step]
    split
    · rename_i h
      obtain ⟨_, f, _, _, _, rfl⟩ := delete_ok h
      exact ⟨flat_of_eff (eff_filter db _) hf, fun _ hnp => np_of_eff (eff_filter db _) hnp⟩
    · exact ⟨hf, fun _ h => h⟩
  | requeue ids name dec =>
    simp only [step]
    have hE : Eff db (requeue ids name dec db) (fun j => if j.id ∈ ids then .queued else j.state) := by
      intro k hk
      obtain ⟨j, hj, rfl⟩ := List.mem_map.mp hk
      refine ⟨j, hj, ?_⟩
      by_cases h : j.id ∈ ids
      · simp [h]
      · simp [h]
    refine ⟨flat_of_eff hE hf, fun hg hnp => np_of_eff hE ?_⟩
    intro c hc h0 ha p hp hpid
    by_cases hci : c.id ∈ ids
    · exact absurd (hg c hc hci).1 h0
    · simp only [hci, if_false] at ha
      by_cases hpi : p.id ∈ ids
      · exact absurd hpid.symm ((hg p hp hpi).2 c hc h0)
      · simp only [hpi, if_false]; exact hnp c hc h0 ha p hp hpid

/-- Every command of a history satisfies `P`. -/
def Always (env : Env) (P : Table → Op → Prop) : Table → List (Int × Op) → Prop
  | _, [] => True
  | db, (now, op) :: ops => P db op ∧ Always env P (step env now op db).1 ops

/-- C46: no job ever has a grandparent. -/
theorem c46_one_level {env : Env} (ops : List (Int × Op)) : ∀ {db : Table}, Uniq db → Flat db →
    Always env FreshIds db ops → Flat (run env db ops).1 := by
  induction ops with
  | nil => intro db _ h _; exact h
  | cons o ops ih =>
    intro db hu hf ha
    exact ih (step_uniq env o.1 o.2 db hu) (family_step hu hf ha.1).1 ha.2

/-- C46: no child is handed out, or can be, unless its parent is paused. -/
theorem c46_not_parallel {env : Env} (ops : List (Int × Op)) : ∀ {db : Table}, Uniq db → Flat db → NotParallel db →
    Always env (fun db op => FreshIds db op ∧ Gentle db op) db ops → NotParallel (run env db ops).1 := by
  induction ops with
  | nil => intro db _ _ h _; exact h
  | cons o ops ih =>
    intro db hu hf hn ha
    exact ih (step_uniq env o.1 o.2 db hu) (family_step hu hf ha.1.1).1 ((family_step hu hf ha.1.1).2 ha.1.2 hn) ha.2

/-- A family: the parent runs, gets a child, pauses, the child runs, and the parent is resumed. -/
example :
    let all : Bytes → Bool := fun _ => true
    let no : Bytes → Bool := fun _ => false
    let ops : List (Int × Op) := [
      (100, .create true false [({ name := [112] }, 1)]),
      (100, .get all no false none 1),
      (100, .create true false [({ name := [99], parent := 1 }, 2)]),
      (100, .finish 1 none false),
      (200, .get all no false none 1),
      (300, .finish 2 none false),
      (400, .get all no false none 1)]
    ((run env0 [] (ops.take 3)).1.map fun j => (j.id, j.state)) = [(1, .running), (2, .paused)] ∧
    ((run env0 [] (ops.take 5)).1.map fun j => (j.id, j.state)) = [(1, .paused), (2, .running)] ∧
    ((run env0 [] ops).1.map fun j => (j.id, j.state)) = [(1, .running), (2, .finished)] := by
  decide +kernel

/-- The hypotheses of the two theorems hold for the part of that history that creates the family. -/
example :
    let all : Bytes → Bool := fun _ => true
    let no : Bytes → Bool := fun _ => false
    Always env0 (fun db op => FreshIds db op ∧ Gentle db op) [] [
      (100, .create true false [({ name := [112] }, 1)]),
      (100, .get all no false none 1),
      (100, .create true false [({ name := [99], parent := 1 }, 2)])] := by
  intro all no
  refine ⟨⟨fun n _ j hj => absurd hj (by simp), trivial⟩, ⟨trivial, trivial⟩, ⟨?_, trivial⟩, trivial⟩
  intro n hn j hj h0
  have : (step env0 100 (.get all no false none 1)
      (step env0 100 (.create true false [({ name := [112] }, 1)]) []).1).1 =
      [{ id := 1, state := .running, name := [112], nextRun := 100 }] := by decide +kernel
  rw [this] at hj
  simp at hj
  rw [hj] at h0
  exact absurd rfl h0

/-- C46: a new child is only created under a job that is running or paused and has no parent itself; it waits if the
parent is running. -/
theorem c46_created_under {env : Env} {now : Int} {single mock : Bool} {ns : List (NewJob × Int)} {db db' : Table}
    {ids : List Int} (hu : Uniq db) (h : create env now single mock ns db = .ok (db', ids)) :
    ∀ k ∈ db', (∀ j ∈ db, j.id ≠ k.id) → k.parent ≠ 0 →
      ∃ p ∈ db, p.id = k.parent ∧ p.parent = 0 ∧
        ((p.state = .paused ∧ k.state = .queued) ∨
         ((p.state = .running ∨ p.state = .runqueued) ∧ k.state = .paused)) := by
  have key : Uniq db' ∧ ∀ k ∈ db', (∃ j ∈ db, j.id = k.id ∧ j.state = k.state ∧ j.parent = k.parent) ∨
      (k.parent = 0 ∧ k.state = .queued) ∨
      (k.parent ≠ 0 ∧ ∃ p ∈ db, p.id = k.parent ∧ p.parent = 0 ∧
        ((p.state = .paused ∧ k.state = .queued) ∨
         ((p.state = .running ∨ p.state = .runqueued) ∧ k.state = .paused))) := by
    refine create_induction (P := fun d => Uniq d ∧ ∀ k ∈ d, (∃ j ∈ db, j.id = k.id ∧ j.state = k.state ∧ j.parent = k.parent) ∨
      (k.parent = 0 ∧ k.state = .queued) ∨
      (k.parent ≠ 0 ∧ ∃ p ∈ db, p.id = k.parent ∧ p.parent = 0 ∧
        ((p.state = .paused ∧ k.state = .queued) ∨
         ((p.state = .running ∨ p.state = .runqueued) ∧ k.state = .paused)))) ns ?_
      ⟨hu, fun k hk => Or.inl ⟨k, hk, rfl, rfl, rfl⟩⟩ h
    rintro n hn m d d' id ⟨hud, hd⟩ hp
    refine ⟨processCreate_uniq hud hp, ?_⟩
    rcases processCreate_ok hp with ⟨_, _, _, _, _, rfl⟩ | ⟨e, he, _, _, _, _, _, rfl⟩ | ⟨_, hl, _, hc, rfl⟩
    · exact hd
    · split
      · intro k hk
        obtain ⟨j, hj, rfl⟩ := mem_set.mp hk
        split
        · exact hd j hj
        · exact hd j hj
      · exact hd
    · intro k hk
      rcases List.mem_append.mp hk with hk | hk
      · exact hd k hk
      · simp at hk; subst hk
        right
        by_cases h0 : n.1.parent = 0
        · left; exact ⟨h0, by simp [newRow, h0]⟩
        · right
          refine ⟨h0, ?_⟩
          obtain ⟨p, hl, hcs, _, hp0⟩ := (checkParent_ok hc).resolve_left h0
          obtain ⟨hpm, hpid⟩ := lookup_mem hl
          rcases hd p hpm with ⟨q, hq, hqid, hqs, hqp⟩ | ⟨_, hst⟩ | ⟨hp1, _⟩
          · refine ⟨q, hq, hqid.trans hpid, hqp.trans hp0, ?_⟩
            rw [hqs]
            simp only [newRow, h0, if_false, hl]
            cases hst : p.state <;> simp_all [canHaveChildren]
          · rw [hst] at hcs; exact absurd hcs (by simp [canHaveChildren])
          · exact absurd hp0 hp1
  intro k hk hnew h0
  rcases key.2 k hk with ⟨j, hj, hid, _⟩ | ⟨h, _⟩ | ⟨_, h⟩
  · exact absurd hid (hnew j hj)
  · exact absurd h h0
  · exact h

/-- C46: FinishJob on a job with unfinished children pauses it, whatever its repeat says, and lets the children run. -/
theorem c46_finish_waits {env : Env} {now id : Int} {data : Option (Data × Bool)} {ign : Bool} {db db' : Table}
    (hf : Flat db) (h : finish env now id data ign none db = .ok db') {c : Job} (hc : c ∈ db)
    (hchild : c.parent ≠ 0 ∧ c.parent = id) (hpend : pending c.state = true) :
    (∃ k ∈ db', k.id = id ∧ k.state = .paused) ∧ (∀ k ∈ db', k.id = id → k.state = .paused) ∧
    (c.state = .paused → { c with state := .queued } ∈ db') ∧
    (∀ d ∈ db', d.parent ≠ 0 → d.parent = id → d.state ≠ .paused) := by
  obtain ⟨_, f, hl, _, _, _, hcase⟩ := finish_ok h
  obtain ⟨hfm, hfid⟩ := lookup_mem hl
  rw [hasPending_store] at hcase
  have hhp : hasPending db id = true := hasPending_iff.mpr ⟨c, hc, hchild.1, hchild.2, hpend⟩
  have hcne : c.id ≠ id := fun he => hf.self c hc hchild.1 (hchild.2.trans he.symm)
  have hcd : c ∈ storeData id data (dropDone id db) := by
    refine mem_set.mpr ⟨c, List.mem_filter.mpr ⟨hc, ?_⟩, by rw [if_neg hcne]⟩
    cases hst : c.state <;> simp_all [pending]
  have hnotchild : ∀ x ∈ storeData id data (dropDone id db), x.id = id → isChild id x = false := by
    intro x hx hxid
    obtain ⟨j, hj, hjid, hjp, _⟩ := eff_storeData id data db x hx
    cases hcx : isChild id x with
    | false => rfl
    | true =>
      obtain ⟨h0, h1⟩ := isChild_iff.mp hcx
      exact absurd (by rw [← hjp, h1, hjid, hxid]) (hf.self j hj (by rw [← hjp]; exact h0))
  rcases hcase with ⟨_, _, rfl⟩ | ⟨hn, _⟩
  · -- every row of the new table
    have hrow : ∀ k ∈ pauseForChildren id f.lastRun (storeData id data (dropDone id db)),
        (k.id = id ∧ k.state = .paused) ∨ (k.id ≠ id ∧ ¬ (isChild id k = true ∧ k.state = .paused)) := by
      intro k hk
      obtain ⟨y, hy, rfl⟩ := List.mem_map.mp hk
      obtain ⟨x, hx, rfl⟩ := mem_set.mp hy
      by_cases hxid : x.id = id
      · left
        simp only [hxid, if_true]
        have := hnotchild x hx hxid
        rw [if_neg (by
          rintro ⟨_, h'⟩
          have h' : isChild id x = true := h'
          rw [this] at h'; exact absurd h' (by simp))]
        exact ⟨rfl, rfl⟩
      · right
        simp only [hxid, if_false]
        by_cases hcc : x.state = .paused ∧ isChild id x = true
        · simp [hcc, hxid]
        · simp only [hcc, if_false]
          exact ⟨hxid, fun h => hcc ⟨h.2, h.1⟩⟩
    refine ⟨?_, ?_, ?_, ?_⟩
    · -- the parent's row is still there
      have hfnot : isChild id f = false := by
        cases h1 : isChild id f with
        | false => rfl
        | true =>
          obtain ⟨h0, h1⟩ := isChild_iff.mp h1
          exact absurd (h1.trans hfid.symm) (hf.self f hfm h0)
      have hfd : f ∈ dropDone id db := List.mem_filter.mpr ⟨hfm, by simp [hfnot]⟩
      obtain ⟨k, hk, hkid⟩ : ∃ k ∈ pauseForChildren id f.lastRun (storeData id data (dropDone id db)), k.id = id := by
        refine ⟨_, List.mem_map.mpr ⟨_, mem_set.mpr ⟨_, mem_set.mpr ⟨f, hfd, rfl⟩, rfl⟩, rfl⟩, ?_⟩
        simp only [hfid, if_true]
        split <;> rfl
      rcases hrow k hk with ⟨_, h⟩ | ⟨h, _⟩
      · exact ⟨k, hk, hkid, h⟩
      · exact absurd hkid h
    · intro k hk hkid
      rcases hrow k hk with ⟨_, h⟩ | ⟨h, _⟩
      · exact h
      · exact absurd hkid h
    · intro hcp
      refine List.mem_map.mpr ⟨c, mem_set.mpr ⟨c, hcd, by rw [if_neg hcne]⟩, ?_⟩
      rw [if_pos ⟨hcp, isChild_iff.mpr hchild⟩]
    · intro d hd h0 hdp hdst
      rcases hrow d hd with ⟨hdid, _⟩ | ⟨_, hno⟩
      · have hE : ∃ j ∈ db, j.id = d.id ∧ d.parent = j.parent := by
          obtain ⟨y, hy, rfl⟩ := List.mem_map.mp hd
          obtain ⟨x, hx, rfl⟩ := mem_set.mp hy
          obtain ⟨j, hj, hjid, hjp, _⟩ := eff_storeData id data db x hx
          refine ⟨j, hj, ?_⟩
          by_cases hxid : x.id = id
          · simp only [hxid, if_true]
            split
            · exact ⟨hjid.trans hxid, hjp⟩
            · exact ⟨hjid.trans hxid, hjp⟩
          · simp only [hxid, if_false]
            split <;> exact ⟨hjid, hjp⟩
        obtain ⟨j, hj, hjid, hjp⟩ := hE
        exact hf.self j hj (by rw [← hjp]; exact h0) (by rw [← hjp, hdp, hjid, hdid])
      · exact hno ⟨isChild_iff.mpr ⟨h0, hdp⟩, hdst⟩
  · exact absurd ⟨rfl, hhp⟩ hn

/-- C46: when a child that does not repeat is finished, its parent is queued again if no other child is unfinished,
and goes on waiting otherwise. -/
theorem c46_last_child {env : Env} {now id : Int} {ign : Bool} {db db' : Table} (hu : Uniq db) (hf : Flat db)
    (h : finish env now id none ign none db = .ok db') {c : Job} (hc : c ∈ db) (hid : c.id = id) (hp0 : c.parent ≠ 0)
    (hrep : c.rep = none) {p : Job} (hp : p ∈ db) (hpid : p.id = c.parent) :
    ((∀ d ∈ db, d.parent = c.parent → d.id ≠ id → pending d.state = false) →
      { p with state := .queued } ∈ db') ∧
    ((∃ d ∈ db, d.parent = c.parent ∧ d.id ≠ id ∧ pending d.state = true) → p ∈ db' ∧ p.state = .paused) ∧
    (∀ k ∈ db', k.id = id → k.state = .finished) := by
  obtain ⟨_, f, hl, _, hpar, _, hcase⟩ := finish_ok h
  obtain ⟨hfm, hfid⟩ := lookup_mem hl
  have hfc : f = c := hu.eq hfm hc (hfid.trans hid.symm)
  subst hfc
  rw [hasPending_store] at hcase
  -- a child has no children
  have hnochild : ∀ x ∈ db, x.parent ≠ 0 → x.parent ≠ id := by
    intro x hx h0 hxp
    exact hp0 (hf x hx h0 f hfm (hid.trans hxp.symm))
  have hhp : hasPending db id = false := by
    cases hh : hasPending db id with
    | false => rfl
    | true =>
      obtain ⟨x, hx, h0, hxp, _⟩ := hasPending_iff.mp hh
      exact absurd hxp (hnochild x hx h0)
  rcases hcase with ⟨_, hx, _⟩ | ⟨_, nr, hnr, hconc⟩
  · rw [hhp] at hx; exact absurd hx (by simp)
  have hnr : nr = .invalid := by
    simp only [Option.any_none, Bool.false_eq_true, if_false, hrep, rescheduled] at hnr
    injection hnr with hnr; exact hnr.symm
  have hpne : p.id ≠ id := by
    intro he
    exact hf.self f hfm hp0 (by rw [← hpid, he, hid])
  have hpst : p.state = .paused := by
    have := hpar.resolve_left hp0
    rw [← hpid, lookup_eq hu hp] at this
    simpa using this
  have hpmem : ∀ x ∈ db, x.id ≠ id → (pending x.state = true ∨ ¬ isChild id x = true) →
      x ∈ relabel id none (storeData id none (dropDone id db)) := by
    intro x hx hne hcond
    refine mem_set.mpr ⟨x, List.mem_filter.mpr ⟨hx, ?_⟩, by rw [if_neg hne]⟩
    have : isChild id x = false := by
      cases hcx : isChild id x with
      | false => rfl
      | true => exact absurd (isChild_iff.mp hcx).2 (hnochild x hx (isChild_iff.mp hcx).1)
    simp [this]
  have hpin := hpmem p hp hpne (Or.inl (by rw [hpst]; rfl))
  rcases conclude_ok hconc with ⟨t, ht, _⟩ | ⟨_, _, _, hdb⟩ | ⟨_, _, h0, _⟩
  · rw [hnr] at ht; exact absurd ht (by simp)
  · generalize hb : hasPending (set id (fun j => { j with state := .finished })
      (relabel id none (storeData id none (dropDone id db)))) f.parent = b at hdb
    refine ⟨?_, ?_, ?_⟩
    · intro hall
      have hbf : b = false := by
        cases b with
        | false => rfl
        | true =>
          obtain ⟨k, hk, h0, hkp, hkst⟩ := hasPending_iff.mp hb
          obtain ⟨y, hy, rfl⟩ := mem_set.mp hk
          obtain ⟨j, hj, hjid, hjp, hjs⟩ := eff_storeData id none db y hy
          by_cases hyid : y.id = id
          · simp [hyid, pending] at hkst
          · simp only [hyid, if_false] at hkst hkp
            have := hall j hj (by rw [← hjp]; exact hkp) (by rw [hjid]; exact hyid)
            have hjs : y.state = j.state := hjs
            rw [← hjs, hkst] at this
            exact absurd this (by simp)
      rw [hdb, hbf]
      refine mem_set.mpr ⟨p, mem_set.mpr ⟨p, hpin, by rw [if_neg hpne]⟩, by rw [if_pos hpid]⟩
    · rintro ⟨d, hd, hdp, hdne, hdst⟩
      refine ⟨?_, hpst⟩
      have hbt : b = true := by
        rw [← hb]
        refine hasPending_iff.mpr ⟨d, mem_set.mpr ⟨d, hpmem d hd hdne (Or.inl hdst), by rw [if_neg hdne]⟩,
          by rw [hdp]; exact hp0, hdp, hdst⟩
      rw [hdb, hbt]
      exact mem_set.mpr ⟨p, hpin, by rw [if_neg hpne]⟩
    · have hfin : ∀ k ∈ set id (fun j => { j with state := .finished })
          (relabel id none (storeData id none (dropDone id db))), k.id = id → k.state = .finished := by
        intro k hk hkid
        obtain ⟨y, hy, rfl⟩ := mem_set.mp hk
        by_cases hyid : y.id = id
        · rw [if_pos hyid]
        · rw [if_neg hyid] at hkid; exact absurd hkid hyid
      intro k hk hkid
      rw [hdb] at hk
      split at hk
      · exact hfin k hk hkid
      · obtain ⟨y, hy, rfl⟩ := mem_set.mp hk
        by_cases hyp : y.id = f.parent
        · rw [if_pos hyp] at hkid
          have hkid : y.id = id := hkid
          exact absurd (hyp.symm.trans (hkid.trans hid.symm)) (hf.self f hfm hp0)
        · rw [if_neg hyp] at hkid ⊢
          exact hfin y hy hkid
  · exact absurd h0 hp0

/-- C46 fails where the family is broken by force.  DeleteJob refuses RUNNING and PAUSED jobs, but not a job that a
worker has with a retry time: its children stay behind, paused for ever. -/
theorem c46_delete_orphans :
    let all : Bytes → Bool := fun _ => true
    let no : Bytes → Bool := fun _ => false
    let ops : List (Int × Op) := [
      (100, .create true false [({ name := [112], retryAfter := some 1000 }, 1)]),
      (100, .get all no false none 1),
      (100, .create true false [({ name := [99], parent := 1 }, 2)]),
      (100, .delete 1)]
    ((run env0 [] ops).2.getLast? = some .ok) ∧
    ((run env0 [] ops).1.map fun j => (j.id, j.state, j.parent)) = [(2, .paused, 1)] := by
  decide +kernel

/-- C46: a parent is not resumed when its last child fails: it stays paused with no unfinished child, and can be
neither finished nor deleted. -/
theorem c46_failed_child_blocks :
    let all : Bytes → Bool := fun _ => true
    let no : Bytes → Bool := fun _ => false
    let ops : List (Int × Op) := [
      (100, .create true false [({ name := [112] }, 1)]),
      (100, .get all no false none 1),
      (100, .create true false [({ name := [99], parent := 1 }, 2)]),
      (100, .finish 1 none false),
      (100, .get all no false none 1),
      (100, .fail 2 none),
      (100, .finish 1 none false),
      (100, .delete 1)]
    ((run env0 [] ops).1.map fun j => (j.id, j.state)) = [(1, .paused), (2, .failed)] ∧
    (run env0 [] ops).2.drop 5 = [.ok, .err .badState, .err .badState] ∧
    hasPending (run env0 [] ops).1 1 = false := by
  decide +kernel

/-- C46: RequeueJobs does not look at the state or the family: a parent runs beside its child. -/
theorem c46_requeue_parallel :
    let all : Bytes → Bool := fun _ => true
    let no : Bytes → Bool := fun _ => false
    let ops : List (Int × Op) := [
      (100, .create true false [({ name := [112] }, 1)]),
      (100, .get all no false none 1),
      (100, .create true false [({ name := [99], parent := 1 }, 2)]),
      (100, .finish 1 none false),
      (100, .get all no false none 1),
      (100, .requeue [1] none false),
      (100, .get all no false none 1)]
    ((run env0 [] ops).1.map fun j => (j.id, j.state)) = [(1, .running), (2, .running)] := by
  decide +kernel

end Bedrock.Jobs.Props
