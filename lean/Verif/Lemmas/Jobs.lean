import Verif.Model.Jobs

/-!
# Lemmas about the Jobs model
-/

namespace Bedrock.Jobs
open Bedrock

/-! ## Tables -/

theorem mem_set {id : Int} {f : Job → Job} {db : Table} {k : Job} :
    k ∈ set id f db ↔ ∃ j ∈ db, k = if j.id = id then f j else j := by
  unfold set
  rw [List.mem_map]
  constructor
  · rintro ⟨j, hj, rfl⟩; exact ⟨j, hj, rfl⟩
  · rintro ⟨j, hj, rfl⟩; exact ⟨j, hj, rfl⟩

theorem lookup_mem {db : Table} {id : Int} {j : Job} (h : lookup db id = some j) : j ∈ db ∧ j.id = id := by
  unfold lookup at h
  have h1 := List.find?_some h
  have h2 := List.mem_of_find?_eq_some h
  exact ⟨h2, by simpa using h1⟩

theorem lookup_none {db : Table} {id : Int} (h : lookup db id = none) : ∀ j ∈ db, j.id ≠ id := by
  unfold lookup at h
  intro j hj hid
  have := List.find?_eq_none.mp h j hj
  simp [hid] at this

theorem lookup_isSome {db : Table} {id : Int} {j : Job} (h : j ∈ db) (hid : j.id = id) : (lookup db id).isSome := by
  cases h' : lookup db id with
  | some _ => rfl
  | none => exact absurd hid (lookup_none h' j h)

/-- IDs are unique. -/
def Uniq (db : Table) : Prop := (db.map (·.id)).Nodup

theorem Uniq.eq {db : Table} (h : Uniq db) {a b : Job} (ha : a ∈ db) (hb : b ∈ db) (hid : a.id = b.id) : a = b := by
  unfold Uniq at h
  induction db with
  | nil => simp at ha
  | cons x xs ih =>
    rw [List.map_cons, List.nodup_cons] at h
    rcases List.mem_cons.mp ha with rfl | ha
    · rcases List.mem_cons.mp hb with rfl | hb
      · rfl
      · exact absurd (List.mem_map.mpr ⟨b, hb, hid.symm⟩) h.1
    · rcases List.mem_cons.mp hb with hb | hb
      · rw [hb] at hid
        exact absurd (List.mem_map.mpr ⟨a, ha, hid⟩) h.1
      · exact ih h.2 ha hb

theorem lookup_eq {db : Table} (h : Uniq db) {j : Job} (hj : j ∈ db) : lookup db j.id = some j := by
  cases h' : lookup db j.id with
  | none => exact absurd rfl (lookup_none h' j hj)
  | some k =>
    obtain ⟨hk, hid⟩ := lookup_mem h'
    rw [h.eq hk hj hid]

theorem ids_map {db : Table} {f : Job → Job} (h : ∀ j, (f j).id = j.id) :
    (db.map f).map (·.id) = db.map (·.id) := by
  rw [List.map_map]
  exact List.map_congr_left fun j _ => h j

theorem ids_set {db : Table} {id : Int} {f : Job → Job} (h : ∀ j, (f j).id = j.id) :
    (set id f db).map (·.id) = db.map (·.id) := by
  unfold set
  apply ids_map
  intro j
  split
  · exact h j
  · rfl

theorem Uniq.filter {db : Table} (h : Uniq db) (p : Job → Bool) : Uniq (db.filter p) := by
  unfold Uniq at *
  exact List.Nodup.sublist (List.Sublist.map _ (List.filter_sublist)) h

theorem Uniq.map {db : Table} (h : Uniq db) {f : Job → Job} (hf : ∀ j, (f j).id = j.id) : Uniq (db.map f) := by
  unfold Uniq at *
  rw [ids_map hf]
  exact h

theorem Uniq.set {db : Table} (h : Uniq db) {id : Int} {f : Job → Job} (hf : ∀ j, (f j).id = j.id) :
    Uniq (Jobs.set id f db) := by
  unfold Uniq at *
  rw [ids_set hf]
  exact h

/-! ## What a successful command did -/

theorem conclude_ok {id : Int} {j : Job} {r : Bool} {nr : NR} {db db' : Table}
    (h : conclude id j r nr db = .ok db') :
    (∃ t, nr = .time t ∧ db' = set id (fun j => { j with nextRun := t, state := .queued }) db) ∨
    (nr = .invalid ∧ r = false ∧ j.parent ≠ 0 ∧
      db' = if hasPending (set id (fun j => { j with state := .finished }) db) j.parent then
          set id (fun j => { j with state := .finished }) db
        else set j.parent (fun j => { j with state := .queued }) (set id (fun j => { j with state := .finished }) db)) ∨
    (nr = .invalid ∧ r = false ∧ j.parent = 0 ∧ db' = db.filter (·.id ≠ id) ∧ db'.any (isChild id) = false) := by
  unfold conclude at h
  split at h
  · injection h with h; exact Or.inl ⟨_, rfl, h.symm⟩
  · simp at h
  · split at h
    · simp at h
    · rename_i hr
      have hr : r = false := by simpa using hr
      split at h
      · rename_i hp
        refine Or.inr (Or.inl ⟨rfl, hr, hp, ?_⟩)
        dsimp only at h
        split at h <;> rename_i hc <;> injection h with h
        · rw [if_pos hc, h]
        · rw [if_neg hc, h]
      · rename_i hp
        dsimp only at h
        split at h
        · simp at h
        · rename_i hc
          injection h with h
          refine Or.inr (Or.inr ⟨rfl, hr, by simpa using hp, h.symm, ?_⟩)
          rw [← h]; simpa using hc

/-- What FinishJob and RetryJob require and do. -/
theorem finish_ok {env : Env} {now id : Int} {data : Option (Data × Bool)} {ign : Bool} {retry : Option Retry}
    {db db' : Table} (h : finish env now id data ign retry db = .ok db') :
    1 ≤ id ∧ ∃ j, lookup db id = some j ∧
      (j.state = .running ∨ j.state = .runqueued ∨ j.data.mocked = true) ∧
      (j.parent = 0 ∨ (lookup db j.parent).map (·.state) = some .paused) ∧
      (∀ d, data = some d → d.1.mocked = j.data.mocked) ∧
      ((retry = none ∧ hasPending (storeData id data (dropDone id db)) id = true ∧
          db' = pauseForChildren id j.lastRun (storeData id data (dropDone id db))) ∨
       (¬ (retry = none ∧ hasPending (storeData id data (dropDone id db)) id = true) ∧
          ∃ nr, rescheduled env now j (if data.any (·.2) then none else j.rep) ign retry = .ok nr ∧
            conclude id j retry.isSome nr (relabel id retry (storeData id data (dropDone id db))) = .ok db')) := by
  unfold finish at h
  split at h
  · simp at h
  rename_i hid
  refine ⟨by omega, ?_⟩
  split at h
  · simp at h
  rename_i j hj
  refine ⟨j, hj, ?_⟩
  split at h
  · simp at h
  rename_i hs
  split at h
  · simp at h
  rename_i hp
  split at h
  · simp at h
  rename_i hm
  refine ⟨?_, ?_, ?_, ?_⟩
  · cases hst : j.state <;> simp_all
  · by_cases h0 : j.parent = 0
    · exact Or.inl h0
    · right
      cases hl : (lookup db j.parent).map (·.state) with
      | none => exact absurd ⟨h0, by rw [hl]; simp⟩ hp
      | some st =>
        by_cases hst : st = .paused
        · rw [hst]
        · exact absurd ⟨h0, by rw [hl]; simpa using hst⟩ hp
  · intro d hd
    rw [hd] at hm
    simpa using hm
  · split at h
    · rename_i hc
      injection h with h
      left
      refine ⟨by simpa using hc.1, hc.2, h.symm⟩
    · rename_i hc
      right
      refine ⟨by simpa using hc, ?_⟩
      split at h
      · simp at h
      split at h
      · simp at h
      · rename_i nr hnr
        exact ⟨nr, hnr, h⟩

theorem cancel_ok {id : Int} {db db' : Table} (h : cancel id db = .ok db') :
    1 ≤ id ∧ ∃ j, lookup db id = some j ∧ db.any (isChild id) = false ∧ j.parent ≠ 0 ∧
      ((db' = db ∧ (j.state = .finished ∨ j.state = .running ∨ j.state = .paused)) ∨
       ((j.state = .queued ∨ j.state = .runqueued ∨ j.state = .failed ∨ j.state = .cancelled) ∧
        db' = if (set id (fun j => { j with state := .cancelled }) db).any
            (fun c => isChild j.parent c ∧ (c.state = .queued ∨ c.state = .runqueued ∨ c.state = .running)) then
          set id (fun j => { j with state := .cancelled }) db
        else set j.parent (fun j => { j with state := .queued }) (set id (fun j => { j with state := .cancelled }) db))) := by
  unfold cancel at h
  split at h
  · simp at h
  rename_i hid
  refine ⟨by omega, ?_⟩
  split at h
  · simp at h
  rename_i j hj
  refine ⟨j, hj, ?_⟩
  split at h
  · simp at h
  rename_i hc
  split at h
  · simp at h
  rename_i hp
  refine ⟨by simpa using hc, hp, ?_⟩
  split at h
  · rename_i hs
    injection h with h
    exact Or.inl ⟨h.symm, hs⟩
  · rename_i hs
    right
    refine ⟨by cases hst : j.state <;> simp_all, ?_⟩
    dsimp only at h
    split at h <;> rename_i hx <;> injection h with h
    · rw [if_pos hx, h]
    · rw [if_neg hx, h]

theorem fail_ok {id : Int} {data : Option Data} {db db' : Table} (h : fail id data db = .ok db') :
    1 ≤ id ∧ ∃ j, lookup db id = some j ∧ (j.state = .running ∨ j.state = .runqueued) ∧
      db' = set id (fun j => { j with data := data.getD j.data, state := .failed }) db := by
  unfold fail at h
  split at h
  · simp at h
  rename_i hid
  refine ⟨by omega, ?_⟩
  split at h
  · simp at h
  rename_i j hj
  refine ⟨j, hj, ?_⟩
  split at h
  · simp at h
  · rename_i hs
    injection h with h
    refine ⟨?_, h.symm⟩
    cases hst : j.state <;> simp_all

theorem delete_ok {id : Int} {db db' : Table} (h : delete id db = .ok db') :
    1 ≤ id ∧ ∃ j, lookup db id = some j ∧ j.state ≠ .running ∧ j.state ≠ .paused ∧
      db' = db.filter (·.id ≠ id) := by
  unfold delete at h
  split at h
  · simp at h
  rename_i hid
  refine ⟨by omega, ?_⟩
  split at h
  · simp at h
  rename_i j hj
  refine ⟨j, hj, ?_⟩
  split at h
  · simp at h
  · rename_i hs
    injection h with h
    refine ⟨fun h' => hs (Or.inl h'), fun h' => hs (Or.inr h'), h.symm⟩

theorem update_ok {env : Env} {now id : Int} {data : Data} {rep : Option Nat} {clear : Bool}
    {nextRun prio : Option Int} {db db' : Table}
    (h : update env now id data rep clear nextRun prio db = .ok db') :
    1 ≤ id ∧ prio.all validPriority = true ∧ ∃ j, lookup db id = some j ∧
      db' = set id (updated data rep clear (updatedRun env now j rep nextRun) prio) db := by
  unfold update at h
  split at h
  · simp at h
  rename_i hid
  split at h
  · simp at h
  split at h
  · simp at h
  rename_i hp
  refine ⟨by omega, by simpa using hp, ?_⟩
  split at h
  · simp at h
  rename_i j hj
  split at h
  · simp at h
  · injection h with h
    exact ⟨j, hj, h.symm⟩

theorem get_ok {env : Env} {now : Int} {pat crash : Bytes → Bool} {mock : Bool} {prio : Option Int} {num : Int}
    {db db' : Table} {l : List Job} (h : get env now pat crash mock prio num db = .ok (db', l)) :
    db' = db.map (fun j => if (select now pat mock prio (max num 1).toNat db).any (·.id = j.id) then
      taken env now crash j else j) ∧
    l = (select now pat mock prio (max num 1).toNat db).filter fun j => crash j.name = false ∧ count j < 10 := by
  unfold get at h
  split at h
  · simp at h
  · dsimp only at h
    split at h
    · simp at h
    · injection h with h
      injection h with h1 h2
      exact ⟨h1.symm, h2.symm⟩

theorem checkParent_ok {db : Table} {mock : Bool} {parent : Int} (h : checkParent db mock parent = .ok ()) :
    parent = 0 ∨ ∃ p, lookup db parent = some p ∧ canHaveChildren p.state = true ∧ mock = p.data.mocked ∧ p.parent = 0 := by
  unfold checkParent at h
  split at h
  · left; assumption
  · right
    split at h
    · simp at h
    · rename_i p hp
      refine ⟨p, hp, ?_⟩
      split at h
      · simp at h
      · rename_i h1
        split at h
        · simp at h
        · rename_i h2
          split at h
          · simp at h
          · rename_i h3
            exact ⟨by simpa using h1, by simpa using h2, by simpa using h3⟩

theorem processCreate_ok {env : Env} {now : Int} {db db' : Table} {mock : Bool} {newId id : Int} {n : NewJob}
    (h : processCreate env now db mock newId n = .ok (db', id)) :
    (∃ j ∈ db, j.id = id ∧ n.unique = true ∧ j.name = n.name ∧ db' = db) ∨
    (∃ j ∈ db, j.id = id ∧ n.unique = true ∧ j.name = n.name ∧ validPriority (newPriority n) = true ∧
        checkParent db mock n.parent = .ok () ∧
        db' = if n.overwrite then set j.id (overwrite mock n) db else db) ∨
    (id = newId ∧ lookup db newId = none ∧ validPriority (newPriority n) = true ∧
      checkParent db mock n.parent = .ok () ∧
      db' = db ++ [newRow db now newId (newPriority n) (newData mock n) (newRepeat mock n) n]) := by
  have hun : ∀ j, (if n.unique then findUnique db mock n else none) = some j →
      j ∈ db ∧ n.unique = true ∧ j.name = n.name := by
    intro j hj
    split at hj
    · rename_i hu
      unfold findUnique at hj
      have h1 := List.find?_some hj
      have h2 := List.mem_of_find?_eq_some hj
      simp at h1
      exact ⟨h2, hu, h1.1⟩
    · simp at hj
  unfold processCreate at h
  dsimp only at h
  split at h
  · rename_i j hj
    injection h with h
    injection h with h1 h2
    obtain ⟨hj1, _⟩ := Option.filter_eq_some_iff.mp hj
    obtain ⟨h3, h4, h5⟩ := hun j hj1
    exact Or.inl ⟨j, h3, h2, h4, h5, h1.symm⟩
  · split at h
    · simp at h
    split at h
    · simp at h
    rename_i hp
    have hp : validPriority (newPriority n) = true := by simpa using hp
    split at h
    · simp at h
    rename_i hc
    split at h
    · rename_i j hj
      injection h with h
      injection h with h1 h2
      obtain ⟨h3, h4, h5⟩ := hun j hj
      exact Or.inr (Or.inl ⟨j, h3, h2, h4, h5, hp, hc, h1.symm⟩)
    · split at h
      · simp at h
      · rename_i hl
        injection h with h
        injection h with h1 h2
        exact Or.inr (Or.inr ⟨h2.symm, by simpa using hl, hp, hc, h1.symm⟩)

/-- An invariant of `processCreate` is one of CreateJob(s). -/
theorem create_induction {env : Env} {now : Int} {P : Table → Prop}
    (ns : List (NewJob × Int))
    (hstep : ∀ n ∈ ns, ∀ (mock : Bool) (db db' : Table) (id : Int), P db →
      processCreate env now db mock n.2 n.1 = .ok (db', id) → P db') :
    ∀ {single mock : Bool} {db db' : Table} {ids : List Int}, P db →
      create env now single mock ns db = .ok (db', ids) → P db' := by
  intro single mock db db' ids hP h
  unfold create at h
  split at h
  · simp at h
  · injection h with h
    injection h with h1 _
    rw [← h1]; exact hP
  · rename_i m hpeek
    clear hpeek
    induction ns generalizing db ids with
    | nil => simp [processCreates] at h; rw [← h.1]; exact hP
    | cons n ns ih =>
      obtain ⟨n, newId⟩ := n
      simp only [processCreates] at h
      split at h
      · simp at h
      · rename_i db1 id1 h1
        split at h
        · simp at h
        · rename_i db2 ids2 h2
          injection h with h
          injection h with h3 _
          subst h3
          exact ih (fun n hn => hstep n (by simp [hn])) (hstep (n, newId) (by simp) m _ _ _ hP h1) h2

theorem taken_id (env : Env) (now : Int) (crash : Bytes → Bool) (j : Job) : (taken env now crash j).id = j.id := by
  unfold taken
  repeat' split
  all_goals rfl

/-! ## Unique IDs -/

theorem processCreate_uniq {env : Env} {now : Int} {db db' : Table} {mock : Bool} {newId id : Int} {n : NewJob}
    (hu : Uniq db) (h : processCreate env now db mock newId n = .ok (db', id)) : Uniq db' := by
  rcases processCreate_ok h with ⟨_, _, _, _, _, rfl⟩ | ⟨j, _, _, _, _, _, _, rfl⟩ | ⟨_, hl, _, _, rfl⟩
  · exact hu
  · split
    · exact hu.set fun _ => rfl
    · exact hu
  · unfold Uniq at *
    rw [List.map_append, List.nodup_append]
    refine ⟨hu, by simp, ?_⟩
    intro a ha b hb
    simp [newRow] at hb
    rw [hb]
    obtain ⟨j, hj, rfl⟩ := List.mem_map.mp ha
    exact lookup_none hl j hj

theorem step_uniq (env : Env) (now : Int) (op : Op) (db : Table) (hu : Uniq db) : Uniq (step env now op db).1 := by
  unfold step
  cases op with
  | create single mock ns =>
    dsimp only
    split
    · rename_i h
      exact create_induction ns (fun n _ mock db db' id hP h => processCreate_uniq hP h) hu h
    · exact hu
  | get pat crash mock prio num =>
    dsimp only
    split
    · rename_i h
      rw [(get_ok h).1]
      refine hu.map fun j => ?_
      split
      · exact taken_id _ _ _ _
      · rfl
    · exact hu
  | update id data rep clear nextRun prio =>
    dsimp only
    split
    · rename_i h
      obtain ⟨_, _, j, _, rfl⟩ := update_ok h
      exact hu.set fun _ => rfl
    · exact hu
  | finish id data ign =>
    dsimp only
    split
    · rename_i h
      obtain ⟨_, j, _, _, _, _, h⟩ := finish_ok h
      have h0 : Uniq (storeData id data (dropDone id db)) := (hu.filter _).set fun _ => rfl
      rcases h with ⟨_, _, rfl⟩ | ⟨_, nr, _, hc⟩
      · refine Uniq.map (Uniq.set h0 ?_) ?_
        · intro _; rfl
        · intro c; split <;> rfl
      · have h1 : Uniq (relabel id none (storeData id data (dropDone id db))) := h0
        rcases conclude_ok hc with ⟨t, _, rfl⟩ | ⟨_, _, _, rfl⟩ | ⟨_, _, _, rfl, _⟩
        · exact h1.set fun _ => rfl
        · split
          · exact h1.set fun _ => rfl
          · refine Uniq.set (Uniq.set h1 ?_) ?_ <;> (intro _; rfl)
        · exact h1.filter _
    · exact hu
  | retry id data ign q =>
    dsimp only
    split
    · rename_i h
      obtain ⟨_, j, _, _, _, _, h⟩ := finish_ok h
      have h0 : Uniq (storeData id data (dropDone id db)) := (hu.filter _).set fun _ => rfl
      rcases h with ⟨h, _⟩ | ⟨_, nr, _, hc⟩
      · simp at h
      · have h1 : Uniq (relabel id (some q) (storeData id data (dropDone id db))) := h0.set fun _ => rfl
        rcases conclude_ok hc with ⟨t, _, rfl⟩ | ⟨_, _, _, rfl⟩ | ⟨_, _, _, rfl, _⟩
        · exact h1.set fun _ => rfl
        · split
          · exact h1.set fun _ => rfl
          · refine Uniq.set (Uniq.set h1 ?_) ?_ <;> (intro _; rfl)
        · exact h1.filter _
    · exact hu
  | cancel id =>
    dsimp only
    split
    · rename_i h
      obtain ⟨_, j, _, _, _, h⟩ := cancel_ok h
      rcases h with ⟨rfl, _⟩ | ⟨_, rfl⟩
      · exact hu
      · split
        · exact hu.set fun _ => rfl
        · refine Uniq.set (Uniq.set hu ?_) ?_ <;> (intro _; rfl)
    · exact hu
  | fail id data =>
    dsimp only
    split
    · rename_i h
      obtain ⟨_, j, _, _, rfl⟩ := fail_ok h
      exact hu.set fun _ => rfl
    · exact hu
  | delete id =>
    dsimp only
    split
    · rename_i h
      obtain ⟨_, j, _, _, _, rfl⟩ := delete_ok h
      exact hu.filter _
    · exact hu
  | requeue ids name dec =>
    refine hu.map fun j => ?_
    split <;> rfl

/-! ## Sorting -/

theorem mem_insertBy {le : Job → Job → Bool} {a x : Job} {l : List Job} :
    x ∈ insertBy le a l ↔ x = a ∨ x ∈ l := by
  induction l with
  | nil => simp [insertBy]
  | cons b l ih =>
    unfold insertBy
    split
    · simp
    · simp [ih]
      constructor
      · rintro (h | h | h) <;> simp [h]
      · rintro (h | h | h) <;> simp [h]

theorem mem_sortBy {le : Job → Job → Bool} {x : Job} {l : List Job} : x ∈ sortBy le l ↔ x ∈ l := by
  induction l with
  | nil => simp [sortBy]
  | cons a l ih => simp [sortBy, mem_insertBy, ih]

theorem pairwise_insertBy {le : Job → Job → Bool} (trans : ∀ a b c, le a b = true → le b c = true → le a c = true)
    (total : ∀ a b, le a b = true ∨ le b a = true) {a : Job} {l : List Job}
    (h : l.Pairwise (le · · = true)) : (insertBy le a l).Pairwise (le · · = true) := by
  induction l with
  | nil => simp [insertBy]
  | cons b l ih =>
    rw [List.pairwise_cons] at h
    unfold insertBy
    split
    · rename_i hab
      rw [List.pairwise_cons]
      refine ⟨?_, List.pairwise_cons.mpr h⟩
      intro x hx
      rcases List.mem_cons.mp hx with rfl | hx
      · exact hab
      · exact trans _ _ _ hab (h.1 x hx)
    · rename_i hab
      rw [List.pairwise_cons]
      refine ⟨?_, ih h.2⟩
      intro x hx
      rcases mem_insertBy.mp hx with rfl | hx
      · exact (total b x).resolve_right hab
      · exact h.1 x hx

theorem pairwise_sortBy {le : Job → Job → Bool} (trans : ∀ a b c, le a b = true → le b c = true → le a c = true)
    (total : ∀ a b, le a b = true ∨ le b a = true) (l : List Job) : (sortBy le l).Pairwise (le · · = true) := by
  induction l with
  | nil => simp [sortBy]
  | cons a l ih => exact pairwise_insertBy trans total ih

theorem sortBy_of_pairwise {le : Job → Job → Bool} {l : List Job} (h : l.Pairwise (le · · = true)) : sortBy le l = l := by
  induction l with
  | nil => rfl
  | cons a l ih =>
    rw [List.pairwise_cons] at h
    rw [sortBy, ih h.2]
    cases l with
    | nil => rfl
    | cons b l => rw [insertBy, if_pos (h.1 b (by simp))]

theorem length_insertBy {le : Job → Job → Bool} {a : Job} {l : List Job} : (insertBy le a l).length = l.length + 1 := by
  induction l with
  | nil => rfl
  | cons b l ih =>
    unfold insertBy
    split
    · simp
    · simp [ih]

theorem insertBy_perm {le : Job → Job → Bool} {a : Job} {l : List Job} : (insertBy le a l).Perm (a :: l) := by
  induction l with
  | nil => exact List.Perm.refl _
  | cons b l ih =>
    unfold insertBy
    split
    · exact List.Perm.refl _
    · exact (ih.cons b).trans (List.Perm.swap a b l)

theorem sortBy_perm {le : Job → Job → Bool} {l : List Job} : (sortBy le l).Perm l := by
  induction l with
  | nil => exact List.Perm.refl _
  | cons a l ih => exact insertBy_perm.trans (ih.cons a)

/-! ## The selection -/

theorem mem_candidatesAt {now : Int} {pat : Bytes → Bool} {mock : Bool} {n : Nat} {db : Table} {p : Int} {j : Job}
    (h : j ∈ candidatesAt now pat mock n db p) : j ∈ db ∧ eligible now pat mock j = true ∧ j.priority = .num p := by
  unfold candidatesAt byNextRun at h
  have := mem_sortBy.mp (List.mem_of_mem_take h)
  rw [List.mem_filter] at this
  simpa using this

theorem mem_select {now : Int} {pat : Bytes → Bool} {mock : Bool} {prio : Option Int} {n : Nat} {db : Table} {j : Job}
    (h : j ∈ select now pat mock prio n db) : j ∈ db ∧ eligible now pat mock j = true := by
  unfold select at h
  split at h
  · exact ⟨(mem_candidatesAt h).1, (mem_candidatesAt h).2.1⟩
  · have := mem_sortBy.mp (List.mem_of_mem_take h)
    obtain ⟨p, _, hp⟩ := List.mem_flatMap.mp this
    exact ⟨(mem_candidatesAt hp).1, (mem_candidatesAt hp).2.1⟩

theorem eligible_iff {now : Int} {pat : Bytes → Bool} {mock : Bool} {j : Job} :
    eligible now pat mock j = true ↔ (j.state = .queued ∨ j.state = .runqueued) ∧ j.nextRun ≤ now ∧
      pat j.name = true ∧ (mock = true ∨ j.data.mocked = false) := by
  simp [eligible]

/-! ## What a command does to a row -/

/-- How a command can change a row that stays. -/
def Row (env : Env) (now : Int) (op : Op) (db : Table) (j k : Job) : Prop :=
  match op with
  | .create _ _ ns =>
    (k.state = j.state ∧ k.nextRun = j.nextRun ∧ k.lastRun = j.lastRun ∧ k.name = j.name ∧ k.parent = j.parent ∧
      k.retryAfter = j.retryAfter) ∧
    (k = j ∨ ∃ n ∈ ns, n.1.unique = true ∧ n.1.name = j.name)
  | .get pat crash mock prio num =>
    k = j ∨ (k = taken env now crash j ∧ ∃ c ∈ select now pat mock prio (max num 1).toNat db, c.id = j.id)
  | .update id data rep clear nextRun prio =>
    k = j ∨ (j.id = id ∧ ∃ run, k = updated data rep clear run prio j ∧
      (nextRun = none → rep = none → run = .invalid))
  | .finish id _ _ | .retry id _ _ _ =>
    (j.id = id ∧ k.parent = j.parent ∧ k.retryAfter = j.retryAfter) ∨
    (j.id ≠ id ∧ (k = j ∨ (isChild id j = true ∧ j.state = .paused ∧ k = { j with state := .queued }) ∨
      ((lookup db j.id).map (·.state) = some .paused ∧ k = { j with state := .queued })))
  | .cancel id =>
    k = j ∨ (j.id = id ∧ k = { j with state := .cancelled }) ∨
    ((∃ c ∈ db, c.id = id ∧ c.parent = j.id ∧ c.parent ≠ 0) ∧ k = { j with state := .queued })
  | .fail id data =>
    k = j ∨ (j.id = id ∧ k = { j with data := data.getD j.data, state := .failed })
  | .delete _ => k = j
  | .requeue ids name dec =>
    k = j ∨ (j.id ∈ ids ∧ k = { j with
      state := .queued, nextRun := j.created, name := name.getD j.name
      data := if dec then { j.data with retryAfterCount := some (j.data.retryAfterCount.getD 1 - 1) } else j.data })

/-- What CreateJob(s) adds. -/
def Created (op : Op) (db : Table) (k : Job) : Prop :=
  match op with
  | .create _ _ ns => lookup db k.id = none ∧ ∃ n ∈ ns, k.id = n.2 ∧ k.parent = n.1.parent ∧ k.name = n.1.name
  | _ => False

theorem processCreate_row {env : Env} {now : Int} {db db' : Table} {mock : Bool} {newId id : Int} {n : NewJob}
    (huniq : Uniq db) (h : processCreate env now db mock newId n = .ok (db', id)) {k : Job} (hk : k ∈ db') :
    (lookup db k.id = none ∧ k.id = newId ∧ k.parent = n.parent ∧ k.name = n.name) ∨ ∃ j ∈ db, j.id = k.id ∧
      (k.state = j.state ∧ k.nextRun = j.nextRun ∧ k.lastRun = j.lastRun ∧ k.name = j.name ∧ k.parent = j.parent ∧
        k.retryAfter = j.retryAfter) ∧
      (k = j ∨ (n.unique = true ∧ n.name = j.name)) := by
  rcases processCreate_ok h with ⟨_, _, _, _, _, rfl⟩ | ⟨e, he, _, hu, hn, _, _, rfl⟩ | ⟨_, hl, _, _, rfl⟩
  · exact Or.inr ⟨k, hk, rfl, ⟨rfl, rfl, rfl, rfl, rfl, rfl⟩, Or.inl rfl⟩
  · split at hk
    · obtain ⟨j, hj, rfl⟩ := mem_set.mp hk
      refine Or.inr ⟨j, hj, ?_⟩
      split
      · rename_i hid
        refine ⟨rfl, ⟨rfl, rfl, rfl, rfl, rfl, rfl⟩, ?_⟩
        rw [huniq.eq hj he hid]
        exact Or.inr ⟨hu, hn.symm⟩
      · exact ⟨rfl, ⟨rfl, rfl, rfl, rfl, rfl, rfl⟩, Or.inl rfl⟩
    · exact Or.inr ⟨k, hk, rfl, ⟨rfl, rfl, rfl, rfl, rfl, rfl⟩, Or.inl rfl⟩
  · rcases List.mem_append.mp hk with hk | hk
    · exact Or.inr ⟨k, hk, rfl, ⟨rfl, rfl, rfl, rfl, rfl, rfl⟩, Or.inl rfl⟩
    · simp at hk
      subst hk
      exact Or.inl ⟨hl, rfl, rfl, rfl⟩

theorem processCreates_row {env : Env} {now : Int} {mock : Bool} (ns : List (NewJob × Int)) :
    ∀ {db db' : Table} {ids : List Int}, Uniq db → processCreates env now mock db ns = .ok (db', ids) →
    ∀ k ∈ db', (lookup db k.id = none ∧ ∃ n ∈ ns, k.id = n.2 ∧ k.parent = n.1.parent ∧ k.name = n.1.name) ∨
      ∃ j ∈ db, j.id = k.id ∧
      (k.state = j.state ∧ k.nextRun = j.nextRun ∧ k.lastRun = j.lastRun ∧ k.name = j.name ∧ k.parent = j.parent ∧
        k.retryAfter = j.retryAfter) ∧
      (k = j ∨ ∃ n ∈ ns, n.1.unique = true ∧ n.1.name = j.name) := by
  induction ns with
  | nil =>
    intro db db' ids _ h k hk
    simp [processCreates] at h
    rw [← h.1] at hk
    exact Or.inr ⟨k, hk, rfl, ⟨rfl, rfl, rfl, rfl, rfl, rfl⟩, Or.inl rfl⟩
  | cons n ns ih =>
    obtain ⟨n, newId⟩ := n
    intro db db' ids hu h k hk
    simp only [processCreates] at h
    split at h
    · simp at h
    · rename_i db1 id1 h1
      split at h
      · simp at h
      · rename_i db2 ids2 h2
        injection h with h
        injection h with h3 _
        subst h3
        have hu1 := processCreate_uniq hu h1
        rcases ih hu1 h2 k hk with ⟨hl, m, hm, hk1⟩ | ⟨j, hj, hid, hsame, hch⟩
        · left
          refine ⟨?_, m, by simp [hm], hk1⟩
          cases hl0 : lookup db k.id with
          | none => rfl
          | some j0 =>
            obtain ⟨hj0, hid0⟩ := lookup_mem hl0
            -- rows are never removed
            have hstay : ∃ j1 ∈ db1, j1.id = j0.id := by
              rcases processCreate_ok h1 with ⟨_, _, _, _, _, rfl⟩ | ⟨e, _, _, _, _, _, _, rfl⟩ | ⟨_, _, _, _, rfl⟩
              · exact ⟨j0, hj0, rfl⟩
              · split
                · refine ⟨_, mem_set.mpr ⟨j0, hj0, rfl⟩, ?_⟩
                  split <;> rfl
                · exact ⟨j0, hj0, rfl⟩
              · exact ⟨j0, List.mem_append_left _ hj0, rfl⟩
            obtain ⟨j1, hj1, hid1⟩ := hstay
            exact absurd (hid1.trans hid0) (lookup_none hl j1 hj1)
        · rcases processCreate_row hu h1 hj with ⟨hl, h4, h5, h6⟩ | ⟨j0, hj0, hid0, hsame0, hch0⟩
          · left
            refine ⟨by rw [← hid]; exact hl, (n, newId), by simp, by rw [← hid]; exact h4, ?_, ?_⟩
            · rw [hsame.2.2.2.2.1]; exact h5
            · rw [hsame.2.2.2.1]; exact h6
          · right
            refine ⟨j0, hj0, hid0.trans hid, ?_, ?_⟩
            · obtain ⟨a1, a2, a3, a4, a5, a6⟩ := hsame
              obtain ⟨b1, b2, b3, b4, b5, b6⟩ := hsame0
              exact ⟨a1.trans b1, a2.trans b2, a3.trans b3, a4.trans b4, a5.trans b5, a6.trans b6⟩
            · rcases hch0 with rfl | hch0
              · rcases hch with rfl | ⟨m, hm, h7, h8⟩
                · exact Or.inl rfl
                · exact Or.inr ⟨m, by simp [hm], h7, h8⟩
              · exact Or.inr ⟨(n, newId), by simp, hch0.1, hch0.2⟩

theorem create_row {env : Env} {now : Int} {single mock : Bool} {ns : List (NewJob × Int)} {db db' : Table}
    {ids : List Int} (hu : Uniq db) (h : create env now single mock ns db = .ok (db', ids)) {k : Job} (hk : k ∈ db') :
    Created (.create single mock ns) db k ∨ ∃ j ∈ db, j.id = k.id ∧ Row env now (.create single mock ns) db j k := by
  unfold create at h
  split at h
  · simp at h
  · injection h with h
    injection h with h1 _
    subst h1
    exact Or.inr ⟨k, hk, rfl, ⟨rfl, rfl, rfl, rfl, rfl, rfl⟩, Or.inl rfl⟩
  · exact processCreates_row ns hu h k hk

theorem finish_row {env : Env} {now id : Int} {data : Option (Data × Bool)} {ign : Bool} {retry : Option Retry}
    {db db' : Table} (h : finish env now id data ign retry db = .ok db') {k : Job} (hk : k ∈ db') :
    ∃ j ∈ db, j.id = k.id ∧
      ((j.id = id ∧ k.parent = j.parent ∧ k.retryAfter = j.retryAfter) ∨
       (j.id ≠ id ∧ (k = j ∨ (isChild id j = true ∧ j.state = .paused ∧ k = { j with state := .queued }) ∨
         ((lookup db j.id).map (·.state) = some .paused ∧ k = { j with state := .queued })))) := by
  obtain ⟨_, f, hf, _, hp, _, h⟩ := finish_ok h
  -- the rows after cleaning up and storing the data
  have h0 : ∀ x ∈ storeData id data (dropDone id db), ∃ j ∈ db, j.id = x.id ∧
      ((j.id = id ∧ x.parent = j.parent ∧ x.retryAfter = j.retryAfter) ∨ (j.id ≠ id ∧ x = j)) := by
    intro x hx
    obtain ⟨j, hj, rfl⟩ := mem_set.mp hx
    refine ⟨j, (List.mem_filter.mp hj).1, ?_⟩
    by_cases hid : j.id = id
    · simp [hid]
    · simp [hid]
  have h1 : ∀ x ∈ relabel id retry (storeData id data (dropDone id db)), ∃ j ∈ db, j.id = x.id ∧
      ((j.id = id ∧ x.parent = j.parent ∧ x.retryAfter = j.retryAfter) ∨ (j.id ≠ id ∧ x = j)) := by
    intro x hx
    unfold relabel at hx
    split at hx
    · exact h0 x hx
    · obtain ⟨y, hy, rfl⟩ := mem_set.mp hx
      obtain ⟨j, hj, hid, hc⟩ := h0 y hy
      by_cases hyid : y.id = id
      · refine ⟨j, hj, by rw [if_pos hyid]; exact hid, ?_⟩
        rw [if_pos hyid]
        rcases hc with hc | ⟨hc, _⟩
        · exact Or.inl hc
        · exact absurd (hid.trans hyid) hc
      · rw [if_neg hyid]; exact ⟨j, hj, hid, hc⟩
  rcases h with ⟨_, _, rfl⟩ | ⟨_, nr, _, hc⟩
  · unfold pauseForChildren at hk
    obtain ⟨y, hy, rfl⟩ := List.mem_map.mp hk
    obtain ⟨x, hx, rfl⟩ := mem_set.mp hy
    obtain ⟨j, hj, hid, hc⟩ := h0 x hx
    refine ⟨j, hj, ?_⟩
    rcases hc with ⟨h2, h3, h4⟩ | ⟨h2, rfl⟩
    · rw [if_pos (hid.symm.trans h2)]
      split
      · exact ⟨hid, Or.inl ⟨h2, h3, h4⟩⟩
      · exact ⟨hid, Or.inl ⟨h2, h3, h4⟩⟩
    · rw [if_neg h2]
      split
      · rename_i hpc
        exact ⟨rfl, Or.inr ⟨h2, Or.inr (Or.inl ⟨hpc.2, hpc.1, rfl⟩)⟩⟩
      · exact ⟨rfl, Or.inr ⟨h2, Or.inl rfl⟩⟩
  · rcases conclude_ok hc with ⟨t, _, rfl⟩ | ⟨_, _, hpar, rfl⟩ | ⟨_, _, _, rfl, _⟩
    · obtain ⟨x, hx, rfl⟩ := mem_set.mp hk
      obtain ⟨j, hj, hid, hc⟩ := h1 x hx
      refine ⟨j, hj, ?_⟩
      rcases hc with ⟨h2, h3, h4⟩ | ⟨h2, rfl⟩
      · rw [if_pos (hid.symm.trans h2)]
        exact ⟨hid, Or.inl ⟨h2, h3, h4⟩⟩
      · rw [if_neg h2]
        exact ⟨rfl, Or.inr ⟨h2, Or.inl rfl⟩⟩
    · have h2 : ∀ x ∈ set id (fun j => { j with state := .finished }) (relabel id retry (storeData id data (dropDone id db))),
          ∃ j ∈ db, j.id = x.id ∧ ((j.id = id ∧ x.parent = j.parent ∧ x.retryAfter = j.retryAfter) ∨ (j.id ≠ id ∧ x = j)) := by
        intro x hx
        obtain ⟨y, hy, rfl⟩ := mem_set.mp hx
        obtain ⟨j, hj, hid, hc⟩ := h1 y hy
        refine ⟨j, hj, ?_⟩
        rcases hc with ⟨h2, h3, h4⟩ | ⟨h2, rfl⟩
        · rw [if_pos (hid.symm.trans h2)]
          exact ⟨hid, Or.inl ⟨h2, h3, h4⟩⟩
        · rw [if_neg h2]
          exact ⟨rfl, Or.inr ⟨h2, rfl⟩⟩
      split at hk
      · obtain ⟨j, hj, hid, hc⟩ := h2 k hk
        refine ⟨j, hj, hid, ?_⟩
        rcases hc with hc | ⟨h3, rfl⟩
        · exact Or.inl hc
        · exact Or.inr ⟨h3, Or.inl rfl⟩
      · obtain ⟨x, hx, rfl⟩ := mem_set.mp hk
        obtain ⟨j, hj, hid, hc⟩ := h2 x hx
        refine ⟨j, hj, ?_⟩
        rcases hc with ⟨h3, h4, h5⟩ | ⟨h3, rfl⟩
        · split
          · exact ⟨hid, Or.inl ⟨h3, h4, h5⟩⟩
          · exact ⟨hid, Or.inl ⟨h3, h4, h5⟩⟩
        · split
          · rename_i hjp
            refine ⟨rfl, Or.inr ⟨h3, Or.inr (Or.inr ⟨?_, rfl⟩)⟩⟩
            rw [hjp]
            exact hp.resolve_left hpar
          · exact ⟨rfl, Or.inr ⟨h3, Or.inl rfl⟩⟩
    · obtain ⟨hk, hkid⟩ := List.mem_filter.mp hk
      obtain ⟨j, hj, hid, hc⟩ := h1 k hk
      refine ⟨j, hj, hid, ?_⟩
      rcases hc with ⟨h3, _⟩ | ⟨h3, rfl⟩
      · simp at hkid; exact absurd (hid.symm.trans h3) hkid
      · exact Or.inr ⟨h3, Or.inl rfl⟩

/-- Every row after a command was created by it or is a changed or unchanged row of before. -/
theorem step_row {env : Env} {now : Int} {op : Op} {db : Table} (hu : Uniq db) {k : Job}
    (hk : k ∈ (step env now op db).1) :
    Created op db k ∨ ∃ j ∈ db, j.id = k.id ∧ Row env now op db j k := by
  unfold step at hk
  cases op with
  | create single mock ns =>
    dsimp only at hk
    split at hk
    · rename_i h
      exact create_row hu h hk
    · exact Or.inr ⟨k, hk, rfl, ⟨rfl, rfl, rfl, rfl, rfl, rfl⟩, Or.inl rfl⟩
  | get pat crash mock prio num =>
    right
    dsimp only at hk
    split at hk
    · rename_i h
      rw [(get_ok h).1] at hk
      obtain ⟨j, hj, rfl⟩ := List.mem_map.mp hk
      refine ⟨j, hj, ?_⟩
      split
      · rename_i ha
        refine ⟨(taken_id _ _ _ _).symm, Or.inr ⟨rfl, ?_⟩⟩
        rw [List.any_eq_true] at ha
        obtain ⟨c, hc, hid⟩ := ha
        exact ⟨c, hc, by simpa using hid⟩
      · exact ⟨rfl, Or.inl rfl⟩
    · exact ⟨k, hk, rfl, Or.inl rfl⟩
  | update id data rep clear nextRun prio =>
    right
    dsimp only at hk
    split at hk
    · rename_i h
      obtain ⟨_, _, f, _, rfl⟩ := update_ok h
      obtain ⟨j, hj, rfl⟩ := mem_set.mp hk
      refine ⟨j, hj, ?_⟩
      split
      · rename_i hid
        refine ⟨rfl, Or.inr ⟨hid, _, rfl, ?_⟩⟩
        intro h1 h2
        rw [h1, h2]; rfl
      · exact ⟨rfl, Or.inl rfl⟩
    · exact ⟨k, hk, rfl, Or.inl rfl⟩
  | finish id data ign =>
    right
    dsimp only at hk
    split at hk
    · rename_i h
      exact finish_row h hk
    · refine ⟨k, hk, rfl, ?_⟩
      by_cases hid : k.id = id
      · exact Or.inl ⟨hid, rfl, rfl⟩
      · exact Or.inr ⟨hid, Or.inl rfl⟩
  | retry id data ign q =>
    right
    dsimp only at hk
    split at hk
    · rename_i h
      exact finish_row h hk
    · refine ⟨k, hk, rfl, ?_⟩
      by_cases hid : k.id = id
      · exact Or.inl ⟨hid, rfl, rfl⟩
      · exact Or.inr ⟨hid, Or.inl rfl⟩
  | cancel id =>
    right
    dsimp only at hk
    split at hk
    · rename_i h
      obtain ⟨_, f, hf, _, hpar, h⟩ := cancel_ok h
      obtain ⟨hfm, hfid⟩ := lookup_mem hf
      rcases h with ⟨rfl, _⟩ | ⟨_, rfl⟩
      · exact ⟨k, hk, rfl, Or.inl rfl⟩
      · split at hk
        · obtain ⟨j, hj, rfl⟩ := mem_set.mp hk
          refine ⟨j, hj, ?_⟩
          split
          · rename_i hid; exact ⟨rfl, Or.inr (Or.inl ⟨hid, rfl⟩)⟩
          · exact ⟨rfl, Or.inl rfl⟩
        · obtain ⟨x, hx, rfl⟩ := mem_set.mp hk
          obtain ⟨j, hj, rfl⟩ := mem_set.mp hx
          refine ⟨j, hj, ?_⟩
          by_cases hid : j.id = id
          · rw [if_pos hid]
            split
            · rename_i hp
              exact ⟨rfl, Or.inr (Or.inr ⟨⟨f, hfm, hfid, hp.symm, hpar⟩, rfl⟩)⟩
            · exact ⟨rfl, Or.inr (Or.inl ⟨hid, rfl⟩)⟩
          · rw [if_neg hid]
            split
            · rename_i hp
              exact ⟨rfl, Or.inr (Or.inr ⟨⟨f, hfm, hfid, hp.symm, hpar⟩, rfl⟩)⟩
            · exact ⟨rfl, Or.inl rfl⟩
    · exact ⟨k, hk, rfl, Or.inl rfl⟩
  | fail id data =>
    right
    dsimp only at hk
    split at hk
    · rename_i h
      obtain ⟨_, f, _, _, rfl⟩ := fail_ok h
      obtain ⟨j, hj, rfl⟩ := mem_set.mp hk
      refine ⟨j, hj, ?_⟩
      split
      · rename_i hid; exact ⟨rfl, Or.inr ⟨hid, rfl⟩⟩
      · exact ⟨rfl, Or.inl rfl⟩
    · exact ⟨k, hk, rfl, Or.inl rfl⟩
  | delete id =>
    right
    dsimp only at hk
    split at hk
    · rename_i h
      obtain ⟨_, f, _, _, _, rfl⟩ := delete_ok h
      obtain ⟨hk, hid⟩ := List.mem_filter.mp hk
      exact ⟨k, hk, rfl, rfl⟩
    · exact ⟨k, hk, rfl, rfl⟩
  | requeue ids name dec =>
    right
    obtain ⟨j, hj, rfl⟩ := List.mem_map.mp hk
    refine ⟨j, hj, ?_⟩
    split
    · rename_i hid; exact ⟨rfl, Or.inr ⟨hid, rfl⟩⟩
    · exact ⟨rfl, Or.inl rfl⟩

end Bedrock.Jobs
