import Verif.Lemmas.Jobs

/-!
# Lemmas about parents and children
-/

namespace Bedrock.Jobs
open Bedrock

/-- Every row of `db'` is one of `db` with the same parent and the state given by `g`. -/
def Eff (db db' : Table) (g : Job → St) : Prop :=
  ∀ k ∈ db', ∃ j ∈ db, j.id = k.id ∧ k.parent = j.parent ∧ k.state = g j

theorem Eff.trans {db db1 db2 : Table} {g g1 g2 : Job → St} (h1 : Eff db db1 g1) (h2 : Eff db1 db2 g2)
    (h : ∀ j k, k.id = j.id → k.parent = j.parent → k.state = g1 j → g2 k = g j) : Eff db db2 g := by
  intro x hx
  obtain ⟨k, hk, hid, hp, hs⟩ := h2 x hx
  obtain ⟨j, hj, hid', hp', hs'⟩ := h1 k hk
  exact ⟨j, hj, hid'.trans hid, hp.trans hp', hs.trans (h j k hid'.symm hp' hs')⟩

theorem eff_filter (db : Table) (p : Job → Bool) : Eff db (db.filter p) (·.state) :=
  fun k hk => ⟨k, (List.mem_filter.mp hk).1, rfl, rfl, rfl⟩

theorem eff_set (db : Table) (id : Int) (f : Job → Job) (hid : ∀ j, (f j).id = j.id) (hp : ∀ j, (f j).parent = j.parent)
    {s : Job → St} (hs : ∀ j, (f j).state = s j) : Eff db (set id f db) (fun j => if j.id = id then s j else j.state) := by
  intro k hk
  obtain ⟨j, hj, rfl⟩ := mem_set.mp hk
  refine ⟨j, hj, ?_⟩
  by_cases h : j.id = id
  · simp only [h, if_true]
    exact ⟨by rw [hid j]; exact h.symm, hp j, hs j⟩
  · simp only [h, if_false]
    exact ⟨trivial, trivial, trivial⟩

theorem eff_storeData (id : Int) (data : Option (Data × Bool)) (db : Table) :
    Eff db (storeData id data (dropDone id db)) (·.state) := by
  refine Eff.trans (eff_filter db _) (g2 := fun j => if j.id = id then ((·.state)) j else j.state) (by refine eff_set _ id _ ?_ ?_ (s := (·.state)) ?_ <;> intro _ <;> rfl) ?_
  intro j k _ _ h
  dsimp only
  split <;> exact h

theorem eff_relabel (id : Int) (retry : Option Retry) (db : Table) : Eff db (relabel id retry db) (·.state) := by
  unfold relabel
  split
  · exact fun k hk => ⟨k, hk, rfl, rfl, rfl⟩
  · refine Eff.trans (db1 := db) (g1 := (·.state)) (fun k hk => ⟨k, hk, rfl, rfl, rfl⟩)
      (g2 := fun j => if j.id = id then ((·.state)) j else j.state) (by refine eff_set _ id _ ?_ ?_ (s := (·.state)) ?_ <;> intro _ <;> rfl) ?_
    intro j k _ _ h
    dsimp only
    split <;> exact h

theorem hasPending_iff {db : Table} {id : Int} :
    hasPending db id = true ↔ ∃ j ∈ db, j.parent ≠ 0 ∧ j.parent = id ∧ pending j.state = true := by
  simp only [hasPending, List.any_eq_true, isChild]
  constructor
  · rintro ⟨j, hj, h⟩
    simp at h
    exact ⟨j, hj, h.1.1, h.1.2, h.2⟩
  · rintro ⟨j, hj, h1, h2, h3⟩
    exact ⟨j, hj, by rw [h2] at h1; simp [h1, h2, h3]⟩

theorem isChild_iff {id : Int} {j : Job} : isChild id j = true ↔ j.parent ≠ 0 ∧ j.parent = id := by
  simp [isChild]

theorem hasPending_store (id : Int) (data : Option (Data × Bool)) (db : Table) (p : Int) :
    hasPending (storeData id data (dropDone id db)) p = hasPending db p := by
  rw [Bool.eq_iff_iff, hasPending_iff, hasPending_iff]
  constructor
  · rintro ⟨k, hk, h1, h2, h3⟩
    obtain ⟨j, hj, _, hp, hs⟩ := eff_storeData id data db k hk
    exact ⟨j, hj, by rw [← hp]; exact h1, by rw [← hp]; exact h2, by have hs : k.state = j.state := hs; rw [← hs]; exact h3⟩
  · rintro ⟨j, hj, h1, h2, h3⟩
    refine ⟨_, mem_set.mpr ⟨j, List.mem_filter.mpr ⟨hj, ?_⟩, rfl⟩, ?_⟩
    · cases hs : j.state <;> simp_all [pending]
    · split
      · exact ⟨h1, h2, h3⟩
      · exact ⟨h1, h2, h3⟩

/-- The effect of FinishJob and RetryJob on states. -/
theorem finish_cases {env : Env} {now id : Int} {data : Option (Data × Bool)} {ign : Bool} {retry : Option Retry}
    {db db' : Table} (hself : ∀ j ∈ db, j.parent ≠ 0 → j.parent ≠ j.id)
    (h : finish env now id data ign retry db = .ok db') :
    ∃ f, lookup db id = some f ∧ (f.state = .running ∨ f.state = .runqueued ∨ f.data.mocked = true) ∧
      (f.parent = 0 ∨ (lookup db f.parent).map (·.state) = some .paused) ∧
      ((retry = none ∧ hasPending db id = true ∧
        Eff db db' (fun j => if j.id = id then .paused else if isChild id j = true ∧ j.state = .paused then .queued else j.state)) ∨
       (¬ (retry = none ∧ hasPending db id = true) ∧
        (Eff db db' (fun j => if j.id = id then .queued else j.state) ∨
         (f.parent ≠ 0 ∧ (∃ b : Bool,
            (b = false → ∀ c ∈ db, c.parent = f.parent → pending c.state = true → c.id = id) ∧
            Eff db db' (fun j => if b = false ∧ j.id = f.parent then .queued else if j.id = id then .finished else j.state))) ∨
         (f.parent = 0 ∧ (∀ k ∈ db', k.id ≠ id ∧ (k.parent ≠ 0 → k.parent ≠ id)) ∧ Eff db db' (·.state))))) := by
  obtain ⟨_, f, hf, hs, hp, _, h⟩ := finish_ok h
  refine ⟨f, hf, hs, hp, ?_⟩
  rw [hasPending_store] at h
  rcases h with ⟨hr, hpend, rfl⟩ | ⟨hnot, nr, _, hc⟩
  · left
    refine ⟨hr, hpend, ?_⟩
    unfold pauseForChildren
    refine Eff.trans (eff_storeData id data db) (g2 := fun j => if j.id = id then .paused else if isChild id j = true ∧ j.state = .paused then .queued else j.state) ?_ ?_
    · intro k hk
      obtain ⟨y, hy, rfl⟩ := List.mem_map.mp hk
      obtain ⟨x, hx, rfl⟩ := mem_set.mp hy
      refine ⟨x, hx, ?_⟩
      by_cases hid : x.id = id
      · simp only [hid, if_true]
        obtain ⟨j, hj, hjid, hjp, _⟩ := eff_storeData id data db x hx
        have hnc : isChild id x = false := by
          cases hcx : isChild id x with
          | false => rfl
          | true =>
            obtain ⟨h0, h1⟩ := isChild_iff.mp hcx
            refine absurd ?_ (hself j hj (by rw [← hjp]; exact h0))
            rw [← hjp, h1, hjid, hid]
        rw [if_neg (by
          rintro ⟨_, h'⟩
          have h' : isChild id x = true := h'
          rw [hnc] at h'; exact absurd h' (by simp))]
        exact ⟨rfl, rfl, rfl⟩
      · simp only [hid, if_false]
        by_cases hcc : isChild id x = true ∧ x.state = .paused
        · rw [if_pos ⟨hcc.2, hcc.1⟩, if_pos hcc]
          exact ⟨rfl, rfl, rfl⟩
        · rw [if_neg (fun h => hcc ⟨h.2, h.1⟩), if_neg hcc]
          exact ⟨rfl, rfl, rfl⟩
    · intro j k h1 h2 h3
      simp only [isChild, h1, h2, h3]
      rfl
  · right
    refine ⟨hnot, ?_⟩
    have he : Eff db (relabel id retry (storeData id data (dropDone id db))) (·.state) :=
      Eff.trans (eff_storeData id data db) (eff_relabel id retry _) (fun j k _ _ h => h)
    rcases conclude_ok hc with ⟨t, _, rfl⟩ | ⟨_, _, hpar, rfl⟩ | ⟨_, _, hpar, rfl, hno⟩
    · left
      refine Eff.trans he (g2 := fun j => if j.id = id then (fun _ => .queued) j else j.state) (by refine eff_set _ id _ ?_ ?_ (s := fun _ => .queued) ?_ <;> intro _ <;> rfl) ?_
      intro j k h1 _ h3
      simp only [h1, h3]
    · right; left
      refine ⟨hpar, ?_⟩
      have h1 : Eff db (set id (fun j => { j with state := .finished }) (relabel id retry (storeData id data (dropDone id db))))
          (fun j => if j.id = id then .finished else j.state) := by
        refine Eff.trans he (g2 := fun j => if j.id = id then (fun _ => .finished) j else j.state) (by refine eff_set _ id _ ?_ ?_ (s := fun _ => .finished) ?_ <;> intro _ <;> rfl) ?_
        intro j k h1 _ h3
        simp only [h1, h3]
      generalize hb : hasPending (set id (fun j => { j with state := .finished }) (relabel id retry (storeData id data (dropDone id db)))) f.parent = b
      refine ⟨b, ?_, ?_⟩
      · intro hbf c hc hcp hcs
        rw [hbf] at hb
        by_cases hcid : c.id = id
        · exact hcid
        · exfalso
          have hmem : c ∈ relabel id retry (storeData id data (dropDone id db)) := by
            have h0 : c ∈ storeData id data (dropDone id db) := by
              refine mem_set.mpr ⟨c, List.mem_filter.mpr ⟨hc, ?_⟩, by rw [if_neg hcid]⟩
              cases hst : c.state <;> simp_all [pending]
            unfold relabel
            split
            · exact h0
            · exact mem_set.mpr ⟨c, h0, by rw [if_neg hcid]⟩
          have : hasPending (set id (fun j => { j with state := .finished }) (relabel id retry (storeData id data (dropDone id db)))) f.parent = true :=
            hasPending_iff.mpr ⟨c, mem_set.mpr ⟨c, hmem, by rw [if_neg hcid]⟩, by rw [hcp]; exact hpar, hcp, hcs⟩
          rw [hb] at this
          exact absurd this (by simp)
      · cases b with
        | true => simpa using h1
        | false =>
          simp only [Bool.false_eq_true, if_false]
          refine Eff.trans h1 (g2 := fun j => if j.id = f.parent then (fun _ => .queued) j else j.state) (by refine eff_set _ f.parent _ ?_ ?_ (s := fun _ => .queued) ?_ <;> intro _ <;> rfl) ?_
          intro j k h1 _ h3
          simp only [h1, h3, true_and]
    · right; right
      refine ⟨hpar, ?_, Eff.trans he (eff_filter _ _) (fun j k _ _ h => h)⟩
      intro k hk
      refine ⟨by have := (List.mem_filter.mp hk).2; simpa using this, ?_⟩
      intro h0 hpid
      rw [List.any_eq_false] at hno
      exact hno k hk (isChild_iff.mpr ⟨h0, hpid⟩)

end Bedrock.Jobs
