import Verif.Props.JobsStates

/-!
# C76: mocked jobs stay apart from real ones
-/

namespace Bedrock.Jobs.Props
open Bedrock Bedrock.Jobs

/-- Whatever job has this ID, it is a mocked one. -/
def Marked (id : Int) (db : Table) : Prop := ∀ k ∈ db, k.id = id → k.data.mocked = true

/-- A command that could break it: a new job that happens to get this ID, or FailJob with new data. -/
def Spares (id : Int) : Op → Prop
  | .create _ _ ns => ∀ n ∈ ns, n.2 ≠ id
  | .fail i (some d) => i = id → d.mocked = true
  | _ => True

theorem Marked.set {id i : Int} {f : Job → Job} {db : Table} (h : Marked id db) (hid : ∀ j, (f j).id = j.id)
    (hf : ∀ j ∈ db, j.id = id → i = id → (f j).data.mocked = true) : Marked id (Jobs.set i f db) := by
  intro k hk hki
  obtain ⟨j, hj, rfl⟩ := mem_set.mp hk
  by_cases he : j.id = i
  · rw [if_pos he] at hki ⊢
    rw [hid] at hki
    exact hf j hj hki (he.symm.trans hki)
  · rw [if_neg he] at hki ⊢
    exact h j hj hki

theorem Marked.set' {id i : Int} {f : Job → Job} {db : Table} (h : Marked id db) (hid : ∀ j, (f j).id = j.id)
    (hf : ∀ j, (f j).data = j.data) : Marked id (Jobs.set i f db) :=
  h.set hid fun j hj hi _ => by rw [hf]; exact h j hj hi

theorem Marked.filter {id : Int} {db : Table} (h : Marked id db) (p : Job → Bool) : Marked id (db.filter p) :=
  fun k hk => h k (List.mem_filter.mp hk).1

theorem Marked.map {id : Int} {db : Table} (h : Marked id db) {f : Job → Job} (hid : ∀ j, (f j).id = j.id)
    (hf : ∀ j, (f j).data.mocked = j.data.mocked) : Marked id (db.map f) := by
  intro k hk hki
  obtain ⟨j, hj, rfl⟩ := List.mem_map.mp hk
  rw [hf]
  rw [hid] at hki
  exact h j hj hki

theorem taken_mocked (env : Env) (now : Int) (crash : Bytes → Bool) (j : Job) :
    (taken env now crash j).data.mocked = j.data.mocked := by
  unfold taken
  repeat' split
  all_goals rfl

theorem Marked.conclude {id i : Int} {j : Job} {r : Bool} {nr : NR} {db db' : Table} (h1 : Marked id db)
    (hc : Jobs.conclude i j r nr db = .ok db') : Marked id db' := by
  rcases conclude_ok hc with ⟨t, _, rfl⟩ | ⟨_, _, _, rfl⟩ | ⟨_, _, _, rfl, _⟩
  · exact h1.set' (fun _ => rfl) fun _ => rfl
  · split
    · exact h1.set' (fun _ => rfl) fun _ => rfl
    · refine Marked.set' (Marked.set' h1 ?_ ?_) ?_ ?_ <;> (intro _; rfl)
  · exact h1.filter _

theorem Marked.finish {id i now : Int} {env : Env} {data : Option (Data × Bool)} {ign : Bool} {retry : Option Retry}
    {db db' : Table} (hm : Marked id db) (h : Jobs.finish env now i data ign retry db = .ok db') : Marked id db' := by
  obtain ⟨_, j, hl, _, _, hd, h⟩ := finish_ok h
  have h0 : Marked id (storeData i data (dropDone i db)) := by
    refine (hm.filter _).set (fun _ => rfl) fun k hk hki hi => ?_
    cases data with
    | none => exact hm k (List.mem_filter.mp hk).1 hki
    | some d =>
      show d.1.mocked = true
      rw [hd d rfl]
      exact hm j (lookup_mem hl).1 ((lookup_mem hl).2.trans hi)
  rcases h with ⟨_, _, rfl⟩ | ⟨_, nr, _, hc⟩
  · refine Marked.map (Marked.set' h0 ?_ ?_) ?_ ?_
    · intro _; rfl
    · intro _; rfl
    · intro c; split <;> rfl
    · intro c; split <;> rfl
  · refine Marked.conclude ?_ hc
    cases retry with
    | none => exact h0
    | some q => exact h0.set' (fun _ => rfl) fun _ => rfl

theorem Marked.processCreate {id i now : Int} {env : Env} {db db' : Table} {mock : Bool} {newId : Int} {n : NewJob}
    (hm : Marked id db) (hn : newId ≠ id) (h : Jobs.processCreate env now db mock newId n = .ok (db', i)) :
    Marked id db' := by
  rcases processCreate_ok h with ⟨_, _, _, _, _, rfl⟩ | ⟨j, _, _, _, _, _, _, rfl⟩ | ⟨_, hl, _, _, rfl⟩
  · exact hm
  · split
    · exact hm.set (fun _ => rfl) fun k hk hki _ => by simp [overwrite, patch, hm k hk hki]
    · exact hm
  · intro k hk hki
    rcases List.mem_append.mp hk with hk | hk
    · exact hm k hk hki
    · rw [List.mem_singleton.mp hk] at hki
      exact absurd hki hn

theorem Marked.step {id now : Int} {env : Env} {op : Op} {db : Table} (hm : Marked id db) (hs : Spares id op) :
    Marked id (Jobs.step env now op db).1 := by
  unfold Jobs.step
  cases op with
  | create single mock ns =>
    dsimp only
    split
    · rename_i h
      exact create_induction ns (fun n hn mock db db' i hP h => Marked.processCreate hP (hs n hn) h) hm h
    · exact hm
  | get pat crash mock prio num =>
    dsimp only
    split
    · rename_i h
      rw [(get_ok h).1]
      refine hm.map (fun j => ?_) fun j => ?_
      · split
        · exact taken_id _ _ _ _
        · rfl
      · split
        · exact taken_mocked _ _ _ _
        · rfl
    · exact hm
  | update i data rep clear nextRun prio =>
    dsimp only
    split
    · rename_i h
      obtain ⟨_, _, j, _, rfl⟩ := update_ok h
      exact hm.set (fun _ => rfl) fun k hk hki _ => hm k hk hki
    · exact hm
  | finish i data ign =>
    dsimp only
    split
    · rename_i h; exact hm.finish h
    · exact hm
  | retry i data ign q =>
    dsimp only
    split
    · rename_i h; exact hm.finish h
    · exact hm
  | cancel i =>
    dsimp only
    split
    · rename_i h
      obtain ⟨_, j, _, _, _, h⟩ := cancel_ok h
      rcases h with ⟨rfl, _⟩ | ⟨_, rfl⟩
      · exact hm
      · split
        · exact hm.set' (fun _ => rfl) fun _ => rfl
        · refine Marked.set' (Marked.set' hm ?_ ?_) ?_ ?_ <;> (intro _; rfl)
    · exact hm
  | fail i data =>
    dsimp only
    split
    · rename_i h
      obtain ⟨_, j, _, _, rfl⟩ := fail_ok h
      refine hm.set (fun _ => rfl) fun k hk hki hi => ?_
      cases data with
      | none => exact hm k hk hki
      | some d => exact hs hi
    · exact hm
  | delete i =>
    dsimp only
    split
    · rename_i h
      obtain ⟨_, j, _, _, _, rfl⟩ := delete_ok h
      exact hm.filter _
    · exact hm
  | requeue ids name dec =>
    dsimp only [requeue]
    refine hm.map (fun j => ?_) fun j => ?_ <;> split <;> try rfl
    split <;> rfl

/-- The jobs given out by a GetJob without `mockRequest`. -/
def realJobs : List (Int × Op) → List Ans → List Job
  | (_, .get _ _ false _ _) :: ops, .jobs l :: as => l ++ realJobs ops as
  | _ :: ops, _ :: as => realJobs ops as
  | _, _ => []

/-- C76: a mocked job stays one, whatever is done to it, and is never handed to a client that does not ask for mocked
jobs.  "Partial" because FailJob with new data is excluded (`c76_fail_unmarks`). -/
theorem c76_stays_mocked_partial {env : Env} {id : Int} (ops : List (Int × Op)) (hs : ∀ o ∈ ops, Spares id o.2) :
    ∀ {db : Table}, Marked id db → Marked id (run env db ops).1 ∧
      ∀ j ∈ realJobs ops (run env db ops).2, j.id ≠ id := by
  induction ops with
  | nil => intro db hm; exact ⟨hm, by simp [realJobs]⟩
  | cons o ops ih =>
    intro db hm
    obtain ⟨now, op⟩ := o
    have hnext := ih (fun o ho => hs o (List.mem_cons_of_mem _ ho)) (hm.step (env := env) (now := now) (hs _ List.mem_cons_self))
    refine ⟨hnext.1, ?_⟩
    intro j hj
    simp only [run] at hj
    unfold realJobs at hj
    split at hj
    · rename_i he1 he2
      injection he1 with he1 he1'
      injection he2 with he2 he2'
      injection he1 with _ he1
      subst he1 he1' he2'
      rcases List.mem_append.mp hj with hj | hj
      · intro hid
        simp only [Jobs.step] at he2
        split at he2
        · rename_i hg
          injection he2 with he2
          subst he2
          rw [(get_ok hg).2] at hj
          obtain ⟨h1, h2⟩ := mem_select (List.mem_filter.mp hj).1
          have := hm j h1 hid
          obtain ⟨_, _, _, h4⟩ := eligible_iff.mp h2
          simp [this] at h4
        · simp at he2
      · exact hnext.2 j hj
    · rename_i he1 he2
      injection he1 with he1 he1'
      injection he2 with he2 he2'
      subst he1' he2'
      exact hnext.2 j hj
    · simp at hj

/-- A mocked job and a real one; the mocked one is updated and retried, and the real client gets the other. -/
def dbMock : Table := [{ id := 1, state := .queued, data := { mocked := true } }, { id := 2, state := .queued }]

def opsMock : List (Int × Op) :=
  [(100, .update 1 { rest := 3 } none false none none), (200, .get (fun _ => true) (fun _ => false) false none 5)]

example : Marked 1 dbMock ∧ (∀ o ∈ opsMock, Spares 1 o.2) ∧
    (realJobs opsMock (run env0 dbMock opsMock).2).map (·.id) = [2] := by
  refine ⟨?_, ?_, by decide +kernel⟩
  · intro k hk hid
    simp [dbMock] at hk
    rcases hk with rfl | rfl <;> simp_all
  · intro o ho
    simp [opsMock] at ho
    rcases ho with rfl | rfl <;> trivial

/-- C76: FailJob with new data takes the mark away, and a requeued job is then handed to a real client. -/
theorem c76_fail_unmarks :
    let all : Bytes → Bool := fun _ => true
    let no : Bytes → Bool := fun _ => false
    (run env0 [] [
      (100, .create true true [({ name := [97] }, 7)]),
      (200, .get all no true none 1),
      (300, .fail 7 (some { rest := 1 })),
      (400, .requeue [7] none false),
      (500, .get all no false none 1)]).2.getLast?.any (fun a => match a with
        | .jobs l => l.map (·.id) = [7]
        | _ => false) = true := by
  decide +kernel

/-- What creating jobs maintains: the mocked jobs that were there are there, and the others are mocked and do not
repeat or are no children of mocked ones. -/
structure Creating (db0 : Table) (mock : Bool) (db : Table) : Prop where
  uniq : Uniq db
  kept : ∀ k ∈ db0, k.data.mocked = true → ∃ j ∈ db, j.id = k.id ∧ j.data.mocked = true
  new : ∀ j ∈ db, (∃ k ∈ db0, k.id = j.id) ∨
    (if mock then j.data.mocked = true ∧ j.rep = none else ∀ p ∈ db0, p.data.mocked = true → j.parent ≠ 0 → p.id ≠ j.parent)

theorem Creating.processCreate {env : Env} {now newId i : Int} {n : NewJob} {mock : Bool} {db0 db db' : Table}
    (hc : Creating db0 mock db) (h : Jobs.processCreate env now db mock newId n = .ok (db', i)) : Creating db0 mock db' := by
  have hu := processCreate_uniq hc.uniq h
  rcases processCreate_ok h with ⟨_, _, _, _, _, rfl⟩ | ⟨j, _, _, _, _, _, _, rfl⟩ | ⟨_, hl, _, hp, rfl⟩
  · exact hc
  · split at hu
    · rename_i ho
      rw [if_pos ho]
      refine ⟨hu, ?_, ?_⟩
      · intro k hk hm
        obtain ⟨x, hx, h1, h2⟩ := hc.kept k hk hm
        refine ⟨_, mem_set.mpr ⟨x, hx, rfl⟩, ?_⟩
        split
        · exact ⟨h1, by simp [overwrite, patch, h2]⟩
        · exact ⟨h1, h2⟩
      · intro x hx
        obtain ⟨y, hy, rfl⟩ := mem_set.mp hx
        split
        · rcases hc.new y hy with hn | hn
          · exact Or.inl hn
          · right
            cases mock with
            | true => exact ⟨by simp [overwrite, patch, hn.1], rfl⟩
            | false => exact hn
        · exact hc.new y hy
    · rename_i ho
      rw [if_neg ho]
      exact hc
  · refine ⟨hu, ?_, ?_⟩
    · intro k hk hm
      obtain ⟨x, hx, h⟩ := hc.kept k hk hm
      exact ⟨x, List.mem_append_left _ hx, h⟩
    · intro x hx
      rcases List.mem_append.mp hx with hx | hx
      · exact hc.new x hx
      · right
        rw [List.mem_singleton.mp hx]
        cases mock with
        | true => exact ⟨rfl, rfl⟩
        | false =>
          rw [if_neg (by simp)]
          intro p hpm hm hne hid
          obtain ⟨y, hy, h1, h2⟩ := hc.kept p hpm hm
          rcases checkParent_ok hp with h0 | ⟨q, hq, _, hqm, _⟩
          · exact hne h0
          · have hqy : q = y := by
              have : lookup db y.id = some y := lookup_eq hc.uniq hy
              rw [h1, hid] at this
              exact Option.some.inj (hq.symm.trans this)
            rw [hqy, h2] at hqm
            simp at hqm

theorem Creating.processCreates {env : Env} {now : Int} {mock : Bool} {db0 : Table} :
    ∀ {ns : List (NewJob × Int)} {db db' : Table} {ids : List Int}, Creating db0 mock db →
      Jobs.processCreates env now mock db ns = .ok (db', ids) → Creating db0 mock db'
  | [], db, db', ids, hc, h => by
    simp only [Jobs.processCreates] at h
    injection h with h
    injection h with h1 _
    subst h1
    exact hc
  | (n, newId) :: ns, db, db', ids, hc, h => by
    simp only [Jobs.processCreates] at h
    split at h
    · simp at h
    rename_i db1 i h1
    split at h
    · simp at h
    rename_i db2 ids2 h2
    injection h with h
    injection h with h3 _
    subst h3
    exact Creating.processCreates (hc.processCreate h1) h2

theorem Creating.start {db : Table} (hu : Uniq db) (mock : Bool) : Creating db mock db :=
  ⟨hu, fun k hk hm => ⟨k, hk, rfl, hm⟩, fun j hj => Or.inl ⟨j, hj, rfl⟩⟩

theorem peekCreates_mock {db : Table} {single : Bool} : ∀ {ns : List NewJob} {o : Option Int} {m : Bool},
    (∀ n ∈ ns, n.parent = 0) → peekCreates db single true true ns = .ok (m, o) → m = true
  | [], o, m, _, h => by
    simp only [peekCreates] at h
    injection h with h
    injection h with h _
    exact h.symm
  | n :: ns, o, m, hp, h => by
    have hone : ∀ m' o', peekCreate db single true true n = .ok (m', o') → m' = true := by
      intro m' o' hc
      unfold peekCreate at hc
      rw [hp n List.mem_cons_self] at hc
      simp only [peekParent, if_true] at hc
      repeat' split at hc
      all_goals first
        | (simp at hc; done)
        | (injection hc with hc; injection hc with hc _; rw [← hc])
    simp only [peekCreates] at h
    split at h
    · simp at h
    · rename_i m' i hc
      injection h with h
      injection h with h _
      rw [← h]; exact hone _ _ hc
    · rename_i m' hc
      rw [hone _ _ hc] at h
      exact peekCreates_mock (fun n hn => hp n (List.mem_cons_of_mem _ hn)) h

/-- C76: the jobs a mocked request creates are mocked and do not repeat, whatever repeat it asks for. -/
theorem c76_created_mocked {env : Env} {now : Int} {single : Bool} {ns : List (NewJob × Int)} {db db' : Table}
    {ids : List Int} (hu : Uniq db) (hp : ∀ n ∈ ns, n.1.parent = 0)
    (h : create env now single true ns db = .ok (db', ids)) :
    ∀ j ∈ db', (∀ k ∈ db, k.id ≠ j.id) → j.data.mocked = true ∧ j.rep = none := by
  intro j hj hnew
  unfold create at h
  split at h
  · simp at h
  · injection h with h
    injection h with h1 _
    subst h1
    exact absurd rfl (hnew j hj)
  · rename_i m hm
    have : m = true := peekCreates_mock (by
      intro n hn
      obtain ⟨x, hx, rfl⟩ := List.mem_map.mp hn
      exact hp x hx) hm
    subst this
    rcases ((Creating.start hu true).processCreates h).new j hj with ⟨k, hk, hid⟩ | h
    · exact absurd hid (hnew k hk)
    · simpa using h

/-- C76: a new child of a mocked job is mocked and does not repeat, also if the request is not a mocked one. -/
theorem c76_child_of_mocked {env : Env} {now : Int} {single mock : Bool} {ns : List (NewJob × Int)} {db db' : Table}
    {ids : List Int} (hu : Uniq db) (h : create env now single mock ns db = .ok (db', ids)) :
    ∀ j ∈ db', (∀ k ∈ db, k.id ≠ j.id) → j.parent ≠ 0 → (∃ p ∈ db, p.id = j.parent ∧ p.data.mocked = true) →
      j.data.mocked = true ∧ j.rep = none := by
  intro j hj hnew hp0 hp
  obtain ⟨p, hp, hpid, hpm⟩ := hp
  unfold create at h
  split at h
  · simp at h
  · injection h with h
    injection h with h1 _
    subst h1
    exact absurd rfl (hnew j hj)
  · rename_i m hm
    rcases ((Creating.start hu m).processCreates h).new j hj with ⟨k, hk, hid⟩ | h
    · exact absurd hid (hnew k hk)
    · split at h
      · exact h
      · exact absurd hpid (h p hp hpm hp0)

/-- A request that is not mocked adds a child to a mocked running job. -/
example : (create env0 100 true false [({ name := [98], parent := 3, rep := some 1 }, 9)]
      [{ id := 3, state := .running, data := { mocked := true } }]).toOption.map
        (·.1.map fun j => (j.id, j.data.mocked, j.rep)) =
    some [(3, true, none), (9, true, none)] := by decide +kernel

/-- **C76** What a request for a child is told by its parent: none without a parent that may have children; else the new job is
mocked exactly if the parent is, when the request itself says otherwise. -/
theorem c76_parent_decides {db : Table} {reqMock mock : Bool} {parent : Int} (hp : parent ≠ 0) (p : Job)
    (hl : lookup db parent = some p) (hc : canHaveChildren p.state = true) :
    peekParent db reqMock mock parent = .ok (if p.data.mocked = reqMock then mock else p.data.mocked) := by
  unfold peekParent
  rw [if_neg hp, hl]
  cases h1 : p.data.mocked <;> cases reqMock <;> simp [hc, h1]

/-- **C76** A single job below a mocked parent is looked up and created as mocked, whatever the request says. -/
theorem c76_mocked_parent {db : Table} {reqMock : Bool} {n : NewJob} {m : Bool} {o : Option Int} (hp : n.parent ≠ 0) (p : Job)
    (hl : lookup db n.parent = some p) (hm : p.data.mocked = true)
    (h : peekCreate db true reqMock reqMock n = .ok (m, o)) : m = true := by
  have hd : ∀ x, peekParent db reqMock reqMock n.parent = .ok x → x = true := by
    intro x hx
    unfold peekParent at hx
    rw [if_neg hp, hl] at hx
    dsimp only at hx
    rw [hm] at hx
    repeat' split at hx
    all_goals first
      | (simp at hx; done)
      | (rename_i h; exact absurd h.1 (by decide))
      | (injection hx with hx; rw [← hx]; done)
      | (injection hx with hx; rw [← hx]; cases reqMock <;> simp_all)
  unfold peekCreate at h
  split at h
  · cases h
  · split at h
    · cases h
    · rename_i x hx
      have := hd x hx
      repeat' split at h
      all_goals first
        | (simp at h; done)
        | (injection h with h; injection h with h _; rw [← h]; exact this)

example : ∃ (db : Table) (n : NewJob) (p : Job), n.parent ≠ 0 ∧ lookup db n.parent = some p ∧ p.data.mocked = true ∧
    peekCreate db true false false n = .ok (true, none) := by
  refine ⟨[{ id := 7, name := [65], state := .running, data := { mocked := true } }], { name := [65], parent := 7 },
    { id := 7, name := [65], state := .running, data := { mocked := true } }, ?_⟩
  exact ⟨by decide, rfl, rfl, rfl⟩

end Bedrock.Jobs.Props
