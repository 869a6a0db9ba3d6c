import Verif.Lemmas.Jobs

/-!
# C44, C45: handing out jobs
-/

namespace Bedrock.Jobs.Props
open Bedrock Bedrock.Jobs

/-! ## C45 -/

/-- `c` goes before `a`: higher priority, or the same priority and due no later. -/
def Before (c a : Job) : Prop :=
  ∃ p q, c.priority = .num p ∧ a.priority = .num q ∧ (q < p ∨ (p = q ∧ c.nextRun ≤ a.nextRun))

/-- A job GetJobs may hand out or fail: waiting, due, of the wanted names, and mocked only if asked for. -/
def Due (now : Int) (pat : Bytes → Bool) (mock : Bool) (prio : Option Int) (a : Job) : Prop :=
  (a.state = .queued ∨ a.state = .runqueued) ∧ a.nextRun ≤ now ∧ pat a.name = true ∧
  (mock = true ∨ a.data.mocked = false) ∧
  match prio with
  | some p => a.priority = .num p
  | none => ∃ p, validPriority p = true ∧ a.priority = .num p

theorem take_pairwise {R : Job → Job → Prop} {l : List Job} (h : l.Pairwise R) {a : Job} (ha : a ∈ l) {n : Nat}
    (hn : a ∉ l.take n) : (l.take n).length = n ∧ ∀ c ∈ l.take n, R c a := by
  have hd : a ∈ l.drop n := by
    rw [← List.take_append_drop n l] at ha
    rcases List.mem_append.mp ha with h' | h'
    · exact absurd h' hn
    · exact h'
  constructor
  · rw [List.length_take]
    have : 0 < (l.drop n).length := List.length_pos_of_mem hd
    rw [List.length_drop] at this
    omega
  · intro c hc
    rw [← List.take_append_drop n l, List.pairwise_append] at h
    exact h.2.2 c hc a hd

theorem candidatesAt_pairwise (now : Int) (pat : Bytes → Bool) (mock : Bool) (n : Nat) (db : Table) (p : Int) :
    (candidatesAt now pat mock n db p).Pairwise (fun a b => a.nextRun ≤ b.nextRun) := by
  unfold candidatesAt byNextRun
  have h := pairwise_sortBy (le := fun a b : Job => decide (a.nextRun ≤ b.nextRun))
    (by intro a b c h1 h2; simp at *; omega) (by intro a b; simp; omega)
    (db.filter fun j => eligible now pat mock j ∧ j.priority = .num p)
  exact (h.imp (by intro a b h; simpa using h)).sublist (List.take_sublist _ _)

theorem candidatesAt_left {now : Int} {pat : Bytes → Bool} {mock : Bool} {n : Nat} {db : Table} {p : Int} {a : Job}
    (ha : a ∈ db) (he : eligible now pat mock a = true) (hp : a.priority = .num p)
    (hn : a ∉ candidatesAt now pat mock n db p) :
    (candidatesAt now pat mock n db p).length = n ∧
      ∀ c ∈ candidatesAt now pat mock n db p, c.nextRun ≤ a.nextRun := by
  unfold candidatesAt byNextRun at *
  have h := pairwise_sortBy (le := fun a b : Job => decide (a.nextRun ≤ b.nextRun))
    (by intro a b c h1 h2; simp at *; omega) (by intro a b; simp; omega)
    (db.filter fun j => eligible now pat mock j ∧ j.priority = .num p)
  have := take_pairwise h (a := a) (n := n) (mem_sortBy.mpr (List.mem_filter.mpr ⟨ha, by simp [he, hp]⟩)) hn
  exact ⟨this.1, fun c hc => by simpa using this.2 c hc⟩

theorem flatMap_pairwise (now : Int) (pat : Bytes → Bool) (mock : Bool) (n : Nat) (db : Table) (ps : List Int)
    (h : ps.Pairwise (· > ·)) : (ps.flatMap (candidatesAt now pat mock n db)).Pairwise Before := by
  induction ps with
  | nil => simp
  | cons p ps ih =>
    rw [List.pairwise_cons] at h
    rw [List.flatMap_cons, List.pairwise_append]
    refine ⟨?_, ih h.2, ?_⟩
    · refine (List.pairwise_iff_forall_sublist.mpr ?_)
      intro a b hs
      have hab := List.pairwise_iff_forall_sublist.mp (candidatesAt_pairwise now pat mock n db p) hs
      have ha := (mem_candidatesAt (hs.subset (by simp : a ∈ [a, b]))).2.2
      have hb := (mem_candidatesAt (hs.subset (by simp : b ∈ [a, b]))).2.2
      exact ⟨p, p, ha, hb, Or.inr ⟨rfl, hab⟩⟩
    · intro a ha b hb
      obtain ⟨q, hq, hb⟩ := List.mem_flatMap.mp hb
      exact ⟨p, q, (mem_candidatesAt ha).2.2, (mem_candidatesAt hb).2.2, Or.inl (h.1 q hq)⟩

theorem select_none_eq (now : Int) (pat : Bytes → Bool) (mock : Bool) (n : Nat) (db : Table) :
    select now pat mock none n db = ([1000, 850, 750, 500, 250, 0].flatMap (candidatesAt now pat mock n db)).take n := by
  unfold select
  dsimp only
  rw [sortBy_of_pairwise]
  refine (flatMap_pairwise now pat mock n db _ (by decide)).imp ?_
  rintro a b ⟨p, q, ha, hb, h⟩
  simp [rank, ha, hb]
  omega

theorem select_left {now : Int} {pat : Bytes → Bool} {mock : Bool} {prio : Option Int} {n : Nat} {db : Table} {a : Job}
    (ha : a ∈ db) (hd : Due now pat mock prio a) (hn : a ∉ select now pat mock prio n db) :
    (select now pat mock prio n db).length = n ∧ ∀ c ∈ select now pat mock prio n db, Before c a := by
  obtain ⟨h1, h2, h3, h4, h5⟩ := hd
  have he : eligible now pat mock a = true := eligible_iff.mpr ⟨h1, h2, h3, h4⟩
  cases prio with
  | some p =>
    have := candidatesAt_left ha he h5 hn
    exact ⟨this.1, fun c hc => ⟨p, p, (mem_candidatesAt hc).2.2, h5, Or.inr ⟨rfl, this.2 c hc⟩⟩⟩
  | none =>
    obtain ⟨p, hv, hp⟩ := h5
    have hmem : p ∈ ([1000, 850, 750, 500, 250, 0] : List Int) := by
      simp [validPriority] at hv ⊢
      omega
    have hsorted : ([1000, 850, 750, 500, 250, 0] : List Int).Pairwise (· > ·) := by decide
    rw [select_none_eq] at hn ⊢
    generalize ([1000, 850, 750, 500, 250, 0] : List Int) = ps at hmem hsorted hn ⊢
    by_cases hF : a ∈ ps.flatMap (candidatesAt now pat mock n db)
    · exact take_pairwise (flatMap_pairwise now pat mock n db _ hsorted) hF hn
    · have hc : a ∉ candidatesAt now pat mock n db p := fun h => hF (List.mem_flatMap.mpr ⟨p, hmem, h⟩)
      obtain ⟨hlen, hle⟩ := candidatesAt_left ha he hp hc
      obtain ⟨l1, l2, rfl⟩ := List.append_of_mem hmem
      rw [List.pairwise_append] at hsorted
      have hsplit : (l1 ++ p :: l2).flatMap (candidatesAt now pat mock n db) =
          (l1.flatMap (candidatesAt now pat mock n db) ++ candidatesAt now pat mock n db p) ++
            l2.flatMap (candidatesAt now pat mock n db) := by simp
      rw [hsplit, List.take_append_of_le_length (by simp [hlen])]
      constructor
      · rw [List.length_take, List.length_append, hlen]; omega
      · intro c hc
        rcases List.mem_append.mp (List.mem_of_mem_take hc) with hc | hc
        · obtain ⟨q, hq, hc⟩ := List.mem_flatMap.mp hc
          exact ⟨q, p, (mem_candidatesAt hc).2.2, hp, Or.inl (hsorted.2.2 q hq p (by simp))⟩
        · exact ⟨p, p, (mem_candidatesAt hc).2.2, hp, Or.inr ⟨rfl, hle c hc⟩⟩

theorem select_length (now : Int) (pat : Bytes → Bool) (mock : Bool) (prio : Option Int) (n : Nat) (db : Table) :
    (select now pat mock prio n db).length ≤ n := by
  unfold select
  split
  · unfold candidatesAt; rw [List.length_take]; omega
  · rw [List.length_take]; omega

theorem select_due {now : Int} {pat : Bytes → Bool} {mock : Bool} {prio : Option Int} {n : Nat} {db : Table} {a : Job}
    (h : a ∈ select now pat mock prio n db) : Due now pat mock prio a := by
  obtain ⟨h1, h2, h3, h4⟩ := eligible_iff.mp (mem_select h).2
  refine ⟨h1, h2, h3, h4, ?_⟩
  cases prio with
  | some p => exact (mem_candidatesAt h).2.2
  | none =>
    rw [select_none_eq] at h
    obtain ⟨p, hp, h⟩ := List.mem_flatMap.mp (List.mem_of_mem_take h)
    exact ⟨p, by simp [validPriority] at hp ⊢; omega, (mem_candidatesAt h).2.2⟩

/-- C45: GetJobs returns at most the requested number of jobs, all of them due, and in order. -/
theorem c45_returned {env : Env} {now : Int} {pat crash : Bytes → Bool} {mock : Bool} {prio : Option Int} {num : Int}
    {db db' : Table} {l : List Job} (h : get env now pat crash mock prio num db = .ok (db', l)) :
    (l.length : Int) ≤ max num 1 ∧
    (∀ j ∈ l, j ∈ db ∧ Due now pat mock prio j ∧ crash j.name = false) ∧
    l.Pairwise Before := by
  have hl := (get_ok h).2
  subst hl
  refine ⟨?_, ?_, ?_⟩
  · have h1 := select_length now pat mock prio (max num 1).toNat db
    have h2 := List.length_filter_le (fun j => decide (crash j.name = false ∧ count j < 10))
      (select now pat mock prio (max num 1).toNat db)
    omega
  · intro j hj
    rw [List.mem_filter] at hj
    have : crash j.name = false ∧ count j < 10 := by simpa using hj.2
    exact ⟨(mem_select hj.1).1, select_due hj.1, this.1⟩
  · refine List.Pairwise.sublist (List.filter_sublist) ?_
    cases prio with
    | some p =>
      refine (List.pairwise_iff_forall_sublist.mpr ?_)
      intro a b hs
      have hab := List.pairwise_iff_forall_sublist.mp (candidatesAt_pairwise now pat mock (max num 1).toNat db p) hs
      have ha := (mem_candidatesAt (hs.subset (by simp : a ∈ [a, b]))).2.2
      have hb := (mem_candidatesAt (hs.subset (by simp : b ∈ [a, b]))).2.2
      exact ⟨p, p, ha, hb, Or.inr ⟨rfl, hab⟩⟩
    | none =>
      rw [select_none_eq]
      exact (flatMap_pairwise now pat mock _ db _ (by decide)).sublist (List.take_sublist _ _)

/-- C45: a due job that is left behind, and not failed for being blacklisted or retried too often, comes after
every returned one; and then the request was filled, counting the jobs that were failed. -/
theorem c45_best {env : Env} {now : Int} {pat crash : Bytes → Bool} {mock : Bool} {prio : Option Int} {num : Int}
    {db db' : Table} {l : List Job} (h : get env now pat crash mock prio num db = .ok (db', l))
    {a : Job} (ha : a ∈ db) (hd : Due now pat mock prio a) (hok : crash a.name = false ∧ count a < 10) (hn : a ∉ l) :
    (∀ c ∈ l, Before c a) ∧
    ((∀ b ∈ db, crash b.name = false ∧ count b < 10) → (l.length : Int) = max num 1) := by
  have hl := (get_ok h).2
  subst hl
  have hs : a ∉ select now pat mock prio (max num 1).toNat db := by
    intro hs
    exact hn (List.mem_filter.mpr ⟨hs, by simpa using hok⟩)
  obtain ⟨h1, h2⟩ := select_left ha hd hs
  refine ⟨fun c hc => h2 c (List.mem_filter.mp hc).1, ?_⟩
  intro hall
  rw [List.filter_eq_self.mpr]
  · rw [h1]; omega
  · intro b hb
    simpa using hall b (mem_select hb).1

/-- C45: GetJobs answers "no job found" only if nothing is due. -/
theorem c45_none {env : Env} {now : Int} {pat crash : Bytes → Bool} {mock : Bool} {prio : Option Int} {num : Int}
    {db : Table} (h : get env now pat crash mock prio num db = .error .notFound) :
    ∀ a ∈ db, ¬ Due now pat mock prio a := by
  intro a ha hd
  unfold get at h
  split at h
  · simp at h
  · dsimp only at h
    split at h
    · rename_i hnil
      have := (select_left (n := (max num 1).toNat) ha hd (by rw [hnil]; simp)).1
      rw [hnil] at this
      simp at this
      omega
    · simp at h

/-- The environment of the examples: repeats and retries after 1000 ms. -/
def env0 : Env :=
  { scheduled := fun r => r = 1
    next := fun r sched last _ => if r = 1 then .time (sched + 1000) else .time (last + 1000)
    retryAt := fun m now => some (now + m)
    delayed := fun d now => .time (now + d) }

def db0 : Table :=
  [ { id := 1, state := .queued, nextRun := 10 },
    { id := 2, state := .queued, nextRun := 5 },
    { id := 3, state := .queued, nextRun := 50, priority := .num 1000 },
    { id := 4, state := .queued, nextRun := 5000, priority := .num 1000 },
    { id := 5, state := .running, nextRun := 1 } ]

example : (step env0 100 (.get (fun _ => true) (fun _ => false) false none 2) db0).2 =
    .jobs [db0[2], db0[1]] := by decide +kernel
example : Due 100 (fun _ => true) false none db0[0] := by
  refine ⟨by decide, by decide, rfl, Or.inr rfl, 500, by decide, rfl⟩

/-- C45: the text RetryJob is given as priority is stored as it is; "500abc" passes the check and gives a job that
is never handed out again. -/
theorem c45_text_priority :
    let h : List (Int × Op) := [
      (100, .create true false [({ name := [97] }, 7)]),
      (100, .get (fun _ => true) (fun _ => false) false none 1),
      (200, .retry 7 none false { prio := some (500, false) }),
      (1000, .get (fun _ => true) (fun _ => false) true none 10)]
    (run env0 [] h).2 = [.ids [7], .jobs [{ id := 7, state := .queued, name := [97], nextRun := 100 }], .ok,
      .err .notFound] ∧
    (∃ j ∈ (run env0 [] h).1, j.id = 7 ∧ j.state = .queued ∧ j.nextRun ≤ 1000) := by
  intro h
  refine ⟨by decide +kernel, ?_⟩
  have : (run env0 [] h).1 = [{ id := 7, state := .queued, name := [97], nextRun := 200, priority := .text }] := by
    decide +kernel
  rw [this]
  exact ⟨_, List.mem_singleton.mpr rfl, rfl, rfl, by decide⟩

/-! ## C44 -/

/-- Nobody may be given this job before time `t`. -/
def InFlight (t : Int) (j : Job) : Prop :=
  match j.state with
  | .running | .failed | .finished | .cancelled => True
  | .runqueued => t ≤ j.nextRun
  | .queued | .paused => False

/-- A command that does not release job `id`: not finishing, retrying or re-queueing it, not moving its next run
while it waits for its retry, not cancelling one of its children; and no GetJobs at or after time `t`. -/
def Quiet (id t now : Int) (db : Table) : Op → Prop
  | .create _ _ ns => ∀ n ∈ ns, n.2 ≠ id
  | .get .. => now < t
  | .update u _ rep _ nextRun _ => u = id → nextRun = none ∧ rep = none
  | .finish u _ _ => u ≠ id
  | .retry u _ _ _ => u ≠ id
  | .cancel u => ∀ c ∈ db, c.id = u → c.parent = id → c.parent = 0
  | .fail .. => True
  | .delete .. => True
  | .requeue ids _ _ => id ∉ ids

/-- Every command of a history is quiet for `id`. -/
def QuietRun (env : Env) (id t : Int) : Table → List (Int × Op) → Prop
  | _, [] => True
  | db, (now, op) :: ops => Quiet id t now db op ∧ QuietRun env id t (step env now op db).1 ops

/-- The rows of `id` are in flight. -/
def Held (id t : Int) (db : Table) : Prop := ∀ j ∈ db, j.id = id → InFlight t j

theorem inFlight_of_state {t : Int} {j k : Job} (hs : k.state = j.state) (hn : k.nextRun = j.nextRun)
    (h : InFlight t j) : InFlight t k := by
  unfold InFlight at *
  rw [hs, hn]
  exact h

theorem held_not_selected {id t now : Int} {pat : Bytes → Bool} {mock : Bool} {prio : Option Int} {n : Nat}
    {db : Table} (h : Held id t db) (ht : now < t) : ∀ c ∈ select now pat mock prio n db, c.id ≠ id := by
  intro c hc hid
  obtain ⟨hm, he⟩ := mem_select hc
  obtain ⟨hs, hn, _⟩ := eligible_iff.mp he
  have := h c hm hid
  unfold InFlight at this
  rcases hs with hs | hs <;> rw [hs] at this
  · exact this
  · dsimp only at this; omega

theorem held_step {env : Env} {id t now : Int} {op : Op} {db : Table} (hu : Uniq db) (h : Held id t db)
    (hq : Quiet id t now db op) : Held id t (step env now op db).1 := by
  intro k hk hid
  rcases step_row hu hk with hc | ⟨j, hj, hjk, hrow⟩
  · cases op <;> simp only [Created] at hc
    obtain ⟨_, n, hn, hn2, _⟩ := hc
    exact absurd (hn2.symm.trans hid) (hq n hn)
  · have hjid : j.id = id := hjk.trans hid
    have hfl := h j hj hjid
    cases op with
    | create single mock ns =>
      exact inFlight_of_state hrow.1.1 hrow.1.2.1 hfl
    | get pat crash mock prio num =>
      rcases hrow with rfl | ⟨_, c, hc, hcid⟩
      · exact hfl
      · exact absurd (hcid.trans hjid) (held_not_selected h hq c hc)
    | update u data rep clear nextRun prio =>
      rcases hrow with rfl | ⟨hju, run, rfl, hrun⟩
      · exact hfl
      · obtain ⟨h1, h2⟩ := hq (hju.symm.trans hjid)
        rw [hrun h1 h2]
        exact inFlight_of_state rfl rfl hfl
    | finish u data ign =>
      rcases hrow with ⟨hju, _⟩ | ⟨_, rfl | ⟨_, hp, _⟩ | ⟨hp, _⟩⟩
      · exact absurd (hju.symm.trans hjid) hq
      · exact hfl
      · unfold InFlight at hfl; rw [hp] at hfl; exact hfl.elim
      · rw [lookup_eq hu hj] at hp
        simp at hp
        unfold InFlight at hfl; rw [hp] at hfl; exact hfl.elim
    | retry u data ign q =>
      rcases hrow with ⟨hju, _⟩ | ⟨_, rfl | ⟨_, hp, _⟩ | ⟨hp, _⟩⟩
      · exact absurd (hju.symm.trans hjid) hq
      · exact hfl
      · unfold InFlight at hfl; rw [hp] at hfl; exact hfl.elim
      · rw [lookup_eq hu hj] at hp
        simp at hp
        unfold InFlight at hfl; rw [hp] at hfl; exact hfl.elim
    | cancel u =>
      rcases hrow with rfl | ⟨_, rfl⟩ | ⟨⟨c, hc, hcu, hcp, hc0⟩, _⟩
      · exact hfl
      · trivial
      · exact absurd (hq c hc hcu (hcp.trans hjid)) hc0
    | fail u data =>
      rcases hrow with rfl | ⟨_, rfl⟩
      · exact hfl
      · trivial
    | delete u =>
      rw [show k = j from hrow]; exact hfl
    | requeue ids name dec =>
      rcases hrow with rfl | ⟨hin, _⟩
      · exact hfl
      · rw [hjid] at hin; exact absurd hin hq

theorem held_run {env : Env} {id t : Int} {ops : List (Int × Op)} : ∀ {db : Table}, Uniq db → Held id t db →
    QuietRun env id t db ops → ∀ l, Ans.jobs l ∈ (run env db ops).2 → ∀ k ∈ l, k.id ≠ id := by
  induction ops with
  | nil => intro db _ _ _ l hl; simp [run] at hl
  | cons o ops ih =>
    obtain ⟨now, op⟩ := o
    intro db hu h hq l hl k hk
    simp only [run, List.mem_cons] at hl
    rcases hl with hl | hl
    · cases op with
      | get pat crash mock prio num =>
        simp only [step] at hl
        split at hl
        · rename_i db' l' hg
          injection hl with hl
          subst hl
          rw [(get_ok hg).2] at hk
          exact held_not_selected h hq.1 k (List.mem_filter.mp hk).1
        · simp at hl
      | create single mock ns =>
        simp only [step] at hl
        split at hl <;> simp at hl
      | update u data rep clear nextRun prio => simp only [step] at hl; split at hl <;> simp at hl
      | finish u data ign => simp only [step] at hl; split at hl <;> simp at hl
      | retry u data ign q => simp only [step] at hl; split at hl <;> simp at hl
      | cancel u => simp only [step] at hl; split at hl <;> simp at hl
      | fail u data => simp only [step] at hl; split at hl <;> simp at hl
      | delete u => simp only [step] at hl; split at hl <;> simp at hl
      | requeue ids name dec => simp [step] at hl
    · exact ih (step_uniq env now op db hu) (held_step hu h hq.1) hq.2 l hl k hk

/-- The time until which a job handed out now is kept from others, Jobs.cpp:955-959: for a job with `retryAfter`
that time, or the next repetition if it is earlier; otherwise for ever. -/
def Until (env : Env) (now : Int) (j : Job) (t : Int) : Prop :=
  ∀ m, j.retryAfter = some m →
    (∀ r, env.retryAt m (sec now) = some r → t ≤ r) ∧
    (∀ rep r, j.rep = some rep → env.next rep j.nextRun (sec now) now = .time r → t ≤ r)

theorem taken_held {env : Env} {now t : Int} {crash : Bytes → Bool} {j : Job} (ht : Until env now j t) :
    InFlight t (taken env now crash j) := by
  unfold taken
  split
  · trivial
  split
  · trivial
  rename_i m hm
  split
  · trivial
  split
  · trivial
  rename_i r hr
  obtain ⟨h1, h2⟩ := ht m hm
  show t ≤ r
  unfold retryTime at hr
  split at hr
  · exact h1 r hr
  · rename_i rep hrep
    split at hr
    · exact h1 r hr
    · simp at hr
    · rename_i t' hnext
      cases hra : env.retryAt m (sec now) with
      | none => rw [hra] at hr; simp at hr
      | some a =>
        rw [hra] at hr
        simp at hr
        have := h1 a hra
        have := h2 rep t' hrep hnext
        omega

/-- C44: a job that was handed out is handed out again only after its retry time, or after a command released it.
For a job without `retryAfter` there is no such time: `t` is arbitrary.  The commands that release a job are those
that `Quiet` excludes; "partial" because cancelling a child is one of them (`c44_cancel_child_twice`). -/
theorem c44_not_again_partial {env : Env} {now : Int} {pat crash : Bytes → Bool} {mock : Bool} {prio : Option Int}
    {num : Int} {db db' : Table} {l : List Job} (hu : Uniq db)
    (h : get env now pat crash mock prio num db = .ok (db', l)) {j : Job} (hj : j ∈ l)
    {t : Int} (ht : Until env now j t) {ops : List (Int × Op)} (hq : QuietRun env j.id t db' ops) :
    ∀ l', Ans.jobs l' ∈ (run env db' ops).2 → ∀ k ∈ l', k.id ≠ j.id := by
  obtain ⟨h1, h2⟩ := get_ok h
  rw [h2] at hj
  obtain ⟨hsel, _⟩ := List.mem_filter.mp hj
  have hu' : Uniq db' := by
    have := step_uniq env now (.get pat crash mock prio num) db hu
    simp only [step, h] at this
    exact this
  refine held_run hu' ?_ hq
  intro k hk hid
  rw [h1] at hk
  obtain ⟨j0, hj0, rfl⟩ := List.mem_map.mp hk
  have hj0id : j0.id = j.id := by
    split at hid
    · rw [taken_id] at hid; exact hid
    · exact hid
  rw [hu.eq hj0 (mem_select hsel).1 hj0id]
  rw [if_pos (by rw [List.any_eq_true]; exact ⟨j, hsel, by simp⟩)]
  exact taken_held ht

/-- C44: IDs stay unique, so the previous theorem applies at every point of a history. -/
theorem c44_ids_unique (env : Env) (ops : List (Int × Op)) : ∀ (db : Table), Uniq db → Uniq (run env db ops).1 := by
  induction ops with
  | nil => intro db h; exact h
  | cons o ops ih => intro db h; exact ih _ (step_uniq env o.1 o.2 db h)

/-- C44: what is handed out was waiting and due; failed, cancelled, finished and paused jobs and jobs of the future
never are. -/
theorem c44_only_due {env : Env} {now : Int} {op : Op} {db : Table} {l : List Job}
    (h : (step env now op db).2 = .jobs l) :
    ∀ j ∈ l, j ∈ db ∧ (j.state = .queued ∨ j.state = .runqueued) ∧ j.nextRun ≤ now := by
  intro j hj
  cases op with
  | get pat crash mock prio num =>
    simp only [step] at h
    split at h
    · rename_i db' l' hg
      injection h with h
      subst h
      rw [(get_ok hg).2] at hj
      have hsel := (List.mem_filter.mp hj).1
      obtain ⟨hm, he⟩ := mem_select hsel
      obtain ⟨hs, hn, _⟩ := eligible_iff.mp he
      exact ⟨hm, hs, hn⟩
    · simp at h
  | create single mock ns => simp only [step] at h; split at h <;> simp at h
  | update u data rep clear nextRun prio => simp only [step] at h; split at h <;> simp at h
  | finish u data ign => simp only [step] at h; split at h <;> simp at h
  | retry u data ign q => simp only [step] at h; split at h <;> simp at h
  | cancel u => simp only [step] at h; split at h <;> simp at h
  | fail u data => simp only [step] at h; split at h <;> simp at h
  | delete u => simp only [step] at h; split at h <;> simp at h
  | requeue ids name dec => simp [step] at h

/-- A job with a retry time of 700 that repeats: a quiet history with other commands. -/
example :
    let ops : List (Int × Op) := [
      (150, .create true false [({ name := [98] }, 9)]),
      (200, .get (fun _ => true) (fun _ => false) false none 5),
      (300, .update 7 {} none false none (some 1000)),
      (600, .get (fun _ => true) (fun _ => false) false none 5),
      (650, .fail 9 none)]
    let db : Table := [{ id := 7, state := .runqueued, nextRun := 700, retryAfter := some 700 }]
    QuietRun env0 7 700 db ops ∧
    (run env0 db ops).2 = [.ids [9], .jobs [{ id := 9, state := .queued, name := [98], nextRun := 150 }], .ok,
      .err .notFound, .ok] := by
  intro ops db
  refine ⟨⟨?_, ?_, ?_, ?_, ?_, trivial⟩, by decide +kernel⟩
  · intro n hn; simp at hn; rw [hn]; decide
  · show (200 : Int) < 700; decide
  · intro _; exact ⟨rfl, rfl⟩
  · show (600 : Int) < 700; decide
  · trivial

/-- C44 fails without the exclusion: a CancelJob that is sent a second time for a child that is already cancelled
puts the running parent back into the queue, and it is handed out twice with nothing between.  Every table here is
reached from the empty one. -/
theorem c44_cancel_child_twice :
    let all : Bytes → Bool := fun _ => true
    let no : Bytes → Bool := fun _ => false
    let h : List (Int × Op) := [
      (100, .create true false [({ name := [112] }, 1)]),
      (100, .get all no false none 1),
      (100, .create true false [({ name := [99], parent := 1 }, 2)]),
      (100, .finish 1 none false),
      (100, .cancel 2),
      (100, .get all no false none 1),
      (100, .cancel 2),
      (100, .get all no false none 1)]
    ∃ a b c : Job, (run env0 [] h).2 =
      [.ids [1], .jobs [a], .ids [2], .ok, .ok, .jobs [b], .ok, .jobs [c]] ∧ a.id = 1 ∧ b.id = 1 ∧ c.id = 1 :=
  ⟨{ id := 1, state := .queued, name := [112], nextRun := 100 },
   { id := 1, state := .queued, name := [112], nextRun := 0 },
   { id := 1, state := .queued, name := [112], nextRun := 0 },
   by decide +kernel, rfl, rfl, rfl⟩

end Bedrock.Jobs.Props
