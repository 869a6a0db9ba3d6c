import Verif.Model.AfterCommit

/-! # C123: what follows a commit -/

namespace Bedrock.AfterCommit.Props
open Bedrock.AfterCommit

/-! ## What is meant -/

/-- The thread is in the part that only one may be in. -/
def Inside : Pc → Prop
  | .test | .ckpt | .zero | .clear => True
  | _ => False

/-- The thread has the commit lock. -/
def Holds : Pc → Prop
  | .locked | .conflicted => True
  | _ => False

/-- Commits and callbacks of one thread. -/
def ofThread (t : Nat) : Ev → Bool
  | .committed u => u == t
  | .hook u _ => u == t
  | .checkpointed _ => false

/-- One commit and its callbacks, in order. -/
def full (n t : Nat) : List Ev := .committed t :: (List.range n).map (.hook t)

/-- `c` commits. -/
def times (n t c : Nat) : List Ev := (List.replicate c (full n t)).flatten

/-! ## The invariant -/

def Told (n t : Nat) (l : List Ev) : Pc → Prop
  | .hooks k => k ≤ n ∧ ∃ c, l = times n t c ++ .committed t :: (List.range k).map (.hook t)
  | _ => ∃ c, l = times n t c

structure Inv (n : Nat) (s : St) : Prop where
  own : ∀ t, s.owner = some t ↔ Holds (s.pc t)
  one : ∀ t u, Inside (s.pc t) → Inside (s.pc u) → t = u
  flag : s.busy = true ↔ ∃ t, Inside (s.pc t)
  told : ∀ t, Told n t (s.log.filter (ofThread t)) (s.pc t)

theorem inv_init (n : Nat) : Inv n {} where
  own := by intro t; simp [Holds]
  one := by intro t u h; exact absurd h (by simp [Inside])
  flag := by simp [Inside]
  told := by intro t; exact ⟨0, rfl⟩

@[simp] theorem at_pc (s : St) (t u : Nat) (p : Pc) : (s.at t p).pc u = if u = t then p else s.pc u := rfl
@[simp] theorem at_owner (s : St) (t : Nat) (p : Pc) : (s.at t p).owner = s.owner := rfl
@[simp] theorem at_busy (s : St) (t : Nat) (p : Pc) : (s.at t p).busy = s.busy := rfl
@[simp] theorem at_log (s : St) (t : Nat) (p : Pc) : (s.at t p).log = s.log := rfl
@[simp] theorem at_out (s : St) (t : Nat) (p : Pc) : (s.at t p).outstanding = s.outstanding := rfl
@[simp] theorem at_wal (s : St) (t : Nat) (p : Pc) : (s.at t p).wal = s.wal := rfl

/-- A thread moves and nothing else of the invariant's concern changes for the others. -/
theorem inv_move {n : Nat} {s s' : St} {t : Nat} {p : Pc} (h : Inv n s)
    (hpc : s'.pc = fun u => if u = t then p else s.pc u)
    (hown : (s'.owner = s.owner ∧ (Holds p ↔ Holds (s.pc t))) ∨
      (s'.owner = some t ∧ Holds p ∧ s.owner = none) ∨ (s'.owner = none ∧ ¬ Holds p ∧ Holds (s.pc t)))
    (hins : (s'.busy = s.busy ∧ (Inside p ↔ Inside (s.pc t))) ∨
      (s'.busy = true ∧ Inside p ∧ s.busy = false) ∨ (s'.busy = false ∧ ¬ Inside p ∧ Inside (s.pc t)))
    (hlog : ∀ u, u ≠ t → s'.log.filter (ofThread u) = s.log.filter (ofThread u))
    (htold : Told n t (s'.log.filter (ofThread t)) p) : Inv n s' where
  own := by
    intro u
    rw [hpc]
    by_cases hu : u = t
    · subst hu
      simp only [if_true]
      rcases hown with ⟨e, i⟩ | ⟨e, i, _⟩ | ⟨e, i, _⟩
      · rw [e, i]; exact h.own u
      · rw [e]; simp [i]
      · rw [e]; simp [i]
    · simp only [hu, if_false]
      rcases hown with ⟨e, i⟩ | ⟨e, i, o⟩ | ⟨e, i, o⟩
      · rw [e]; exact h.own u
      · rw [e, ← h.own u, o]; simp [Ne.symm hu]
      · rw [e, ← h.own u, (h.own t).mpr o]; simp [Ne.symm hu]
  one := by
    intro u v
    rw [hpc]
    have key : ∀ v, v ≠ t → Inside p → Inside (s.pc v) → False := by
      intro v hv hp hi
      rcases hins with ⟨_, i⟩ | ⟨_, _, o⟩ | ⟨_, i, _⟩
      · exact hv (h.one v t hi (i.mp hp))
      · have := h.flag.mpr ⟨v, hi⟩; rw [o] at this; cases this
      · exact i hp
    by_cases hu : u = t
    · by_cases hv : v = t
      · intros; rw [hu, hv]
      · simp only [hu, hv, if_true, if_false]
        intro a b; exact (key v hv a b).elim
    · by_cases hv : v = t
      · simp only [hu, hv, if_true, if_false]
        intro a b; exact (key u hu b a).elim
      · simp only [hu, hv, if_false]; exact h.one u v
  flag := by
    rw [hpc]
    rcases hins with ⟨e, i⟩ | ⟨e, i, _⟩ | ⟨e, i, o⟩
    · rw [e, h.flag]
      constructor
      · rintro ⟨v, hv⟩
        refine ⟨v, ?_⟩
        by_cases hvt : v = t
        · subst hvt; simp only [if_true]; exact i.mpr hv
        · simp only [hvt, if_false]; exact hv
      · rintro ⟨v, hv⟩
        refine ⟨v, ?_⟩
        by_cases hvt : v = t
        · subst hvt; simp only [if_true] at hv; exact i.mp hv
        · simp only [hvt, if_false] at hv; exact hv
    · rw [e]; simp only [true_iff]; exact ⟨t, by simp only [if_true]; exact i⟩
    · rw [e]; simp only [Bool.false_eq_true, false_iff]
      rintro ⟨v, hv⟩
      by_cases hvt : v = t
      · subst hvt; simp only [if_true] at hv; exact i hv
      · simp only [hvt, if_false] at hv; exact hvt (h.one v t hv o)
  told := by
    intro u
    rw [hpc]
    by_cases hu : u = t
    · subst hu; simp only [if_true]; exact htold
    · simp only [hu, if_false]; rw [hlog u hu]; exact h.told u

theorem filter_snoc (l : List Ev) (e : Ev) (t : Nat) :
    (l ++ [e]).filter (ofThread t) = l.filter (ofThread t) ++ if ofThread t e then [e] else [] := by
  rw [List.filter_append, List.filter_cons, List.filter_nil]

theorem times_succ (n t c : Nat) : times n t (c + 1) = times n t c ++ full n t := by
  unfold times
  rw [List.replicate_succ', List.flatten_append]; simp

theorem inv_step {n : Nat} {s s' : St} {t : Nat} {a : Act} (h : Inv n s) (hs : step n s t a = some s') : Inv n s' := by
  have ht := h.told t
  unfold step at hs
  split at hs
  · -- lock
    split at hs
    · rename_i hc
      injection hs with hs; subst hs
      rw [hc.1] at ht
      exact inv_move h rfl (.inr (.inl ⟨rfl, trivial, hc.2⟩)) (.inl ⟨rfl, by rw [hc.1]; simp [Inside]⟩)
        (fun _ _ => rfl) ht
    · cases hs
  · -- commit
    split at hs
    · rename_i f st hc
      injection hs with hs; subst hs
      rw [hc] at ht
      refine inv_move h rfl (.inr (.inr ⟨rfl, by simp [Holds], by rw [hc]; trivial⟩))
        (.inl ⟨rfl, by rw [hc]; simp [Inside]⟩) (fun u hu => ?_) ?_
      · simp only [at_log, filter_snoc]; simp [ofThread, Ne.symm hu]
      · obtain ⟨c, hc⟩ := ht
        refine ⟨Nat.zero_le _, c, ?_⟩
        simp only [at_log, filter_snoc]; simp [ofThread, hc]
    · cases hs
  · -- conflict
    split at hs
    · rename_i hc
      injection hs with hs; subst hs
      rw [hc] at ht
      exact inv_move h rfl (.inl ⟨rfl, by rw [hc]; simp [Holds]⟩) (.inl ⟨rfl, by rw [hc]; simp [Inside]⟩)
        (fun _ _ => rfl) ht
    · cases hs
  · -- rollback
    split at hs
    · rename_i hc
      injection hs with hs; subst hs
      have hh : Holds (s.pc t) := by rcases hc with hc | hc <;> rw [hc] <;> trivial
      have hi : ¬ Inside (s.pc t) := by rcases hc with hc | hc <;> rw [hc] <;> simp [Inside]
      refine inv_move h rfl (.inr (.inr ⟨rfl, by simp [Holds], hh⟩)) (.inl ⟨rfl, ⟨fun x => x.elim, fun x => (hi x).elim⟩⟩)
        (fun _ _ => rfl) ?_
      rcases hc with hc | hc <;> rw [hc] at ht <;> exact ht
    · cases hs
  · -- go
    split at hs
    · -- hooks
      rename_i k hk
      rw [hk] at ht
      obtain ⟨hkn, c, hc⟩ := ht
      injection hs with hs; subst hs
      split
      · rename_i hlt
        refine inv_move h rfl (.inl ⟨rfl, by rw [hk]; simp [Holds]⟩) (.inl ⟨rfl, by rw [hk]; simp [Inside]⟩)
          (fun u hu => ?_) ?_
        · simp only [runHook, at_log, filter_snoc]; simp [ofThread, Ne.symm hu]
        · refine ⟨hlt, c, ?_⟩
          simp only [runHook, at_log, filter_snoc, hc]
          simp [ofThread, List.range_succ]
      · rename_i hlt
        have e : k = n := by omega
        subst e
        refine inv_move h rfl (.inl ⟨rfl, by rw [hk]; simp [Holds]⟩) (.inl ⟨rfl, by rw [hk]; simp [Inside]⟩)
          (fun _ _ => rfl) ?_
        refine ⟨c + 1, ?_⟩
        rw [times_succ]; exact hc
    · -- tas
      rename_i hk
      rw [hk] at ht
      injection hs with hs; subst hs
      split
      · exact inv_move h rfl (.inl ⟨rfl, by rw [hk]; simp [Holds]⟩) (.inl ⟨rfl, by rw [hk]; simp [Inside]⟩)
          (fun _ _ => rfl) ht
      · rename_i hb
        exact inv_move h rfl (.inl ⟨rfl, by rw [hk]; simp [Holds]⟩)
          (.inr (.inl ⟨rfl, trivial, by simpa using hb⟩)) (fun _ _ => rfl) ht
    · -- test
      rename_i hk
      rw [hk] at ht
      injection hs with hs; subst hs
      split
      · exact inv_move h rfl (.inl ⟨rfl, by rw [hk]; simp [Holds]⟩) (.inl ⟨rfl, by rw [hk]; simp [Inside]⟩)
          (fun _ _ => rfl) ht
      · exact inv_move h rfl (.inl ⟨rfl, by rw [hk]; simp [Holds]⟩) (.inl ⟨rfl, by rw [hk]; simp [Inside]⟩)
          (fun _ _ => rfl) ht
    · -- ckpt
      rename_i hk
      rw [hk] at ht
      injection hs with hs; subst hs
      refine inv_move h rfl (.inl ⟨rfl, by rw [hk]; simp [Holds]⟩) (.inl ⟨rfl, by rw [hk]; simp [Inside]⟩)
        (fun u hu => ?_) ?_
      · simp only [at_log, filter_snoc]; simp [ofThread]
      · obtain ⟨c, hc⟩ := ht
        refine ⟨c, ?_⟩
        simp only [at_log, filter_snoc]; simp [ofThread, hc]
    · -- zero
      rename_i hk
      rw [hk] at ht
      injection hs with hs; subst hs
      exact inv_move h rfl (.inl ⟨rfl, by rw [hk]; simp [Holds]⟩) (.inl ⟨rfl, by rw [hk]; simp [Inside]⟩)
        (fun _ _ => rfl) ht
    · -- clear
      rename_i hk
      rw [hk] at ht
      injection hs with hs; subst hs
      exact inv_move h rfl (.inl ⟨rfl, by rw [hk]; simp [Holds]⟩)
        (.inr (.inr ⟨rfl, by simp [Inside], by rw [hk]; trivial⟩)) (fun _ _ => rfl) ht
    · cases hs

theorem inv_runs {n : Nat} : ∀ (as : List (Nat × Act)) {s s' : St}, Inv n s → runs n s as = some s' → Inv n s'
  | [], s, s', h, hs => by injection hs with hs; exact hs ▸ h
  | (t, a) :: as, s, s', h, hs => by
    obtain ⟨m, h1, h2⟩ := Option.bind_eq_some_iff.mp hs
    exact inv_runs as (inv_step h h1) h2

theorem inv_reach {n : Nat} {as : List (Nat × Act)} {s : St} (h : runs n {} as = some s) : Inv n s :=
  inv_runs as (inv_init n) h

/-! ## The callbacks -/

theorem count_times (n t c : Nat) : (times n t c).count (.committed t) = c := by
  induction c with
  | zero => rfl
  | succ c ih =>
    rw [times_succ, List.count_append, ih]
    unfold full
    rw [List.count_cons, List.count_eq_zero.mpr]
    · simp
    · simp

theorem count_filter (l : List Ev) (t : Nat) : (l.filter (ofThread t)).count (.committed t) = l.count (.committed t) := by
  rw [List.count_filter]; simp [ofThread]

/-- C123.  In every schedule: what a thread has done, once it is past its callbacks, is each of its commits followed by all
callbacks, once each and in order, whatever they threw; a commit that failed has none. -/
theorem c123_hooks (n : Nat) (as : List (Nat × Act)) (s : St) (h : runs n {} as = some s) (t : Nat)
    (hp : ∀ k, s.pc t ≠ .hooks k) :
    s.log.filter (ofThread t) =
      (List.replicate (s.log.count (.committed t)) (.committed t :: (List.range n).map (.hook t))).flatten := by
  have i := (inv_reach h).told t
  have : ∃ c, s.log.filter (ofThread t) = times n t c := by
    cases hpc : s.pc t with
    | hooks k => exact absurd hpc (hp k)
    | _ => rw [hpc] at i; exact i
  obtain ⟨c, hc⟩ := this
  have e := count_times n t c
  rw [← hc, count_filter] at e
  rw [e]; exact hc

/-- C123.  While they run, the callbacks up to now have been run. -/
theorem c123_running (n : Nat) (as : List (Nat × Act)) (s : St) (h : runs n {} as = some s) (t k : Nat)
    (hp : s.pc t = .hooks k) :
    k ≤ n ∧ s.log.filter (ofThread t) =
      (List.replicate (s.log.count (.committed t) - 1) (.committed t :: (List.range n).map (.hook t))).flatten ++
        .committed t :: (List.range k).map (.hook t) := by
  have i := (inv_reach h).told t
  rw [hp] at i
  obtain ⟨hk, c, hc⟩ := i
  refine ⟨hk, ?_⟩
  have e : (s.log.filter (ofThread t)).count (.committed t) = c + 1 := by
    rw [hc, List.count_append, count_times, List.count_cons, List.count_eq_zero.mpr]
    · simp
    · simp
  rw [count_filter] at e
  rw [e]; exact hc

/-- What the schedule says was committed. -/
def commits (t : Nat) : List (Nat × Act) → Nat
  | [] => 0
  | (u, .commit _ _) :: as => (if u = t then 1 else 0) + commits t as
  | _ :: as => commits t as

/-- Every commit of the schedule is one of the log and there are no others. -/
theorem count_runs {n : Nat} (t : Nat) : ∀ (as : List (Nat × Act)) {s s' : St}, runs n s as = some s' →
    s'.log.count (.committed t) = s.log.count (.committed t) + commits t as
  | [], s, s', hs => by injection hs with hs; subst hs; rfl
  | (u, a) :: as, s, s', hs => by
    obtain ⟨m, h1, h2⟩ := Option.bind_eq_some_iff.mp hs
    rw [count_runs t as h2]
    have : m.log.count (.committed t) + commits t as = s.log.count (.committed t) + commits t ((u, a) :: as) := by
      unfold step at h1
      split at h1
      · split at h1
        · injection h1 with h1; subst h1; simp [commits]
        · cases h1
      · split at h1
        · injection h1 with h1; subst h1
          simp only [at_log, List.count_append, List.count_singleton, commits]
          by_cases hu : u = t <;> simp [hu] <;> omega
        · cases h1
      · split at h1
        · injection h1 with h1; subst h1; simp [commits]
        · cases h1
      · split at h1
        · injection h1 with h1; subst h1; simp [commits]
        · cases h1
      · split at h1
        · injection h1 with h1; subst h1
          split
          · simp [runHook, List.count_append, commits]
          · simp [commits]
        · injection h1 with h1; subst h1; split <;> simp [commits]
        · injection h1 with h1; subst h1; simp [commits]
        · injection h1 with h1; subst h1; simp [List.count_append, commits]
        · injection h1 with h1; subst h1; simp [commits]
        · injection h1 with h1; subst h1; simp [commits]
        · cases h1
    exact this

/-- C123.  Hence each callback runs exactly as often as commits succeeded, when all threads are past their callbacks. -/
theorem c123_once (n : Nat) (as : List (Nat × Act)) (s : St) (h : runs n {} as = some s) (t k : Nat) (hk : k < n)
    (hp : ∀ k, s.pc t ≠ .hooks k) : s.log.count (.hook t k) = commits t as := by
  have e := c123_hooks n as s h t hp
  have ec := count_runs t as h
  have hf : (s.log.filter (ofThread t)).count (.hook t k) = s.log.count (.hook t k) := by
    rw [List.count_filter]; simp [ofThread]
  rw [← hf, e, ec]
  show (List.replicate (0 + _) _).flatten.count _ = _
  rw [Nat.zero_add]
  generalize commits t as = c
  induction c with
  | zero => rfl
  | succ c ih =>
    rw [List.replicate_succ, List.flatten_cons, List.count_append, ih, List.count_cons]
    have : ((List.range n).map (Ev.hook t)).count (.hook t k) = 1 := by
      have hnd : ((List.range n).map (Ev.hook t)).Nodup := by
        refine List.Pairwise.map _ ?_ List.nodup_range
        intro a b hab e; injection e with _ e; exact hab e
      rw [hnd.count, if_pos (List.mem_map.mpr ⟨k, List.mem_range.mpr hk, rfl⟩)]
    rw [this]; simp; omega

/-- C123.  The callbacks run without the commit lock: another thread can take it. -/
theorem c123_unlocked (n : Nat) (as : List (Nat × Act)) (s : St) (h : runs n {} as = some s) (t : Nat)
    (hp : (∃ k, s.pc t = .hooks k) ∨ Inside (s.pc t)) : s.owner ≠ some t := by
  intro e
  have := ((inv_reach h).own t).mp e
  rcases hp with ⟨k, hk⟩ | hi
  · rw [hk] at this; exact this
  · cases hpc : s.pc t <;> rw [hpc] at this hi <;> simp [Holds, Inside] at this hi

/-- C123.  The plugins that have a callback have it run, in the order of the plugins; the others do not matter. -/
theorem c123_gathered {α : Type} (plugins : List (Bytes × Option α)) (f : α) :
    f ∈ gather plugins ↔ ∃ name, (name, some f) ∈ plugins := by
  unfold gather
  rw [List.mem_filterMap]
  constructor
  · rintro ⟨⟨a, b⟩, h1, h2⟩; dsimp only at h2; subst h2; exact ⟨a, h1⟩
  · rintro ⟨a, h⟩; exact ⟨_, h, rfl⟩

/-! ## The checkpoint -/

/-- C123.  At most one thread is at a checkpoint. -/
theorem c123_one (n : Nat) (as : List (Nat × Act)) (s : St) (h : runs n {} as = some s) (t u : Nat)
    (ht : Inside (s.pc t)) (hu : Inside (s.pc u)) : t = u := (inv_reach h).one t u ht hu

/-- C123.  A commit that returns without looking whether a checkpoint is due leaves it to another thread that is at one. -/
theorem c123_left_to (n : Nat) (as : List (Nat × Act)) (s s' : St) (h : runs n {} as = some s) (t left : Nat) (threw : Bool)
    (hp : s.pc t = .tas) (hs : step n s t (.go left threw) = some s') (hi : s'.pc t = .idle) :
    ∃ u, u ≠ t ∧ Inside (s.pc u) ∧ Inside (s'.pc u) := by
  unfold step at hs
  simp only [hp, Option.some.injEq] at hs
  subst hs
  cases hb : s.busy with
  | false => rw [hb] at hi; simp at hi
  | true =>
    obtain ⟨u, hu⟩ := (inv_reach h).flag.mp hb
    have hut : u ≠ t := by intro e; subst e; rw [hp] at hu; exact hu
    refine ⟨u, hut, hu, ?_⟩
    simp [hut, hu]

/-- A commit of one thread while the others do nothing: what is left of its way. -/
def alone (n frames stale left : Nat) : List Act :=
  [.lock, .commit frames stale] ++ List.replicate n (.go left false) ++ List.replicate 6 (.go left false)

theorem runs_append (n : Nat) : ∀ (as bs : List (Nat × Act)) (s : St),
    runs n s (as ++ bs) = (runs n s as).bind fun s => runs n s bs
  | [], _, _ => rfl
  | (t, a) :: as, bs, s => by
    show (step n s t a).bind _ = ((step n s t a).bind _).bind _
    cases step n s t a with
    | none => rfl
    | some m => exact runs_append n as bs m

theorem runs_hooks (n t left : Nat) : ∀ (j k : Nat) (s : St), s.pc t = .hooks k → k + j = n →
    ∃ s', runs n s (List.replicate j (t, .go left false)) = some s' ∧ s'.pc t = .hooks n ∧ s'.busy = s.busy ∧
      s'.outstanding = s.outstanding ∧ s'.wal = s.wal ∧ s'.owner = s.owner ∧ (∀ u, u ≠ t → s'.pc u = s.pc u) ∧
      s'.log.count (.checkpointed t) = s.log.count (.checkpointed t)
  | 0, k, s, hp, hk => ⟨s, rfl, by rw [hp]; congr 1, rfl, rfl, rfl, rfl, fun _ _ => rfl, rfl⟩
  | j + 1, k, s, hp, hk => by
    have e : step n s t (.go left false) = some (runHook s t k false) := by
      unfold step; simp only [hp]; rw [if_pos (by omega)]
    obtain ⟨s', h1, h2, h3, h4, h5, h6, h7, h8⟩ := runs_hooks n t left j (k + 1) (runHook s t k false)
      (by simp [runHook]) (by omega)
    refine ⟨s', ?_, h2, h3, h4, h5, h6, fun u hu => ?_, ?_⟩
    · rw [List.replicate_succ]
      show (step n s t (.go left false)).bind _ = _
      rw [e]; exact h1
    · rw [h7 u hu]; simp [runHook, hu]
    · rw [h8]; simp [runHook, List.count_append, List.count_singleton]

/-- C123.  A commit that writes and is left alone does a checkpoint, whatever happened before: frames that were forgotten
(`c123_forgotten`) are reached with the next commit. -/
theorem c123_alone (n : Nat) (as : List (Nat × Act)) (s : St) (h : runs n {} as = some s)
    (hq : ∀ t, s.pc t = .idle) (t frames stale left : Nat) (hf : 0 < frames) :
    ∃ s', runs n s ((alone n frames stale left).map fun a => (t, a)) = some s' ∧ (∀ u, s'.pc u = .idle) ∧
      s'.log.count (.checkpointed t) = s.log.count (.checkpointed t) + 1 ∧ s'.outstanding = 0 ∧
      s'.wal = min left (s.wal + frames) ∧ s'.busy = false ∧ s'.owner = none := by
  have i := inv_reach h
  have ho : s.owner = none := by
    cases e : s.owner with
    | none => rfl
    | some u => have := (i.own u).mp e; rw [hq u] at this; exact this.elim
  have hb : s.busy = false := by
    cases e : s.busy with
    | false => rfl
    | true => obtain ⟨u, hu⟩ := i.flag.mp e; rw [hq u] at hu; exact hu.elim
  let s1 : St := ({ s with owner := some t } : St).at t .locked
  let s2 : St := ({ s1 with owner := none, wal := s1.wal + frames, outstanding := hookSize s1.outstanding s1.wal frames stale
                            known := hookSize s1.known s1.wal frames stale
                            log := s1.log ++ [.committed t] } : St).at t (.hooks 0)
  have e1 : step n s t .lock = some s1 := by unfold step; exact if_pos ⟨hq t, ho⟩
  have e2 : step n s1 t (.commit frames stale) = some s2 := by unfold step; exact if_pos (by simp [s1])
  obtain ⟨s3, h1, h2, h3, h4, h5, h6, h7, h8⟩ := runs_hooks n t left n 0 s2 (by simp [s2]) (by omega)
  have out3 : s3.outstanding ≠ 0 := by rw [h4]; show hookSize s.outstanding s.wal frames stale ≠ 0; unfold hookSize; split <;> omega
  have busy3 : s3.busy = false := by rw [h3]; exact hb
  let s4 := s3.at t .tas
  let s5 : St := ({ s4 with busy := true } : St).at t .test
  let s6 := s5.at t .ckpt
  let s7 : St := ({ s6 with wal := min left s6.wal, log := s6.log ++ [.checkpointed t] } : St).at t .zero
  let s8 : St := ({ s7 with outstanding := 0 } : St).at t .clear
  let s9 : St := ({ s8 with busy := false } : St).at t .idle
  have g4 : step n s3 t (.go left false) = some s4 := by
    unfold step; simp only [h2]; rw [if_neg (by omega)]
  have g5 : step n s4 t (.go left false) = some s5 := by
    unfold step; simp [s4, s5, busy3]
  have g6 : step n s5 t (.go left false) = some s6 := by
    unfold step; simp [s4, s5, s6, out3]
  have g7 : step n s6 t (.go left false) = some s7 := by
    unfold step; simp [s6, s7]
  have g8 : step n s7 t (.go left false) = some s8 := by
    unfold step; simp [s7, s8]
  have g9 : step n s8 t (.go left false) = some s9 := by
    unfold step; simp [s8, s9]
  refine ⟨s9, ?_, ?_, ?_, rfl, ?_, rfl, ?_⟩
  · unfold alone
    rw [List.map_append, List.map_append, runs_append, runs_append, List.map_replicate]
    have e12 : runs n s ([Act.lock, .commit frames stale].map fun a => (t, a)) = some s2 := by
      show (step n s t .lock).bind _ = _
      rw [e1]
      show (step n s1 t (.commit frames stale)).bind _ = _
      rw [e2]; rfl
    rw [e12, Option.bind_some, h1, Option.bind_some]
    show (step n s3 t _).bind _ = _
    rw [g4]; show (step n s4 t _).bind _ = _
    rw [g5]; show (step n s5 t _).bind _ = _
    rw [g6]; show (step n s6 t _).bind _ = _
    rw [g7]; show (step n s7 t _).bind _ = _
    rw [g8]; show (step n s8 t _).bind _ = _
    rw [g9]; rfl
  · intro u
    by_cases hu : u = t
    · simp [s9, hu]
    · have := h7 u hu
      simp [s9, s8, s7, s6, s5, s4, hu, this, s2, s1, hq u]
  · show (s3.log ++ [Ev.checkpointed t]).count (.checkpointed t) = _
    rw [List.count_append, h8]
    show (s.log ++ [Ev.committed t]).count _ + _ = _
    rw [List.count_append]
    simp
  · show min left s3.wal = _
    rw [h5]; rfl
  · show s3.owner = none
    rw [h6]; rfl

/-- C123, where the code falls short.  Two threads commit; the second finds the first at its checkpoint and leaves it to that
one, which sets the number of outstanding frames to 0 afterwards.  Both are done, frames of the second are in the log only, and
the server counts none as outstanding: no checkpoint is tried until there is another commit. -/
theorem c123_forgotten : ∃ as s, runs 0 {} as = some s ∧ (∀ t, s.pc t = .idle) ∧ s.outstanding = 0 ∧ 0 < s.wal ∧
    s.log.count (.checkpointed 0) = 1 ∧ s.log.count (.committed 1) = 1 ∧ s.log.count (.checkpointed 1) = 0 := by
  refine ⟨[(0, .lock), (0, .commit 3 2), (0, .go 0 false), (0, .go 0 false), (0, .go 0 false), (0, .go 0 false),
    (1, .lock), (1, .commit 5 2), (1, .go 0 false), (1, .go 0 false), (0, .go 0 false), (0, .go 0 false)], _, rfl, ?_, rfl, ?_, ?_, ?_, ?_⟩
  · intro t
    simp only [at_pc]
    by_cases h0 : t = 0
    · simp [h0]
    · by_cases h1 : t = 1
      · simp [h1]
      · simp [h0, h1]
  · decide
  · decide
  · decide
  · decide

theorem bound_step {n : Nat} {s s' : St} {t : Nat} {a : Act} (h : s.wal ≤ s.known ∧ s.outstanding ≤ s.known)
    (hs : step n s t a = some s') : s'.wal ≤ s'.known ∧ s'.outstanding ≤ s'.known := by
  unfold step at hs
  split at hs
  · split at hs
    · injection hs with hs; subst hs; exact h
    · cases hs
  · split at hs
    · rename_i f st _
      injection hs with hs; subst hs
      show s.wal + f ≤ hookSize s.known s.wal f st ∧ hookSize s.outstanding s.wal f st ≤ hookSize s.known s.wal f st
      unfold hookSize
      split <;> omega
    · cases hs
  · split at hs
    · injection hs with hs; subst hs; exact h
    · cases hs
  · split at hs
    · injection hs with hs; subst hs; exact h
    · cases hs
  · split at hs
    · injection hs with hs; subst hs; split <;> exact h
    · injection hs with hs; subst hs; split <;> exact h
    · injection hs with hs; subst hs; exact h
    · injection hs with hs; subst hs; exact ⟨Nat.le_trans (Nat.min_le_right _ _) h.1, h.2⟩
    · injection hs with hs; subst hs; exact ⟨h.1, Nat.zero_le _⟩
    · injection hs with hs; subst hs; exact h
    · cases hs

/-- C123.  The number that STATUS shows is never less than what is in the log only, even when frames were forgotten. -/
theorem c123_shown (n : Nat) (as : List (Nat × Act)) (s : St) (h : runs n {} as = some s) : s.wal ≤ s.known := by
  suffices ∀ (as : List (Nat × Act)) (s0 : St), s0.wal ≤ s0.known ∧ s0.outstanding ≤ s0.known →
      ∀ s, runs n s0 as = some s → s.wal ≤ s.known ∧ s.outstanding ≤ s.known from
    (this as {} ⟨Nat.le_refl _, Nat.le_refl _⟩ s h).1
  intro as
  induction as with
  | nil => intro s0 h0 s hs; injection hs with hs; exact hs ▸ h0
  | cons a as ih =>
    intro s0 h0 s hs
    obtain ⟨m, h1, h2⟩ := Option.bind_eq_some_iff.mp hs
    exact ih m (bound_step h0 h1) s h2

/-! ## Cases -/

/-- Two callbacks, the first of which throws; two threads whose steps mix; a conflict. -/
def mixed : List (Nat × Act) :=
  [(0, .lock), (0, .commit 2 2), (1, .lock), (0, .go 0 true), (1, .conflict), (0, .go 0 false), (1, .rollback),
   (1, .lock), (1, .commit 1 2), (0, .go 0 false), (1, .go 0 false), (1, .go 0 true), (1, .go 0 false)]

example : (runs 2 {} mixed).map (·.log) =
    some [.committed 0, .hook 0 0, .hook 0 1, .committed 1, .hook 1 0, .hook 1 1] := by decide

example : commits 1 mixed = 1 := by decide

example (s : St) (h : runs 2 {} mixed = some s) : s.log.count (.hook 1 1) = commits 1 mixed := by
  refine c123_once 2 mixed s h 1 1 (by decide) ?_
  have e : (runs 2 {} mixed).map (fun s => s.pc 1) = some .tas := by decide
  rw [h] at e
  injection e with e
  intro k hk; exact absurd (e.symm.trans hk) (by simp)

example : gather [([97], some 1), ([98], none), ([99], some (2 : Nat))] = [1, 2] := rfl

end Bedrock.AfterCommit.Props
