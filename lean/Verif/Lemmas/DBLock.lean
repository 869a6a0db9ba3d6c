import Verif.Lemmas.DB

namespace Bedrock.DB
open Spec

/-! ## The lock discipline -/

structure LockInv (s : Sys) (f : Nat → Bool) : Prop where
  owner : ∀ o n, s.lock = some (o, n) → n = 1 ∧ (s.handles o).locked = true
  held : ∀ h, (s.handles h).locked = true → s.lock = some (h, 1) ∧ (s.handles h).inside = true
  opened : ∀ h, (s.handles h).inside = true → f h = true
  clean : ∀ h, (s.handles h).inside = false → (s.handles h).uhash = [] ∧ (s.handles h).uquery = []

theorem lockInv_restart (env : Env) (tb : Nat → List Row) (f : Nat → Bool) :
    LockInv (restart env tb) f := by
  refine ⟨?_, ?_, ?_, ?_⟩ <;> simp [restart]

/-- Closing the transaction of a handle. -/
theorem lockInv_close {s : Sys} {f : Nat → Bool} (hi : LockInv s f) (h : Nat)
    (s' : Sys) (hh : s'.handles = upd s.handles h (idle (s.handles h)))
    (hl : s'.lock = if (s.handles h).locked then none else s.lock) :
    LockInv s' (upd f h false) := by
  refine ⟨?_, ?_, ?_, ?_⟩
  · intro o n ho
    rw [hl] at ho
    by_cases hk : (s.handles h).locked = true
    · simp [hk] at ho
    · simp only [hk] at ho
      obtain ⟨a, b⟩ := hi.owner o n ho
      refine ⟨a, ?_⟩
      have : o ≠ h := by rintro rfl; exact hk b
      rw [hh, upd_ne _ _ this]; exact b
  · intro h'
    rw [hh]
    by_cases he : h' = h
    · subst he; simp [idle]
    · rw [upd_ne _ _ he]
      intro hk
      obtain ⟨a, b⟩ := hi.held h' hk
      refine ⟨?_, b⟩
      rw [hl]
      by_cases hk2 : (s.handles h).locked = true
      · have := (hi.held h hk2).1
        rw [this] at a; simp at a; exact absurd a.symm he
      · rw [if_neg hk2]; exact a
  · intro h'
    rw [hh]
    by_cases he : h' = h
    · subst he; simp [idle]
    · rw [upd_ne _ _ he, upd_ne _ _ he]; exact hi.opened h'
  · intro h'
    rw [hh]
    by_cases he : h' = h
    · subst he; simp [idle]
    · rw [upd_ne _ _ he]; exact hi.clean h'

theorem lockRelease_of_one (s : Sys) (o : Nat) (h : s.lock = some (o, 1)) :
    (lockRelease s).lock = none := by
  simp [lockRelease, h]

theorem lockInv_rollback {s : Sys} {f : Nat → Bool} (hi : LockInv s f) (h : Nat) :
    LockInv (rollback s h) (upd f h false) := by
  unfold rollback
  by_cases hin : (s.handles h).inside = true
  · simp only [hin, if_true]
    by_cases hl : (s.handles h).locked = true
    · simp only [hl, if_true]
      have h1 := (hi.held h hl).1
      apply lockInv_close hi h
      · rw [lockRelease_lock]; rfl
      · rw [if_pos hl]
        exact lockRelease_of_one _ h h1
    · simp only [hl]
      apply lockInv_close hi h
      · rfl
      · rw [if_neg hl]; rfl
  · simp only [hin]
    refine ⟨hi.owner, hi.held, ?_, hi.clean⟩
    intro h' hh'
    have : h' ≠ h := by rintro rfl; exact hin hh'
    rw [upd_ne _ _ this]; exact hi.opened h' hh'

/-- Changing only the non-lock parts of a handle that stays open. -/
theorem lockInv_edit {s : Sys} {f : Nat → Bool} (hi : LockInv s f) (h : Nat) (s' : Sys)
    (hd : Handle) (hh : s'.handles = upd s.handles h hd) (hl : s'.lock = s.lock)
    (h1 : hd.inside = (s.handles h).inside) (h2 : hd.locked = (s.handles h).locked)
    (hin : (s.handles h).inside = true) : LockInv s' f := by
  refine ⟨?_, ?_, ?_, ?_⟩
  · intro o n ho
    rw [hl] at ho
    obtain ⟨a, b⟩ := hi.owner o n ho
    refine ⟨a, ?_⟩
    rw [hh, upd_apply]; split
    · rename_i he; subst he; rw [h2]; exact b
    · exact b
  · intro h'
    rw [hh, upd_apply]; split
    · rename_i he; subst he; rw [h1, h2, hl]; exact hi.held _
    · rw [hl]; exact hi.held _
  · intro h'
    rw [hh, upd_apply]; split
    · rename_i he; subst he; rw [h1]; exact hi.opened _
    · exact hi.opened _
  · intro h'
    rw [hh, upd_apply]; split
    · intro hc; rw [h1, hin] at hc; simp at hc
    · exact hi.clean _

theorem lockFree_none {s : Sys} {f : Nat → Bool} (hi : LockInv s f) (h : Nat)
    (hf : lockFree s h = true) (hk : (s.handles h).locked = false) : s.lock = none := by
  cases hl : s.lock with
  | none => rfl
  | some p =>
    obtain ⟨o, n⟩ := p
    have := (hi.owner o n hl).2
    simp [lockFree, hl] at hf
    subst hf
    simp [hk] at this

/-- Taking the lock and, at the same time, being or becoming open. -/
theorem lockInv_acquire {s : Sys} {f : Nat → Bool} (hi : LockInv s f) (h : Nat) (s' : Sys)
    (hd : Handle) (hh : s'.handles = upd s.handles h hd) (hl : s'.lock = some (h, 1))
    (hfree : s.lock = none) (h1 : hd.inside = true) (h2 : hd.locked = true) (hf : f h = true) :
    LockInv s' f := by
  have hno : ∀ h', (s.handles h').locked = true → False := fun h' hk => by
    have := (hi.held h' hk).1; rw [hfree] at this; simp at this
  refine ⟨?_, ?_, ?_, ?_⟩
  · intro o n ho
    rw [hl] at ho; simp at ho
    obtain ⟨rfl, rfl⟩ := ho
    exact ⟨rfl, by rw [hh, upd_same]; exact h2⟩
  · intro h'
    rw [hh, upd_apply]; split
    · rename_i he; subst he; intro _; exact ⟨hl, h1⟩
    · intro hk; exact absurd hk (fun hk => hno _ hk)
  · intro h'
    rw [hh, upd_apply]; split
    · rename_i he; subst he; intro _; exact hf
    · exact hi.opened _
  · intro h'
    rw [hh, upd_apply]; split
    · intro hc; rw [h1] at hc; simp at hc
    · exact hi.clean _

theorem lockInv_acquire' {s : Sys} {f : Nat → Bool} (hi : LockInv s f) (h : Nat) (s' : Sys)
    (hh : ∀ h', h' ≠ h → s'.handles h' = s.handles h') (hl : s'.lock = some (h, 1))
    (hfree : s.lock = none) (h1 : (s'.handles h).inside = true)
    (h2 : (s'.handles h).locked = true) (hf : f h = true) : LockInv s' f := by
  refine lockInv_acquire hi h s' (s'.handles h) ?_ hl hfree h1 h2 hf
  funext x
  rw [upd_apply]; split
  · rename_i he; rw [he]
  · rename_i he; exact hh x he

theorem lockInv_mono {s : Sys} {f g : Nat → Bool} (hi : LockInv s f)
    (h : ∀ x, f x = true → g x = true) : LockInv s g :=
  ⟨hi.owner, hi.held, fun x hx => h x (hi.opened x hx), hi.clean⟩

theorem lockInv_begin {s : Sys} {f : Nat → Bool} (hi : LockInv s f) (h : Nat) (e sy : Bool)
    (hf : f h = false) :
    LockInv (begin' s h e sy true).1 (openStep f (.begin h e sy true, (begin' s h e sy true).2)) := by
  have hin : (s.handles h).inside = false := by
    cases hc : (s.handles h).inside with
    | false => rfl
    | true => have := hi.opened h hc; simp [hf] at this
  have hk : (s.handles h).locked = false := by
    cases hc : (s.handles h).locked with
    | false => rfl
    | true => have := (hi.held h hc).2; simp [hin] at this
  obtain ⟨hu, hq⟩ := hi.clean h hin
  have hmono : ∀ x, f x = true → upd f h true x = true := by
    intro x hx; rw [upd_apply]; split <;> simp [*]
  unfold begin'
  by_cases hc : (e && !lockFree s h) = true
  · rw [if_pos hc]
    cases sy <;> exact hi
  · rw [if_neg hc]
    cases e with
    | false =>
      simp only [Bool.false_eq_true, if_false, hin, hu, hq, List.isEmpty_nil, Bool.not_true,
        Bool.or_self, if_true]
      have hi' := lockInv_mono hi hmono
      refine ⟨?_, ?_, ?_, ?_⟩
      · intro o n ho
        obtain ⟨a, b⟩ := hi.owner o n ho
        refine ⟨a, ?_⟩
        have : o ≠ h := by rintro rfl; simp [hk] at b
        show (upd s.handles h _ o).locked = true
        rw [upd_ne _ _ this]; exact b
      · intro h'
        show (upd s.handles h _ h').locked = true → _ ∧ (upd s.handles h _ h').inside = true
        rw [upd_apply]; split
        · rename_i he; subst he; intro hc2; simp [hk] at hc2
        · exact hi.held h'
      · intro h'
        show (upd s.handles h _ h').inside = true → _
        rw [upd_apply]; split
        · rename_i he; subst he; intro _; simp [openStep]
        · exact hi'.opened h'
      · intro h'
        show (upd s.handles h _ h').inside = false → (upd s.handles h _ h').uhash = [] ∧
          (upd s.handles h _ h').uquery = []
        rw [upd_apply]; split
        · intro hc2; simp at hc2
        · exact hi.clean h'
    | true =>
      have hfree : lockFree s h = true := by simpa using hc
      have hn := lockFree_none hi h hfree hk
      have hla : lockAcquire s h = { s with lock := some (h, 1) } := by
        simp [lockAcquire, hn]
      simp only [hla, if_true, upd_same, hin, hu, hq, List.isEmpty_nil, Bool.not_true,
        Bool.or_self, Bool.false_eq_true, if_false]
      refine lockInv_acquire (lockInv_mono hi hmono) h _ ?hd ?_ ?_ hn ?_ ?_ ?_
      case hd => exact { s.handles h with locked := true, inside := true }
      · show upd (upd s.handles h _) h _ = _
        funext x
        by_cases hx : x = h
        · subst hx; simp [hu, hq]
        · simp [upd_ne _ _ hx]
      · rfl
      · rfl
      · rfl
      · simp

theorem lockInv_prepFinish {env : Env} {s : Sys} {f : Nat → Bool} (hi : LockInv s f) (h t : Nat)
    (hin : (s.handles h).inside = true) : LockInv (prepFinish env s h t) f :=
  lockInv_edit hi h _ _ rfl rfl rfl rfl hin

theorem lockInv_prepare {env : Env} {s : Sys} {f : Nat → Bool} (hi : LockInv s f) (h : Nat)
    (w : Bool) (pick : List Nat) (ok : Bool) (hin : (s.handles h).inside = true) :
    LockInv (prepare env s h w pick ok).1 f := by
  have hi1 : LockInv { s with
      nextJournal := s.nextJournal + 1
      handles := upd s.handles h
        { s.handles h with
          trims := (s.nextJournal % env.numJournals,
            trimIds env s (s.nextJournal % env.numJournals) pick) :: (s.handles h).trims } } f :=
    lockInv_edit hi h _ _ rfl rfl rfl rfl hin
  have fin : ∀ s2 : Sys, LockInv s2 f → (s2.handles h).inside = true →
      LockInv (if ok = true then (prepFinish env s2 h (s.nextJournal % env.numJournals), Out.done)
        else (rollback (prepFinish env s2 h (s.nextJournal % env.numJournals)) h, Out.failed)).1 f := by
    intro s2 h2 a
    have h3 := lockInv_prepFinish (env := env) h2 h (s.nextJournal % env.numJournals) a
    cases ok with
    | true => exact h3
    | false =>
      refine lockInv_mono (lockInv_rollback h3 h) ?_
      intro x hx; rw [upd_apply] at hx; split at hx
      · simp at hx
      · exact hx
  rcases prepare_cases env s h w pick ok hin with ⟨he, _⟩ | ⟨s2, hs2, he⟩
  · rw [he]; exact hi1
  · rw [he]
    rcases hs2 with ⟨rfl, hl⟩ | ⟨rfl, hf, hk⟩
    · exact fin _ hi1 (by simpa using hin)
    · have hn := lockFree_none hi1 h hf (by simpa using hk)
      obtain ⟨n, hq⟩ := acquire_eq _ h hf
      refine fin _ ?_ ?_
      · refine lockInv_acquire' hi1 h _ ?_ ?_ hn ?_ ?_ (hi.opened h hin)
        · intro h' hne; rw [hq]; simp only [upd_ne _ _ hne]
        · show (lockAcquire _ h).lock = _
          unfold lockAcquire
          rw [hn]
        · rw [hq]; simpa using hin
        · rw [hq]; simp
      · rw [hq]; simpa using hin

theorem lockInv_step {env : Env} {s : Sys} {f : Nat → Bool} (hi : LockInv s f) (op : Op)
    (hc : match op with | .begin h _ _ ok => f h = false ∧ ok = true | _ => True)
    (hp : ∀ h, (s.handles h).uhash ≠ [] → (s.handles h).locked = true) :
    LockInv (step env s op).1 (openStep f (op, (step env s op).2)) := by
  cases op with
  | begin h e sy ok =>
    obtain ⟨h1, rfl⟩ := hc
    have hna : (begin' s h e sy true).2 ≠ .abort := by
      unfold begin'; split
      · cases sy <;> simp
      · dsimp only
        repeat' split
        all_goals simp
    simp only [step, hna, if_false]
    exact lockInv_begin hi h e sy h1
  | write h q k ok =>
    have hw : ∀ r, r = write s h q k ok → r.2 ≠ .abort ∧ LockInv r.1 f ∧
        openStep f (.write h q k ok, r.2) = f := by
      rintro r rfl
      unfold write
      by_cases hcond : ((s.handles h).inside && ok) = true
      · simp only [hcond, if_true]
        simp only [Bool.and_eq_true] at hcond
        exact ⟨by simp, lockInv_edit hi h _ _ rfl rfl rfl rfl hcond.1, rfl⟩
      · simp only [hcond]
        exact ⟨by simp, hi, rfl⟩
    obtain ⟨a, b, c⟩ := hw _ rfl
    simp only [step, a, if_false]
    rw [c]; exact b
  | prepare h w p ok =>
    by_cases hin : (s.handles h).inside = true
    · have hna : (prepare env s h w p ok).2 = .failed ∨ (prepare env s h w p ok).2 = .done := by
        rcases prepare_cases env s h w p ok hin with ⟨he, _⟩ | ⟨s2, _, he⟩
        · rw [he]; simp
        · rw [he]; cases ok <;> simp
      have := lockInv_prepare (env := env) hi h w p ok hin
      rcases hna with hna | hna <;> simpa [step, hna, openStep] using this
    · have : prepare env s h w p ok = (s, .abort) := by simp [prepare, hin]
      simp only [step, this, if_true]
      exact lockInv_restart _ _ _
  | commit h ok =>
    by_cases hna : (commit s h ok).2 = .abort
    · simp only [step, hna, if_true]
      exact lockInv_restart _ _ _
    · simp only [step, hna, if_false]
      unfold commit at hna ⊢
      by_cases h1 : (!s.commitEnabled) = true
      · rw [if_pos h1]; exact hi
      · rw [if_neg h1] at hna ⊢
        by_cases h2 : (!(s.handles h).inside || (s.handles h).uhash.isEmpty) = true
        · simp [h2] at hna
        · simp only [h2] at hna ⊢
          cases ok with
          | false => exact hi
          | true =>
            simp only [Bool.or_eq_true, Bool.not_eq_true', List.isEmpty_iff, not_or, Bool.not_eq_false] at h2
            have hl := hp h h2.2
            have h1 := (hi.held h hl).1
            refine lockInv_close hi h _ ?_ ?_
            · simp only [if_true, Bool.false_eq_true, if_false]
              rw [lockRelease_lock]; rfl
            · rw [if_pos hl]
              exact lockRelease_of_one _ h h1
  | rollback h =>
    simp only [step]
    exact lockInv_rollback hi h
  | setCommitEnabled t e =>
    simp only [step]
    by_cases h1 : s.commitEnabled = e
    · simp only [h1, if_true]; exact hi
    · by_cases h2 : lockFree s t = true
      · simp only [h1, h2, if_false, if_true]; exact ⟨hi.owner, hi.held, hi.opened, hi.clean⟩
      · simp only [h1, h2, if_false]; exact hi
  | pop =>
    simp only [step]
    exact ⟨hi.owner, hi.held, hi.opened, hi.clean⟩
  | crash =>
    simp only [step]
    exact lockInv_restart _ _ _
  | crashInCommit h =>
    have : (step env s (.crashInCommit h)).1 = restart env (commit s h true).1.tables := by
      simp only [step]
      by_cases hx : (commit s h true).2 = .committed <;> simp [hx]
    rw [this]
    exact lockInv_restart _ _ _

theorem lockInv_run {env : Env} (hnj : 0 < env.numJournals) (hne : ∀ x, env.sha1hex x ≠ [])
    (ops : List Op) : ∀ (s : Sys) (v : View) (f : Nat → Bool), Inv env s v → LockInv s f →
    Disciplined v (run env s ops).2 → Careful f (run env s ops).2 →
    LockInv (run env s ops).1 ((run env s ops).2.foldl openStep f) := by
  induction ops with
  | nil => intro s v f _ hl _ _; exact hl
  | cons op ops ih =>
    intro s v f hi hl hd hc
    simp only [run, Disciplined, Careful] at hd hc ⊢
    refine ih _ _ _ (inv_step hi op hd.1 hnj hne) (lockInv_step hl op ?_ ?_) hd.2 hc.2
    · cases op <;> first | trivial | exact hc.1
    · intro h hu; exact ((hi.handle h).prepared hu).2.1

end Bedrock.DB
