import Verif.Lemmas.OnPrepare

/-!
# C130: what a command writes at the last moment
-/

namespace Bedrock.OnPrepare.Props
open Bedrock Bedrock.DB Bedrock.DB.Spec Bedrock.OnPrepare

/-! ## Reduction to the database layer -/

theorem prepare_outside (env : Env) (s : Sys) (x : Ext) (h : Nat) (w : Bool) (p : List Nat) (ok : Bool)
    (hin : (s.handles h).inside = false) :
    prepare env s x h w p ok = ⟨s, [(.prepare h w p ok, .abort)], .abort, none⟩ := by
  simp [prepare, hin]

theorem prepare_null (env : Env) (s : Sys) (x : Ext) (h : Nat) (w : Bool) (p : List Nat) (ok : Bool)
    (hin : (s.handles h).inside = true) (hg : Gets s h w = true) (hq : x.notify = true)
    (hf : x.handler = none) :
    (prepare env s x h w p ok).out = .undefined ∧ (prepare env s x h w p ok).told = none := by
  unfold prepare
  simp only [hin, hq, hf, Bool.not_true, Bool.false_eq_true, if_false, gets_reserve, hg, if_true,
    and_self]

theorem prepare_escaped (env : Env) (s : Sys) (x : Ext) (h : Nat) (w : Bool) (p : List Nat) (ok : Bool)
    (f : Handler) (hin : (s.handles h).inside = true) (hg : Gets s h w = true)
    (hq : x.notify = true) (hf : x.handler = some f)
    (he : escapes x.noop (f s.nextJournal) = true) :
    (prepare env s x h w p ok).out = .escaped ∧
    (prepare env s x h w p ok).told = some s.nextJournal ∧
    (prepare env s x h w p ok).trace = (run env s (does h x.noop (f s.nextJournal))).2 := by
  have hin2 : ((take (reserve env s h p) h).handles h).inside = true := by
    rw [take_inside, reserve_inside, hin]
  unfold prepare
  simp only [hin, hq, hf, Bool.not_true, Bool.false_eq_true, if_false, gets_reserve, hg, if_true,
    acts_run env, he, Bool.not_false, true_and]
  rw [trace_does env h x.noop _ _ hin2, trace_does env h x.noop _ s hin]

/-- Every way `prepare` can go. -/
theorem prepare_ways (env : Env) (s : Sys) (x : Ext) (h : Nat) (w : Bool) (p : List Nat) (ok : Bool) :
    let r := prepare env s x h w p ok
    let o := Op.prepare h w p ok
    (r.out = .abort ∧ DB.step env s o = (restart env s.tables, .abort) ∧ r.trace = [(o, .abort)] ∧
      r.told = none ∧ (s.handles h).inside = false) ∨
    (r.out = .undefined ∧ r.told = none ∧ x.notify = true ∧ x.handler = none) ∨
    (r.out = .escaped ∧ r.told = some s.nextJournal ∧ x.notify = true ∧
      ∃ f, x.handler = some f ∧ escapes x.noop (f s.nextJournal) = true ∧
        r.trace = (run env s (does h x.noop (f s.nextJournal))).2) ∨
    ((r.out = .done ∨ r.out = .failed) ∧
      ∃ ops, r.sys = (run env s (ops ++ [o])).1 ∧ r.trace = (run env s (ops ++ [o])).2 ∧
        (r.out = .done ↔ (DB.step env (run env s ops).1 o).2 = .done) ∧
        ((r.told = none ∧ ops = [] ∧ (x.notify = true → Gets s h w = false)) ∨
         (r.told = some s.nextJournal ∧ x.notify = true ∧ Gets s h w = true ∧
          ∃ f, x.handler = some f ∧ ops = does h x.noop (f s.nextJournal) ∧
            escapes x.noop (f s.nextJournal) = false))) := by
  intro r o
  have stepP : ∀ s : Sys, (DB.prepare env s h w p ok).2 ≠ .abort →
      DB.step env s o = DB.prepare env s h w p ok := by
    intro s hs; simp [o, DB.step, hs]
  have runP : ∀ (ops : List Op), (DB.prepare env (run env s ops).1 h w p ok).2 ≠ .abort →
      run env s (ops ++ [o]) = ((DB.prepare env (run env s ops).1 h w p ok).1,
        (run env s ops).2 ++ [(o, (DB.prepare env (run env s ops).1 h w p ok).2)]) := by
    intro ops hs
    rw [run_append]
    simp [run, stepP _ hs]
  by_cases hin : (s.handles h).inside = true
  · right
    cases hg : Gets s h w with
    | false =>
      obtain ⟨h1, h2⟩ := prepare_refused env s x h w p ok hin hg
      have hr : r = _ := h1
      right; right
      have hna : (DB.prepare env s h w p ok).2 ≠ .abort := by rw [h2]; simp
      refine ⟨Or.inr (by rw [hr]), [], ?_, ?_, ?_, Or.inl ⟨by rw [hr], rfl, fun _ => rfl⟩⟩
      · rw [runP [] hna, hr]; rfl
      · rw [runP [] hna, hr]; simp [run, h2, o]
      · simp only [run]; rw [stepP s hna, h2, hr]; simp
    | true =>
      cases hq : x.notify with
      | false =>
        obtain ⟨h1, h2, h3, h4, h5⟩ := prepare_quiet env s x h w p ok hq
        have hna : (DB.prepare env s h w p ok).2 ≠ .abort := by
          rw [h5]; simp only [hin, if_true]; split <;> simp
        right; right
        refine ⟨?_, [], ?_, ?_, ?_, Or.inl ⟨h3, rfl, fun hc => by simp at hc⟩⟩
        · simp only [r, h4, hin, if_true]; split <;> simp
        · rw [runP [] hna]; exact h1
        · rw [runP [] hna]; exact h2
        · simp only [run]
          rw [stepP s hna, h5]
          simp only [r, h4, hin, if_true]
          split <;> simp
      | true =>
        cases hf : x.handler with
        | none =>
          left
          exact ⟨(prepare_null env s x h w p ok hin hg hq hf).1,
            (prepare_null env s x h w p ok hin hg hq hf).2, rfl, rfl⟩
        | some f =>
          right
          cases he : escapes x.noop (f s.nextJournal) with
          | true =>
            left
            obtain ⟨h1, h2, h3⟩ := prepare_escaped env s x h w p ok f hin hg hq hf he
            exact ⟨h1, h2, rfl, f, rfl, he, h3⟩
          | false =>
            right
            obtain ⟨h1, h2, h3, h4, h5⟩ := prepare_asked env s x h w p ok f hin hg hq hf he
            have hna : (DB.prepare env (run env s (does h x.noop (f s.nextJournal))).1 h w p ok).2 ≠
                .abort := by rw [h5]; cases ok <;> simp
            refine ⟨?_, does h x.noop (f s.nextJournal), ?_, ?_, ?_,
              Or.inr ⟨h3, rfl, rfl, f, rfl, rfl, he⟩⟩
            · simp only [r, h4]; cases ok <;> simp
            · rw [runP _ hna]; exact h1
            · rw [runP _ hna]; exact h2
            · rw [stepP _ hna, h5]; simp only [r, h4]; cases ok <;> simp
  · left
    have hin' : (s.handles h).inside = false := by simpa using hin
    have hr : r = _ := prepare_outside env s x h w p ok hin'
    refine ⟨by rw [hr], ?_, by rw [hr], by rw [hr], hin'⟩
    simp [o, DB.step, DB.prepare, hin']

/-- The rest of the call is a run of the database layer. -/
theorem afterPrepare_run (env : Env) (h : Nat) (x : CoreCommit.Ctx) (p : Sys)
    (ptr : List (Op × Out)) (ok : Bool) :
    ∃ ops, (afterPrepare env h x p ptr ok).sys = (run env p ops).1 ∧
      (afterPrepare env h x p ptr ok).trace = ptr ++ (run env p ops).2 := by
  have give : ∀ (ops : List Op) (tr : List (Op × Out)), tr = ptr ++ (run env p ops).2 →
      ∃ ops', (CoreCommit.giveUp env h (run env p ops).1 tr).sys = (run env p ops').1 ∧
        (CoreCommit.giveUp env h (run env p ops).1 tr).trace = ptr ++ (run env p ops').2 := by
    intro ops tr htr
    refine ⟨ops ++ [.rollback h], ?_, ?_⟩
    · rw [run_append]; rfl
    · rw [run_append, htr]; simp [CoreCommit.giveUp]
  unfold afterPrepare
  dsimp only
  split
  · exact ⟨x.gap₁, rfl, rfl⟩
  split
  · exact give x.gap₁ _ rfl
  split
  · exact give x.gap₁ _ rfl
  split
  · exact ⟨x.gap₁, rfl, rfl⟩
  split
  · exact ⟨x.gap₁ ++ x.gap₂, by rw [run_append], by rw [run_append]; simp⟩
  split
  · exact ⟨x.gap₁ ++ x.gap₂ ++ [.commit h x.commitOk], by simp only [run_append],
      by simp only [run_append]; simp⟩
  split
  · exact ⟨x.gap₁ ++ x.gap₂ ++ [.commit h x.commitOk], by simp only [run_append],
      by simp only [run_append]; simp⟩
  split
  · exact ⟨x.gap₁ ++ x.gap₂ ++ [.commit h x.commitOk] ++ x.gap₃, by simp only [run_append],
      by simp only [run_append]; simp⟩
  · have := give (x.gap₁ ++ x.gap₂ ++ [.commit h x.commitOk] ++ x.gap₃)
      (ptr ++ (run env p (x.gap₁ ++ x.gap₂ ++ [.commit h x.commitOk] ++ x.gap₃)).2) rfl
    simp only [run_append] at this ⊢
    simpa [List.append_assoc] using this

theorem core_eq (env : Env) (h : Nat) (x : CoreCommit.Ctx) (s : Sys) :
    CoreCommit.commit env h x s =
      (let p := run env s [.prepare h x.wait x.pick x.insertOk]
       if CoreCommit.died p.2 then ⟨p.1, p.2, none⟩
       else afterPrepare env h x p.1 p.2 (p.2.map Prod.snd == [.done])) := by
  unfold CoreCommit.commit afterPrepare
  by_cases h1 : CoreCommit.died (run env s [.prepare h x.wait x.pick x.insertOk]).2 = true
  · rw [if_pos h1]; exact (if_pos h1).symm
  · rw [if_neg h1]
    refine Eq.trans ?_ (if_neg h1).symm
    by_cases h2 : (run env s [.prepare h x.wait x.pick x.insertOk]).2.map Prod.snd = [.done]
    · have hb : ((run env s [.prepare h x.wait x.pick x.insertOk]).2.map Prod.snd == [Out.done]) =
          true := by rw [h2]; rfl
      rw [hb]
      dsimp only
      split
      · rfl
      · rw [if_neg (by simp [h2])]; rfl
    · have hb : ((run env s [.prepare h x.wait x.pick x.insertOk]).2.map Prod.snd == [Out.done]) =
          false := by simpa using h2
      rw [hb]
      dsimp only
      split
      · rfl
      · rfl

/-- No handler is installed anywhere. -/
def Quiet (st : St) : Prop := ∀ h, (st.ext h).notify = false ∧ (st.ext h).handler = none

theorem quiet_start (env : Env) (tb : Nat → List Row) : Quiet (start env tb) := fun _ => ⟨rfl, rfl⟩

theorem quiet_upd (st : St) (hq : Quiet st) (h : Nat) (asked : Bool) (f : Option Handler) :
    ∀ k, (upd st.ext h (remove (install (st.ext h) asked f) asked) k).notify = false ∧
      (upd st.ext h (remove (install (st.ext h) asked f) asked) k).handler = none := by
  intro k
  by_cases hk : k = h
  · subst hk
    cases asked
    · simpa [install, remove] using hq k
    · simp [install, remove]
  · rw [upd_ne _ _ hk]; exact hq k

theorem quiet_commit (env : Env) (h : Nat) (x : CoreCommit.Ctx) (asked : Bool) (f : Option Handler)
    (st : St) (hq : Quiet st) : Quiet (commit env h x asked f st).st := by
  unfold commit
  dsimp only
  split
  · intro k; exact ⟨rfl, rfl⟩
  · intro k; exact ⟨rfl, rfl⟩
  · exact quiet_upd st hq h asked f
  · split
    · intro k; exact ⟨rfl, rfl⟩
    · exact quiet_upd st hq h asked f

theorem quiet_setNoop (st : St) (hq : Quiet st) (h : Nat) (on : Bool) : Quiet (setNoop st h on).1 := by
  have hu : ∀ k, (upd st.ext h { st.ext h with noop := on } k).notify = false ∧
      (upd st.ext h { st.ext h with noop := on } k).handler = none := by
    intro k
    by_cases hk : k = h
    · subst hk; simpa using hq k
    · rw [upd_ne _ _ hk]; exact hq k
  unfold setNoop
  split
  · exact hq
  · dsimp only
    split
    · exact hu
    · exact hu

theorem quiet_work (env : Env) (h : Nat) (c : Cmd) (x : CoreCommit.Ctx) (st : St) (hq : Quiet st) :
    Quiet (work env h c x st).st := by
  unfold work
  dsimp only
  have h1 := quiet_setNoop st hq h c.mock
  split
  · refine quiet_setNoop _ ?_ h false
    exact h1
  · refine quiet_commit env h x c.asked c.handler _ (quiet_setNoop _ ?_ h false)
    exact h1

theorem quiet_step (env : Env) (st : St) (c : Call) (hq : Quiet st) : Quiet (step env st c).st := by
  cases c with
  | commit h x asked f => exact quiet_commit env h x asked f st hq
  | work h c x => exact quiet_work env h c x st hq
  | op o =>
    cases o with
    | prepare h w p ok =>
      simp only [step]
      split
      · intro k; exact ⟨rfl, rfl⟩
      · intro k; exact ⟨rfl, rfl⟩
      · exact hq
      · exact hq
    | _ =>
      simp only [step]
      split
      · intro k; exact ⟨rfl, rfl⟩
      · exact hq

theorem quiet_final (env : Env) (st : St) (cs : List Call) (hq : Quiet st) :
    Quiet (final env st cs) := by
  induction cs generalizing st with
  | nil => exact hq
  | cons c cs ih => exact ih _ (quiet_step env st c hq)

/-- A call is a run of the database layer. -/
def Refines (env : Env) (s : Sys) (r : Ret) : Prop :=
  ∃ ops, r.st.sys = (run env s ops).1 ∧ r.trace = (run env s ops).2

theorem run_does_tables (env : Env) (h : Nat) (noop : Bool) (as : List HAct) (s : Sys) :
    (run env s (does h noop as)).1.tables = s.tables := by
  have one : ∀ (s : Sys) q k ok, (DB.write s h q k ok).1.tables = s.tables := by
    intro s q k ok; unfold DB.write; dsimp only; split <;> rfl
  induction as generalizing s with
  | nil => rfl
  | cons a as ih =>
    cases a with
    | throws => rfl
    | write idem q keep res =>
      by_cases hn : (noop && !idem) = true
      · simp only [does, hn, if_true]; exact ih s
      · simp only [does, hn, Bool.false_eq_true, if_false]
        split
        · simp [run, step_write, one]
        · simp only [run, step_write]; rw [ih, one]

theorem refines_commit (env : Env) (h : Nat) (x : CoreCommit.Ctx) (asked : Bool) (f : Option Handler)
    (st : St) (hd : (commit env h x asked f st).result ≠ .undefined) :
    Refines env st.sys (commit env h x asked f st) := by
  have hw := prepare_ways env st.sys (install (st.ext h) asked f) h x.wait x.pick x.insertOk
  dsimp only at hw
  unfold commit at hd ⊢
  dsimp only at hd ⊢
  rcases hw with ⟨ho, hs, ht, _⟩ | ⟨ho, _⟩ | ⟨ho, _, _, g, _, _, ht⟩ | ⟨ho, ops, hs, ht, _, _⟩
  · rw [ho]
    exact ⟨[.prepare h x.wait x.pick x.insertOk], by simp [run, hs, dead], by simp [run, hs, ht]⟩
  · rw [ho] at hd; simp at hd
  · rw [ho]
    refine ⟨does h (install (st.ext h) asked f).noop (g st.sys.nextJournal) ++ [.crash], ?_, ?_⟩
    · rw [run_append]; simp [run, DB.step, dead, run_does_tables]
    · rw [run_append]; simp [run, DB.step, ht]
  · generalize hp : prepare env st.sys (install (st.ext h) asked f) h x.wait x.pick x.insertOk = p at *
    have key : Refines env st.sys
        (match (afterPrepare env h x p.sys p.trace (p.out == .done)).result with
          | none => ⟨{ sys := (afterPrepare env h x p.sys p.trace (p.out == .done)).sys, ext := fun _ => {} },
              (afterPrepare env h x p.sys p.trace (p.out == .done)).trace, p.told, .died⟩
          | some b => ⟨{ sys := (afterPrepare env h x p.sys p.trace (p.out == .done)).sys,
                         ext := upd st.ext h (remove (install (st.ext h) asked f) asked) },
              (afterPrepare env h x p.sys p.trace (p.out == .done)).trace, p.told, .ret b⟩) := by
      obtain ⟨ops', h1, h2⟩ := afterPrepare_run env h x p.sys p.trace (p.out == .done)
      refine ⟨ops ++ [.prepare h x.wait x.pick x.insertOk] ++ ops', ?_, ?_⟩
      · rw [run_append]
        split
        · simpa [hs] using h1
        · simpa [hs] using h1
      · rw [run_append]
        split
        · simpa [hs, ht] using h2
        · simpa [hs, ht] using h2
    rcases ho with ho | ho
    · rw [ho] at key ⊢; exact key
    · rw [ho] at key ⊢; exact key

theorem refines_setNoop (env : Env) (st : St) (h : Nat) (on : Bool) :
    ∃ ops, (setNoop st h on).1.sys = (run env st.sys ops).1 ∧ (setNoop st h on).2 = (run env st.sys ops).2 := by
  unfold setNoop
  split
  · exact ⟨[], rfl, rfl⟩
  · dsimp only
    split
    · exact ⟨[.write h (if on then (b!"PRAGMA noop_update=ON;") else (b!"PRAGMA noop_update=OFF;")) true true],
        by simp only [run, step_write], by simp only [run, step_write]⟩
    · exact ⟨[], rfl, rfl⟩

theorem refines_work (env : Env) (h : Nat) (c : Cmd) (x : CoreCommit.Ctx) (st : St)
    (hd : (work env h c x st).result ≠ .undefined) : Refines env st.sys (work env h c x st) := by
  obtain ⟨o1, a1, a2⟩ := refines_setNoop env st h c.mock
  unfold work at hd ⊢
  dsimp only at hd ⊢
  rw [acts_run env] at hd ⊢
  dsimp only at hd ⊢
  generalize hm : (setNoop st h c.mock) = a at *
  split
  · rename_i hc
    obtain ⟨o2, b1, b2⟩ := refines_setNoop env
      { a.1 with sys := rollback (run env a.1.sys (does h (a.1.ext h).noop c.body)).1 h } h false
    refine ⟨o1 ++ does h (a.1.ext h).noop c.body ++ [.rollback h] ++ o2, ?_, ?_⟩
    · simp only [run_append, ← a1]
      simp only [run, DB.step, reduceCtorEq, if_false]
      exact b1
    · simp only [run_append, ← a1, ← a2]
      simp only [run, DB.step, reduceCtorEq, if_false]
      rw [b2]
  · rename_i hc
    rw [if_neg hc] at hd
    obtain ⟨o2, b1, b2⟩ := refines_setNoop env
      { a.1 with sys := (run env a.1.sys (does h (a.1.ext h).noop c.body)).1 } h false
    obtain ⟨o3, c1, c2⟩ := refines_commit env h x c.asked c.handler _ hd
    refine ⟨o1 ++ does h (a.1.ext h).noop c.body ++ o2 ++ o3, ?_, ?_⟩
    · simp only [run_append, ← a1]
      rw [c1, b1]
    · simp only [run_append, ← a1, ← a2]
      rw [c2, b1, b2]

theorem refines_step (env : Env) (st : St) (c : Call) (hd : (step env st c).result ≠ .undefined) 
    (hq : Quiet st) : Refines env st.sys (step env st c) := by
  cases c with
  | commit h x asked f => exact refines_commit env h x asked f st hd
  | work h c x => exact refines_work env h c x st hd
  | op o =>
    cases o with
    | prepare h w p ok =>
      have hw := prepare_ways env st.sys (st.ext h) h w p ok
      dsimp only at hw
      simp only [step] at hd ⊢
      rcases hw with ⟨ho, hs, ht, _⟩ | ⟨ho, _, hn, _⟩ | ⟨ho, _, hn, _⟩ | ⟨ho, ops, hs, ht, _, hh⟩
      · rw [ho]
        exact ⟨[.prepare h w p ok], by simp [run, hs, dead], by simp [run, hs, ht]⟩
      · rw [(hq h).1] at hn; simp at hn
      · rw [(hq h).1] at hn; simp at hn
      · rcases ho with ho | ho
        · rw [ho]; exact ⟨_, hs, ht⟩
        · rw [ho]; exact ⟨_, hs, ht⟩
    | _ => exact ⟨[_], rfl, rfl⟩

/-- Everything that reached the database layer in a run. -/
def flat (rs : List (Call × Ret)) : List (Op × Out) := rs.flatMap (fun e => e.2.trace)

/-- No call of a null pointer in a run. -/
def Defined (rs : List (Call × Ret)) : Prop := ∀ e ∈ rs, e.2.result ≠ .undefined

theorem refines_runs (env : Env) (st : St) (cs : List Call) (hq : Quiet st)
    (hd : Defined (runs env st cs)) :
    ∃ ops, (final env st cs).sys = (run env st.sys ops).1 ∧
      flat (runs env st cs) = (run env st.sys ops).2 := by
  induction cs generalizing st with
  | nil => exact ⟨[], rfl, rfl⟩
  | cons c cs ih =>
    obtain ⟨o1, a1, a2⟩ := refines_step env st c (hd (c, step env st c) (by simp [runs])) hq
    obtain ⟨o2, b1, b2⟩ := ih (step env st c).st (quiet_step env st c hq)
      (fun e he => hd e (by simp [runs, he]))
    refine ⟨o1 ++ o2, ?_, ?_⟩
    · rw [run_append]
      show (final env (step env st c).st cs).sys = _
      rw [b1, a1]
    · rw [run_append]
      simp only [flat, runs, List.flatMap_cons]
      simp only [flat] at b2
      rw [b2, a2, a1]

/-! ## Numbers -/

def isPrepare : Op × Out → Bool
  | (.prepare _ _ _ _, _) => true
  | _ => false

/-- How many times a transaction was prepared. -/
def preps (tr : List (Op × Out)) : Nat := tr.countP isPrepare

/-- Nothing in a trace ended the process. -/
def Alive (tr : List (Op × Out)) : Prop :=
  ∀ e ∈ tr, e.2 ≠ .abort ∧ e.1 ≠ .crash ∧ ∀ h, e.1 ≠ .crashInCommit h

theorem lockRelease_next (s : Sys) : (lockRelease s).nextJournal = s.nextJournal := by
  rw [lockRelease_lock]

theorem rollback_next (s : Sys) (h : Nat) : (rollback s h).nextJournal = s.nextJournal := by
  unfold rollback
  dsimp only
  split
  · split
    · rw [lockRelease_next]
    · rfl
  · rfl

theorem lockAcquire_next (s : Sys) (h : Nat) : (lockAcquire s h).nextJournal = s.nextJournal := by
  unfold lockAcquire; split <;> rfl

theorem take_next (s : Sys) (h : Nat) : (take s h).nextJournal = s.nextJournal := by
  unfold take
  split
  · rfl
  · simp [lockAcquire_next]

theorem step_next (env : Env) (s : Sys) (op : Op) (ha : Alive [(op, (DB.step env s op).2)]) :
    (DB.step env s op).1.nextJournal =
      s.nextJournal + (if isPrepare (op, (DB.step env s op).2) then 1 else 0) := by
  have hna := (ha _ List.mem_cons_self).1
  have hnc := (ha _ List.mem_cons_self).2
  dsimp only at hna hnc
  cases op with
  | begin h e sy ok =>
    have : DB.step env s (.begin h e sy ok) = begin' s h e sy ok := by
      simp only [DB.step] at hna ⊢
      split
      · rename_i hc; simp [hc] at hna
      · rfl
    rw [this]
    simp only [isPrepare, Bool.false_eq_true, if_false, Nat.add_zero]
    unfold begin'
    split
    · rfl
    · cases e
      · simp only [Bool.false_eq_true, if_false]
        split
        · rw [rollback_next]
        · rfl
      · simp only [if_true]
        split
        · rw [rollback_next]; simp [lockAcquire_next]
        · simp [lockAcquire_next]
  | write h q k ok =>
    rw [step_write]
    simp only [isPrepare, Bool.false_eq_true, if_false, Nat.add_zero]
    unfold DB.write; dsimp only; split <;> rfl
  | prepare h w p ok =>
    have : DB.step env s (.prepare h w p ok) = DB.prepare env s h w p ok := by
      simp only [DB.step] at hna ⊢
      split
      · rename_i hc; simp [hc] at hna
      · rfl
    rw [this] at hna ⊢
    have hin : (s.handles h).inside = true := by
      cases hin : (s.handles h).inside with
      | true => rfl
      | false => simp [DB.prepare, hin] at hna
    rw [prepare_eq env s h w p ok hin]
    simp only [isPrepare, if_true]
    split
    · simp only [finish]
      cases ok
      · simp [rollback_next, take_next, reserve]
      · simp [take_next, reserve]
    · rfl
  | commit h ok =>
    have : DB.step env s (.commit h ok) = DB.commit s h ok := by
      simp only [DB.step] at hna ⊢
      split
      · rename_i hc; simp [hc] at hna
      · rfl
    rw [this]
    simp only [isPrepare, Bool.false_eq_true, if_false, Nat.add_zero]
    unfold DB.commit
    split
    · rfl
    · dsimp only
      split
      · rfl
      · split
        · rw [lockRelease_next]; rfl
        · rfl
  | rollback h => simp [DB.step, isPrepare, rollback_next]
  | setCommitEnabled t e =>
    simp only [isPrepare, Bool.false_eq_true, if_false, Nat.add_zero, DB.step]
    by_cases h1 : s.commitEnabled = e
    · simp [h1]
    · by_cases h2 : lockFree s t = true <;> simp [h1, h2]
  | pop => rfl
  | crash => exact (hnc.1 rfl).elim
  | crashInCommit h => exact (hnc.2 h rfl).elim

theorem run_next (env : Env) (ops : List Op) (s : Sys) (ha : Alive (run env s ops).2) :
    (run env s ops).1.nextJournal = s.nextJournal + preps (run env s ops).2 := by
  induction ops generalizing s with
  | nil => rfl
  | cons o ops ih =>
    simp only [run] at ha ⊢
    rw [ih _ (fun e he => ha e (by simp [he])),
      step_next env s o (fun e he => ha e (by simp only [List.mem_singleton] at he; simp [he]))]
    simp only [preps, List.countP_cons]
    omega

/-! ## What the trace says about the writes -/

theorem view_does (h : Nat) (noop : Bool) (as : List HAct) (v : View) (hp : v.prepped h = false) :
    let tr := (does h noop as).map returns
    (tr.foldl View.step v).log = v.log ∧ (tr.foldl View.step v).prepped = v.prepped ∧
    (tr.foldl View.step v).pend h = v.pend h ++ kept noop as ∧ Disciplined v tr := by
  induction as generalizing v with
  | nil => simp [does, kept, Disciplined]
  | cons a as ih =>
    cases a with
    | throws => simp [does, kept, Disciplined]
    | write idem q keep res =>
      by_cases hn : (noop && !idem) = true
      · simp only [does, kept, hn, if_true]; exact ih v hp
      · simp only [does, kept, hn, Bool.false_eq_true, if_false]
        cases res with
        | constraint =>
          cases keep <;> simp [returns, View.step, Disciplined, okCall, hp]
        | error =>
          have hv : v.step (.write h q keep false, .failed) = v := by cases keep <;> rfl
          have := ih v hp
          simpa [returns, hv, Disciplined, okCall, hp, show (Res.error == Res.ok) = false from rfl]
            using this
        | ok =>
          cases keep with
          | false =>
            have hv : v.step (.write h q false true, .done) = v := rfl
            have := ih v hp
            simpa [returns, hv, Disciplined, okCall, hp] using this
          | true =>
            have := ih (v.step (.write h q true true, .done)) (by simpa [View.step] using hp)
            simp only [returns, List.map_cons, List.foldl_cons, Disciplined, okCall, if_true,
              reduceCtorEq, if_false, BEq.rfl]
            refine ⟨this.1, this.2.1, ?_, hp, this.2.2.2⟩
            rw [this.2.2.1]
            simp [View.step]

/-- A failed `prepare` cannot be followed by a success. -/
theorem afterPrepare_failed (env : Env) (h : Nat) (x : CoreCommit.Ctx) (p : Sys)
    (tr : List (Op × Out)) : (afterPrepare env h x p tr false).result ≠ some true := by
  unfold afterPrepare
  dsimp only
  split
  · simp
  · simp [CoreCommit.giveUp]

theorem afterPrepare_prefix (env : Env) (h : Nat) (x : CoreCommit.Ctx) (p : Sys)
    (a b : List (Op × Out)) (ok : Bool) :
    afterPrepare env h x p (a ++ b) ok =
      { afterPrepare env h x p b ok with
        trace := a ++ (afterPrepare env h x p b ok).trace } := by
  unfold afterPrepare
  dsimp only
  repeat' split
  all_goals simp [CoreCommit.giveUp, List.append_assoc]

/-- A call of `SQLiteCore::commit` that asked, got the lock, and whose handler returned: the handler's
writes, then `SQLiteCore::commit` as it is without a handler. -/
theorem commit_asked (env : Env) (h : Nat) (x : CoreCommit.Ctx) (f : Handler) (st : St)
    (hin : (st.sys.handles h).inside = true) (hg : Gets st.sys h x.wait = true)
    (he : escapes (st.ext h).noop (f st.sys.nextJournal) = false) :
    let W := run env st.sys (does h (st.ext h).noop (f st.sys.nextJournal))
    let r := CoreCommit.commit env h x W.1
    (commit env h x true (some f) st).st.sys = r.sys ∧
    (commit env h x true (some f) st).trace = W.2 ++ r.trace ∧
    (commit env h x true (some f) st).told = some st.sys.nextJournal ∧
    (commit env h x true (some f) st).result =
      (match r.result with | none => .died | some b => .ret b) := by
  intro W r
  obtain ⟨h1, h2, h3, h4, h5⟩ := prepare_asked env st.sys (install (st.ext h) true (some f)) h x.wait
    x.pick x.insertOk f hin hg rfl rfl he
  have hn : (install (st.ext h) true (some f)).noop = (st.ext h).noop := rfl
  rw [hn] at h1 h2 h5
  have hna : (DB.prepare env W.1 h x.wait x.pick x.insertOk).2 ≠ .abort := by
    rw [h5]; cases x.insertOk <;> simp
  have hs : DB.step env W.1 (.prepare h x.wait x.pick x.insertOk) =
      DB.prepare env W.1 h x.wait x.pick x.insertOk := by
    simp [DB.step, hna]
  have hr : r = afterPrepare env h x (DB.prepare env W.1 h x.wait x.pick x.insertOk).1
      [(.prepare h x.wait x.pick x.insertOk, (DB.prepare env W.1 h x.wait x.pick x.insertOk).2)]
      x.insertOk := by
    simp only [r]
    rw [core_eq]
    simp only [run, hs]
    rw [if_neg (by simp [CoreCommit.died, hna])]
    congr 1
    simp only [List.map_cons, List.map_nil]
    rw [h5]
    cases x.insertOk <;> rfl
  have hc : commit env h x true (some f) st =
      (match r.result with
        | none => ⟨{ sys := r.sys, ext := fun _ => {} }, W.2 ++ r.trace, some st.sys.nextJournal, .died⟩
        | some b => ⟨{ sys := r.sys, ext := upd st.ext h (remove (install (st.ext h) true (some f)) true) },
            W.2 ++ r.trace, some st.sys.nextJournal, .ret b⟩) := by
    unfold commit
    dsimp only
    rw [h4, h1, h2, h3]
    cases hio : x.insertOk with
    | true =>
      simp only [if_true]
      rw [afterPrepare_prefix]
      rw [hio] at hr
      simp only [hr]
      simp only [show (POut.done == POut.done) = true from rfl]
      rfl
    | false =>
      simp only [Bool.false_eq_true, if_false]
      rw [afterPrepare_prefix]
      rw [hio] at hr
      simp only [hr]
      simp only [show (POut.failed == POut.done) = false from rfl]
      rfl
  rw [hc]
  split <;> simp_all

/-! ## C130 -/

/-- **C130** Handlers add nothing new to what can happen to the database: in any run of any
threads, with any handlers, the database goes through exactly what it would go through if every
handler's statements were issued by its command, on the same handle, just before the commit.  So
whatever is proved about runs of the database layer — hash chain, replication feed, journal,
recovery after a crash, the commit lock — holds with handlers too. -/
theorem c130_as_if_written_before (env : Env) (tb : Nat → List Row) (cs : List Call)
    (hd : Defined (runs env (start env tb) cs)) :
    ∃ ops, (OnPrepare.final env (start env tb) cs).sys = (run env (restart env tb) ops).1 ∧
      flat (runs env (start env tb) cs) = (run env (restart env tb) ops).2 :=
  refines_runs env (start env tb) cs (quiet_start env tb) hd

/-- **C130** In particular the hash and the number of commits the node answers with are those of
the committed transactions, the handlers' writes included. -/
theorem c130_chain (env : Env) (hnj : 0 < env.numJournals) (hne : ∀ x, env.sha1hex x ≠ [])
    (cs : List Call) (hd : Defined (runs env (start env (fun _ => [])) cs))
    (hdi : Disciplined {} (flat (runs env (start env (fun _ => [])) cs))) :
    let log := (view (flat (runs env (start env (fun _ => [])) cs))).log
    (OnPrepare.final env (start env (fun _ => [])) cs).sys.commitCount = log.length ∧
    (OnPrepare.final env (start env (fun _ => [])) cs).sys.lastHash = chain env.sha1hex log := by
  obtain ⟨ops, h1, h2⟩ := c130_as_if_written_before env (fun _ => []) cs hd
  have h2' : flat (runs env (start env (fun _ => [])) cs) = trace env ops := h2
  rw [h2'] at hdi
  have hi := reach hnj hne ops hdi
  dsimp only
  rw [h1, h2']
  exact ⟨hi.count, hi.hash⟩

/-- A handle with a transaction open and not yet prepared, in a process whose past is the run `ops`
of the database layer. -/
structure Ready (env : Env) (ops : List Op) (st : St) (h : Nat) : Prop where
  past : st.sys = DB.final env ops
  obeyed : Disciplined {} (trace env ops)
  opened : (st.sys.handles h).inside = true
  unprepared : (view (trace env ops)).prepped h = false
  quiet : Quiet st

theorem told_cases (env : Env) (h : Nat) (x : CoreCommit.Ctx) (asked : Bool) (f : Option Handler)
    (st : St) (hq : Quiet st) (id : Nat) (ht : (commit env h x asked f st).told = some id) :
    asked = true ∧ f ≠ none ∧ id = st.sys.nextJournal ∧ (st.sys.handles h).inside = true ∧
      Gets st.sys h x.wait = true := by
  have ht' : (prepare env st.sys (install (st.ext h) asked f) h x.wait x.pick x.insertOk).told =
      some id := by
    rw [← ht]; unfold commit; dsimp only
    split <;> (try rfl)
    split <;> rfl
  have hask : (install (st.ext h) asked f).notify = true → asked = true := by
    cases asked
    · intro hn; simp only [install, Bool.false_eq_true, if_false] at hn
      rw [(hq h).1] at hn; simp at hn
    · intro _; rfl
  have hnn : asked = true → (install (st.ext h) asked f).handler = f := by
    intro ha; simp [install, ha]
  have hin : (st.sys.handles h).inside = true := by
    cases hin : (st.sys.handles h).inside with
    | true => rfl
    | false => rw [prepare_outside _ _ _ _ _ _ _ hin] at ht'; simp at ht'
  have hg : Gets st.sys h x.wait = true := by
    cases hg : Gets st.sys h x.wait with
    | true => rfl
    | false => rw [(prepare_refused env _ _ h _ _ _ hin hg).1] at ht'; simp at ht'
  have hw := prepare_ways env st.sys (install (st.ext h) asked f) h x.wait x.pick x.insertOk
  dsimp only at hw
  rw [ht'] at hw
  rcases hw with ⟨_, _, _, hn, _⟩ | ⟨_, hn, _⟩ | ⟨_, ho, hn, g, hgf, _⟩ | ⟨_, ops, _, _, _, hh⟩
  · simp at hn
  · simp at hn
  · have ha := hask hn
    refine ⟨ha, ?_, by simpa using ho, hin, hg⟩
    rw [← hnn ha, hgf]; simp
  · rcases hh with ⟨hn, _⟩ | ⟨ho, hn, _, g, hgf, _⟩
    · simp at hn
    · have ha := hask hn
      refine ⟨ha, ?_, by simpa using ho, hin, hg⟩
      rw [← hnn ha, hgf]; simp

/-- **C130** A handler is called when, and only when, its command asked for it and its transaction
holds the commit lock or can take it before the deadline: never for a command that did not ask, never
while another transaction is being committed. -/
theorem c130_called_iff (env : Env) (h : Nat) (x : CoreCommit.Ctx) (asked : Bool)
    (f : Option Handler) (st : St) (hq : Quiet st) (hin : (st.sys.handles h).inside = true) (id : Nat) :
    (commit env h x asked f st).told = some id ↔
      asked = true ∧ f ≠ none ∧ id = st.sys.nextJournal ∧
        ((st.sys.handles h).locked = true ∨ (x.wait = true ∧ lockFree st.sys h = true)) := by
  constructor
  · intro ht
    obtain ⟨h1, h2, h3, _, h5⟩ := told_cases env h x asked f st hq id ht
    exact ⟨h1, h2, h3, by simpa [Gets] using h5⟩
  · rintro ⟨rfl, h2, rfl, h4⟩
    have hg : Gets st.sys h x.wait = true := by simpa [Gets] using h4
    cases f with
    | none => simp at h2
    | some g =>
      cases he : escapes (st.ext h).noop (g st.sys.nextJournal) with
      | false => exact (commit_asked env h x g st hin hg he).2.2.1
      | true =>
        obtain ⟨e1, e2, _⟩ := prepare_escaped env st.sys (install (st.ext h) true (some g)) h x.wait
          x.pick x.insertOk g hin hg rfl rfl he
        unfold commit
        dsimp only
        rw [e1]
        exact e2

/-- **C130** Nothing else ever calls a handler: not the preparation of a replicated transaction on a
follower, not any other call on any handle, and not a command that did not ask, even on the handle a
handler was installed on a moment ago and even if that commit failed. -/
theorem c130_nobody_else (env : Env) (tb : Nat → List Row) (cs : List Call) (c : Call) (id : Nat)
    (ht : (step env (OnPrepare.final env (start env tb) cs) c).told = some id) :
    (∃ h x f, c = .commit h x true (some f)) ∨
    (∃ h cmd x f, c = .work h cmd x ∧ cmd.asked = true ∧ cmd.handler = some f) := by
  have hq := quiet_final env (start env tb) cs (quiet_start env tb)
  generalize OnPrepare.final env (start env tb) cs = st at *
  cases c with
  | commit h x asked f =>
    obtain ⟨h1, h2, _⟩ := told_cases env h x asked f st hq id ht
    cases f with
    | none => simp at h2
    | some g => exact Or.inl ⟨h, x, g, by rw [h1]⟩
  | work h cmd x =>
    right
    simp only [step, work] at ht
    split at ht
    · simp at ht
    · have hq' := quiet_setNoop st hq h cmd.mock
      obtain ⟨h1, h2, _⟩ := told_cases env h x cmd.asked cmd.handler _
        (quiet_setNoop _ (by exact hq') h false) id ht
      cases hf : cmd.handler with
      | none => simp [hf] at h2
      | some g => exact ⟨h, cmd, x, g, rfl, h1, hf⟩
  | op o =>
    exfalso
    cases o with
    | prepare h w p ok =>
      have hw := (prepare_quiet env st.sys (st.ext h) h w p ok (hq h).1).2.2.1
      simp only [step] at ht
      split at ht <;> simp [hw] at ht
    | _ => simp [step] at ht

/-- **C130** Nor is it called for a command whose transaction cannot get the commit lock because
another thread has it. -/
theorem c130_not_without_lock (env : Env) (h : Nat) (x : CoreCommit.Ctx) (asked : Bool)
    (f : Option Handler) (st : St) (hq : Quiet st) (o n : Nat) (hl : st.sys.lock = some (o, n))
    (ho : o ≠ h) (hh : (st.sys.handles h).locked = false) :
    (commit env h x asked f st).told = none := by
  cases ht : (commit env h x asked f st).told with
  | none => rfl
  | some id =>
    obtain ⟨_, _, _, _, hg⟩ := told_cases env h x asked f st hq id ht
    simp [Gets, hh, lockFree, hl, ho] at hg

/-- **C130** One transaction: if the commit succeeds, then it was on a leading node, the handler was
called, and the newest entry of the history is the command's text followed by the text of the
statements of the handler that took effect — once, in order, and directly on top of the history
there was. -/
theorem c130_one_transaction (env : Env) (hnj : 0 < env.numJournals)
    (hne : ∀ x, env.sha1hex x ≠ []) (ops : List Op) (st : St) (h : Nat) (hr : Ready env ops st h)
    (x : CoreCommit.Ctx) (f : Handler)
    (hdc : Disciplined (view (trace env ops)) (commit env h x true (some f) st).trace)
    (hf : ∀ op ∈ x.gap₁ ++ x.gap₂ ++ x.gap₃, CoreCommit.Props.Foreign h op)
    (hs : (commit env h x true (some f) st).result = .ret true) :
    x.leading = true ∧
    (commit env h x true (some f) st).told = some st.sys.nextJournal ∧
    ((commit env h x true (some f) st).trace.foldl View.step (view (trace env ops))).log =
      history env ops ++ [(view (trace env ops)).pend h ++
        kept (st.ext h).noop (f st.sys.nextJournal)] := by
  have hin := hr.opened
  have hi := reach hnj hne ops hr.obeyed
  rw [← hr.past] at hi
  -- the lock was there
  have hg : Gets st.sys h x.wait = true := by
    cases hg : Gets st.sys h x.wait with
    | true => rfl
    | false =>
      exfalso
      unfold commit at hs
      dsimp only at hs
      rw [(prepare_refused env _ _ h _ _ _ hin hg).1] at hs
      dsimp only at hs
      have := afterPrepare_failed env h x (DB.prepare env st.sys h x.wait x.pick x.insertOk).1
        [(.prepare h x.wait x.pick x.insertOk, .failed)]
      simp only [show (POut.failed == POut.done) = false from rfl] at hs
      split at hs
      · simp at hs
      · rename_i b hb
        simp at hs
        rw [hs] at hb
        exact this hb
  -- the handler returned
  have he : escapes (st.ext h).noop (f st.sys.nextJournal) = false := by
    cases he : escapes (st.ext h).noop (f st.sys.nextJournal) with
    | false => rfl
    | true =>
      exfalso
      have e1 := (prepare_escaped env st.sys (install (st.ext h) true (some f)) h x.wait
        x.pick x.insertOk f hin hg rfl rfl he).1
      unfold commit at hs
      dsimp only at hs
      rw [e1] at hs
      simp at hs
  obtain ⟨c1, c2, c3, c4⟩ := commit_asked env h x f st hin hg he
  rw [c4] at hs
  rw [c2] at hdc ⊢
  rw [c3]
  rw [trace_does env h _ _ _ hin] at hdc ⊢
  obtain ⟨v1, v2, v3, v4⟩ := view_does h (st.ext h).noop (f st.sys.nextJournal)
    (view (trace env ops)) hr.unprepared
  rw [CoreCommit.Props.disciplined_append] at hdc
  have hi' : Inv env (run env st.sys (does h (st.ext h).noop (f st.sys.nextJournal))).1
      (((does h (st.ext h).noop (f st.sys.nextJournal)).map returns).foldl View.step
        (view (trace env ops))) := by
    rw [← trace_does env h _ _ _ hin]
    exact inv_run hnj hne _ _ _ hi (by rw [trace_does env h _ _ _ hin]; exact v4)
  have hout := CoreCommit.Props.outcome hnj hne h x _ _ hi'
    (by rw [run_does env h _ _ _ hin, addText_handle]; exact hin)
    (by rw [v2]; exact hr.unprepared) hdc.2 hf
  have hst : (CoreCommit.commit env h x
      (run env st.sys (does h (st.ext h).noop (f st.sys.nextJournal))).1).result = some true := by
    revert hs
    split
    · simp
    · rename_i b hb
      intro hs
      simp at hs
      rw [hb, hs]
  obtain ⟨o1, o2⟩ := hout.1.success hst
  refine ⟨o1, rfl, ?_⟩
  rw [List.foldl_append, o2, v1, v3]
  rfl

/-- **C130** All or nothing: if the commit reports failure, nothing of this handle was committed — so
nothing the handler wrote — and the transaction is closed, ready for the command to be run again. -/
theorem c130_all_or_nothing (env : Env) (hnj : 0 < env.numJournals)
    (hne : ∀ x, env.sha1hex x ≠ []) (ops : List Op) (st : St) (h : Nat) (hr : Ready env ops st h)
    (x : CoreCommit.Ctx) (f : Handler)
    (hdc : Disciplined (view (trace env ops)) (commit env h x true (some f) st).trace)
    (hf : ∀ op ∈ x.gap₁ ++ x.gap₂ ++ x.gap₃, CoreCommit.Props.Foreign h op)
    (hg : Gets st.sys h x.wait = true)
    (hs : (commit env h x true (some f) st).result = .ret false) :
    (∀ e ∈ (commit env h x true (some f) st).trace, e.2 = .committed →
      ∃ h' ok, h' ≠ h ∧ e.1 = .commit h' ok) ∧
    (((commit env h x true (some f) st).st.sys.handles h).inside = false ∧
     ((commit env h x true (some f) st).st.sys.handles h).locked = false) := by
  have hin := hr.opened
  have hi := reach hnj hne ops hr.obeyed
  rw [← hr.past] at hi
  have he : escapes (st.ext h).noop (f st.sys.nextJournal) = false := by
    cases he : escapes (st.ext h).noop (f st.sys.nextJournal) with
    | false => rfl
    | true =>
      exfalso
      have e1 := (prepare_escaped env st.sys (install (st.ext h) true (some f)) h x.wait
        x.pick x.insertOk f hin hg rfl rfl he).1
      unfold commit at hs
      dsimp only at hs
      rw [e1] at hs
      simp at hs
  obtain ⟨c1, c2, c3, c4⟩ := commit_asked env h x f st hin hg he
  rw [c4] at hs
  rw [c2] at hdc ⊢
  rw [c1]
  rw [trace_does env h _ _ _ hin] at hdc ⊢
  obtain ⟨v1, v2, v3, v4⟩ := view_does h (st.ext h).noop (f st.sys.nextJournal)
    (view (trace env ops)) hr.unprepared
  rw [CoreCommit.Props.disciplined_append] at hdc
  have hi' : Inv env (run env st.sys (does h (st.ext h).noop (f st.sys.nextJournal))).1
      (((does h (st.ext h).noop (f st.sys.nextJournal)).map returns).foldl View.step
        (view (trace env ops))) := by
    rw [← trace_does env h _ _ _ hin]
    exact inv_run hnj hne _ _ _ hi (by rw [trace_does env h _ _ _ hin]; exact v4)
  have hout := CoreCommit.Props.outcome hnj hne h x _ _ hi'
    (by rw [run_does env h _ _ _ hin, addText_handle]; exact hin)
    (by rw [v2]; exact hr.unprepared) hdc.2 hf
  have hst : (CoreCommit.commit env h x
      (run env st.sys (does h (st.ext h).noop (f st.sys.nextJournal))).1).result = some false := by
    revert hs
    split
    · simp
    · rename_i b hb
      intro hs
      simp at hs
      rw [hb, hs]
  refine ⟨?_, hout.1.closed (by rw [hst]; simp)⟩
  intro e hem hc
  rcases List.mem_append.mp hem with hm | hm
  · exfalso
    obtain ⟨o, _, rfl⟩ := List.mem_map.mp hm
    cases o <;> simp [returns] at hc
    split at hc <;> simp at hc
  · exact hout.1.failure hst e hm hc

theorem run_does_next (env : Env) (h : Nat) (noop : Bool) (as : List HAct) (s : Sys) :
    (run env s (does h noop as)).1.nextJournal = s.nextJournal := by
  have one : ∀ (s : Sys) q k ok, (DB.write s h q k ok).1.nextJournal = s.nextJournal := by
    intro s q k ok; unfold DB.write; dsimp only; split <;> rfl
  induction as generalizing s with
  | nil => rfl
  | cons a as ih =>
    cases a with
    | throws => rfl
    | write idem q keep res =>
      by_cases hn : (noop && !idem) = true
      · simp only [does, hn, if_true]; exact ih s
      · simp only [does, hn, Bool.false_eq_true, if_false]
        split
        · simp [run, step_write, one]
        · simp only [run, step_write]; rw [ih, one]

theorem setNoop_next (st : St) (h : Nat) (on : Bool) :
    (setNoop st h on).1.sys.nextJournal = st.sys.nextJournal := by
  unfold setNoop
  split
  · rfl
  · dsimp only
    split
    · unfold DB.write; dsimp only; split <;> rfl
    · rfl

/-- **C130** The number a handler is given is the number of transactions prepared by the process
since it started: by anybody, whether they were committed or not. -/
theorem c130_number (env : Env) (tb : Nat → List Row) (cs : List Call) (c : Call) (id : Nat)
    (hd : Defined (runs env (start env tb) cs)) (ha : Alive (flat (runs env (start env tb) cs)))
    (ht : (step env (OnPrepare.final env (start env tb) cs) c).told = some id) :
    id = preps (flat (runs env (start env tb) cs)) := by
  have hq := quiet_final env (start env tb) cs (quiet_start env tb)
  obtain ⟨ops, h1, h2⟩ := c130_as_if_written_before env tb cs hd
  have hn : (OnPrepare.final env (start env tb) cs).sys.nextJournal =
      preps (flat (runs env (start env tb) cs)) := by
    rw [h1, h2, run_next env ops _ (by rw [← h2]; exact ha)]
    simp [restart]
  rw [← hn]
  generalize OnPrepare.final env (start env tb) cs = st at *
  cases c with
  | commit h x asked f => exact (told_cases env h x asked f st hq id ht).2.2.1
  | work h cmd x =>
    simp only [step, work] at ht
    split at ht
    · simp at ht
    · have hq' := quiet_setNoop st hq h cmd.mock
      have := (told_cases env h x cmd.asked cmd.handler _
        (quiet_setNoop _ (by exact hq') h false) id ht).2.2.1
      rw [this, setNoop_next]
      simp only [acts_run env]
      rw [run_does_next, setNoop_next]
  | op o =>
    exfalso
    cases o with
    | prepare h w p ok =>
      have hw := (prepare_quiet env st.sys (st.ext h) h w p ok (hq h).1).2.2.1
      simp only [step] at ht
      split at ht <;> simp [hw] at ht
    | _ => simp [step] at ht

theorem told_prepares (env : Env) (h : Nat) (x : CoreCommit.Ctx) (asked : Bool) (f : Option Handler)
    (st : St) (id : Nat) (ht : (commit env h x asked f st).told = some id)
    (hr : (commit env h x asked f st).result ≠ .died) :
    1 ≤ preps (commit env h x asked f st).trace := by
  have hw := prepare_ways env st.sys (install (st.ext h) asked f) h x.wait x.pick x.insertOk
  dsimp only at hw
  unfold commit at ht hr ⊢
  dsimp only at ht hr ⊢
  rcases hw with ⟨ho, _⟩ | ⟨ho, hn, _⟩ | ⟨ho, _⟩ | ⟨ho, ops, hs, htr, _⟩
  · rw [ho] at hr; simp at hr
  · rw [ho] at ht; simp [hn] at ht
  · rw [ho] at hr; simp at hr
  · generalize hp : prepare env st.sys (install (st.ext h) asked f) h x.wait x.pick x.insertOk = p at *
    have hone : 1 ≤ preps p.trace := by
      rw [htr, run_append]
      simp only [preps, List.countP_append, run, List.countP_cons, List.countP_nil, isPrepare]
      simp
    have key : ∀ ok, 1 ≤ preps (afterPrepare env h x p.sys p.trace ok).trace := by
      intro ok
      obtain ⟨ops', _, h2⟩ := afterPrepare_run env h x p.sys p.trace ok
      rw [h2]
      simp only [preps, List.countP_append] at hone ⊢
      omega
    have := key (p.out == .done)
    rcases ho with ho | ho
    · rw [ho] at this ⊢
      dsimp only
      split
      · exact this
      · exact this
    · rw [ho] at this ⊢
      dsimp only
      split
      · exact this
      · exact this

/-- **C130** No two handlers are given the same number while the process lives. -/
theorem c130_numbers_differ (env : Env) (tb : Nat → List Row) (cs₁ cs₂ : List Call)
    (c₁ c₂ : Call) (i j : Nat)
    (hd : Defined (runs env (start env tb) (cs₁ ++ c₁ :: cs₂)))
    (ha : Alive (flat (runs env (start env tb) (cs₁ ++ c₁ :: cs₂))))
    (h1 : (step env (OnPrepare.final env (start env tb) cs₁) c₁).told = some i)
    (hl : (step env (OnPrepare.final env (start env tb) cs₁) c₁).result ≠ .died)
    (h2 : (step env (OnPrepare.final env (start env tb) (cs₁ ++ c₁ :: cs₂)) c₂).told = some j) :
    i < j := by
  have hsplit : ∀ (a b : List Call) (st : St), runs env st (a ++ b) =
      runs env st a ++ runs env (OnPrepare.final env st a) b := by
    intro a b
    induction a with
    | nil => intro st; rfl
    | cons c a ih => intro st; simp only [List.cons_append, runs, ih]; rfl
  rw [c130_number env tb _ c₂ j hd ha h2]
  rw [hsplit] at hd ha ⊢
  rw [c130_number env tb cs₁ c₁ i (fun e he => hd e (by simp [he]))
    (fun e he => ha e (by
      simp only [flat, List.flatMap_append, List.mem_append]
      exact Or.inl he)) h1]
  simp only [flat, preps, runs, List.flatMap_append, List.flatMap_cons, List.countP_append]
  suffices 1 ≤ (step env (OnPrepare.final env (start env tb) cs₁) c₁).trace.countP isPrepare by omega
  rcases c130_nobody_else env tb cs₁ c₁ i h1 with ⟨h, x, f, rfl⟩ | ⟨h, cmd, x, f, rfl, _, _⟩
  · exact told_prepares env h x true (some f) _ i h1 hl
  · simp only [step, work] at h1 hl ⊢
    split at h1
    · simp at h1
    · rename_i hc
      rw [if_neg hc] at hl ⊢
      have := told_prepares env h x cmd.asked cmd.handler _ i h1 hl
      simp only [preps] at this
      simp only [List.countP_append]
      omega

/-- **C130** A handler that lets an exception out — a constraint its own statement violates is one —
ends the server: the process is gone, and every transaction open on any handle with it.  No commit
was made. -/
theorem c130_exception_kills_partial (env : Env) (h : Nat) (x : CoreCommit.Ctx) (f : Handler) (st : St)
    (hin : (st.sys.handles h).inside = true) (hg : Gets st.sys h x.wait = true)
    (he : escapes (st.ext h).noop (f st.sys.nextJournal) = true) :
    (commit env h x true (some f) st).result = .died ∧
    (commit env h x true (some f) st).st.sys = restart env st.sys.tables ∧
    (∀ k, ((commit env h x true (some f) st).st.sys.handles k).inside = false) := by
  have e1 := (prepare_escaped env st.sys (install (st.ext h) true (some f)) h x.wait
    x.pick x.insertOk f hin hg rfl rfl he).1
  have hc : commit env h x true (some f) st = ⟨dead env st.sys,
      (prepare env st.sys (install (st.ext h) true (some f)) h x.wait x.pick x.insertOk).trace ++
        [(.crash, .done)],
      (prepare env st.sys (install (st.ext h) true (some f)) h x.wait x.pick x.insertOk).told, .died⟩ := by
    unfold commit
    dsimp only
    rw [e1]
  rw [hc]
  exact ⟨rfl, rfl, fun _ => rfl⟩

/-- **C130** The same statements in the command itself only fail the command: nothing is committed,
the handler is not called, and the other transactions are untouched. -/
theorem c130_command_exception (env : Env) (h : Nat) (c : Cmd) (x : CoreCommit.Ctx) (st : St)
    (he : escapes c.mock c.body = true) :
    (work env h c x st).result = .nothing ∧ (work env h c x st).told = none ∧
    (work env h c x st).st.sys.tables = st.sys.tables ∧
    (∀ k, k ≠ h → (work env h c x st).st.sys.handles k = st.sys.handles k) := by
  have hno : ((setNoop st h c.mock).1.ext h).noop = c.mock := by
    unfold setNoop
    split
    · rename_i hc; exact hc
    · dsimp only; split <;> simp
  have hwr : ∀ (s : Sys) q k ok, (DB.write s h q k ok).1.tables = s.tables ∧
      ∀ j, j ≠ h → (DB.write s h q k ok).1.handles j = s.handles j := by
    intro s q k ok
    unfold DB.write; dsimp only
    split
    · exact ⟨rfl, fun j hj => upd_ne _ _ hj⟩
    · exact ⟨rfl, fun j _ => rfl⟩
  have hsn : ∀ (s : St) on, (setNoop s h on).1.sys.tables = s.sys.tables ∧
      ∀ j, j ≠ h → (setNoop s h on).1.sys.handles j = s.sys.handles j := by
    intro s on
    unfold setNoop
    split
    · exact ⟨rfl, fun _ _ => rfl⟩
    · dsimp only
      split
      · exact hwr _ _ _ _
      · exact ⟨rfl, fun _ _ => rfl⟩
  have hdo : ∀ (as : List HAct) (noop : Bool) (s : Sys),
      ∀ j, j ≠ h → (run env s (does h noop as)).1.handles j = s.handles j := by
    intro as noop
    induction as with
    | nil => intro s j hj; rfl
    | cons a as ih =>
      intro s j hj
      cases a with
      | throws => rfl
      | write idem q keep res =>
        by_cases hn : (noop && !idem) = true
        · simp only [does, hn, if_true]; exact ih s j hj
        · simp only [does, hn, Bool.false_eq_true, if_false]
          split
          · simp only [run, step_write]; exact (hwr _ _ _ _).2 j hj
          · simp only [run, step_write]; rw [ih _ j hj]; exact (hwr _ _ _ _).2 j hj
  have hrb : ∀ s : Sys, (rollback s h).tables = s.tables := by
    intro s
    unfold rollback
    dsimp only
    split
    · split
      · rw [lockRelease_lock]
      · rfl
    · rfl
  unfold work
  simp only [acts_run env, hno, he, Bool.not_true, Bool.not_false, Bool.true_or, if_true]
  refine ⟨trivial, trivial, ?_, ?_⟩
  · rw [(hsn _ false).1, hrb, run_does_tables, (hsn _ c.mock).1]
  · intro k hk
    rw [(hsn _ false).2 k hk, CoreCommit.Props.rollback_handles _ (Ne.symm hk),
      hdo _ _ _ k hk, (hsn _ c.mock).2 k hk]

/-- **C130** Asking without giving a handler is undefined behaviour as soon as the lock is there. -/
theorem c130_null_handler (env : Env) (h : Nat) (x : CoreCommit.Ctx) (st : St)
    (hin : (st.sys.handles h).inside = true) (hg : Gets st.sys h x.wait = true) :
    (commit env h x true none st).result = .undefined := by
  have := (prepare_null env st.sys (install (st.ext h) true none) h x.wait x.pick x.insertOk hin hg
    rfl rfl).1
  unfold commit
  dsimp only
  rw [this]

/-! ## A whole command -/

/-- What turning no-op mode on or off amounts to. -/
def pragma (cur on : Bool) : List HAct :=
  if cur = on then []
  else [.write true (if on then (b!"PRAGMA noop_update=ON;") else (b!"PRAGMA noop_update=OFF;")) true .ok]

theorem setNoop_does (env : Env) (st : St) (h : Nat) (on : Bool)
    (hin : (st.sys.handles h).inside = true) :
    (setNoop st h on).1.sys = (run env st.sys (does h false (pragma (st.ext h).noop on))).1 ∧
    (setNoop st h on).2 = (run env st.sys (does h false (pragma (st.ext h).noop on))).2 ∧
    ((setNoop st h on).1.ext h).noop = on ∧
    ((setNoop st h on).1.ext h).notify = (st.ext h).notify := by
  unfold setNoop pragma
  by_cases hc : (st.ext h).noop = on
  · simp only [hc, if_true, does, run, and_self]
  · simp only [hc, if_false, hin, if_true, does, Bool.false_and, Bool.false_eq_true, reduceCtorEq, run,
      step_write, upd_same, BEq.rfl, and_self]

theorem final_append (env : Env) (a b : List Op) :
    DB.final env (a ++ b) = (run env (DB.final env a) b).1 ∧
    trace env (a ++ b) = trace env a ++ (run env (DB.final env a) b).2 := by
  unfold DB.final trace
  rw [run_append]
  exact ⟨rfl, rfl⟩

/-- Statements on the open transaction. -/
theorem ready_does (env : Env) (ops : List Op) (st st' : St) (h : Nat) (hr : Ready env ops st h)
    (noop : Bool) (as : List HAct) (hq : Quiet st')
    (hs : st'.sys = (run env st.sys (does h noop as)).1) :
    Ready env (ops ++ does h noop as) st' h ∧
    history env (ops ++ does h noop as) = history env ops ∧
    (view (trace env (ops ++ does h noop as))).pend h = (view (trace env ops)).pend h ++ kept noop as := by
  have hin := hr.opened
  obtain ⟨v1, v2, v3, v4⟩ := view_does h noop as (view (trace env ops)) hr.unprepared
  have htr : trace env (ops ++ does h noop as) = trace env ops ++ (does h noop as).map returns := by
    rw [(final_append env ops _).2, ← hr.past, trace_does env h noop as st.sys hin]
  have hv : view (trace env (ops ++ does h noop as)) =
      ((does h noop as).map returns).foldl View.step (view (trace env ops)) := by
    rw [htr, view_append]
  refine ⟨⟨?_, ?_, ?_, ?_, hq⟩, ?_, ?_⟩
  · rw [hs, (final_append env ops _).1, ← hr.past]
  · rw [htr, CoreCommit.Props.disciplined_append]
    exact ⟨hr.obeyed, v4⟩
  · rw [hs, run_does env h noop as st.sys hin, addText_handle]; exact hin
  · rw [hv, v2]; exact hr.unprepared
  · unfold history; rw [hv, v1]
  · rw [hv, v3]

/-- **C130** A whole command, from its first statement to its commit.  What is committed is: the
text there was, the command's own statements — only the idempotent ones count if the request is
mocked, and they are enclosed in the pragma that stops them from having an effect — and then the
handler's.  The handler's ordinary writes count **even if the request is mocked**: no-op mode has
been turned off by then.  (`_partial`: mocked requests are supposed not to write.) -/
theorem c130_command_partial (env : Env) (hnj : 0 < env.numJournals)
    (hne : ∀ x, env.sha1hex x ≠ []) (ops : List Op) (st : St) (h : Nat) (hr : Ready env ops st h)
    (hn : (st.ext h).noop = false) (c : Cmd) (x : CoreCommit.Ctx) (f : Handler)
    (hask : c.asked = true) (hfun : c.handler = some f)
    (hdc : Disciplined (view (trace env ops)) (work env h c x st).trace)
    (hf : ∀ op ∈ x.gap₁ ++ x.gap₂ ++ x.gap₃, CoreCommit.Props.Foreign h op)
    (hs : (work env h c x st).result = .ret true) :
    (work env h c x st).told = some st.sys.nextJournal ∧
    ((work env h c x st).trace.foldl View.step (view (trace env ops))).log =
      history env ops ++ [(view (trace env ops)).pend h ++
        (if c.mock then (b!"PRAGMA noop_update=ON;") else []) ++ kept c.mock c.body ++
        (if c.mock then (b!"PRAGMA noop_update=OFF;") else []) ++
        kept false (f st.sys.nextJournal)] := by
  -- no-op mode on
  obtain ⟨a1, a2, a3, a4⟩ := setNoop_does env st h c.mock hr.opened
  obtain ⟨ra, la, pa⟩ := ready_does env ops st _ h hr false (pragma (st.ext h).noop c.mock)
    (quiet_setNoop st hr.quiet h c.mock) a1
  generalize hA : setNoop st h c.mock = A at *
  -- the command
  obtain ⟨rb, lb, pb⟩ := ready_does env _ A.1 { A.1 with sys := (run env A.1.sys (does h c.mock c.body)).1 }
    h ra c.mock c.body ra.quiet rfl
  -- no-op mode off
  obtain ⟨d1, d2, d3, d4⟩ := setNoop_does env
    { A.1 with sys := (run env A.1.sys (does h c.mock c.body)).1 } h false rb.opened
  obtain ⟨rd, ld, pd⟩ := ready_does env _ _ _ h rb false
    (pragma ({ A.1 with sys := (run env A.1.sys (does h c.mock c.body)).1 : St}.ext h).noop false)
    (quiet_setNoop _ rb.quiet h false) d1
  have hwork : work env h c x st =
      if (!(!escapes c.mock c.body) || ((run env A.1.sys (does h c.mock c.body)).1.handles h).uquery.isEmpty &&
          !c.commitEmpty) = true then
        ⟨(setNoop { A.1 with sys := rollback (run env A.1.sys (does h c.mock c.body)).1 h } h false).1,
          A.2 ++ (run env A.1.sys (does h c.mock c.body)).2 ++ [(.rollback h, .done)] ++
          (setNoop { A.1 with sys := rollback (run env A.1.sys (does h c.mock c.body)).1 h } h false).2,
          none, .nothing⟩
      else
        { commit env h x true (some f)
            (setNoop { A.1 with sys := (run env A.1.sys (does h c.mock c.body)).1 } h false).1 with
          trace := A.2 ++ (run env A.1.sys (does h c.mock c.body)).2 ++
            (setNoop { A.1 with sys := (run env A.1.sys (does h c.mock c.body)).1 } h false).2 ++
            (commit env h x true (some f)
              (setNoop { A.1 with sys := (run env A.1.sys (does h c.mock c.body)).1 } h false).1).trace } := by
    unfold work
    dsimp only
    rw [hA, acts_run env, a3, hask, hfun]
  rw [hwork] at hs hdc ⊢
  split at hs
  · simp at hs
  rename_i hcond
  rw [if_neg hcond] at hdc ⊢
  dsimp only at hs hdc ⊢
  generalize hD : setNoop { A.1 with sys := (run env A.1.sys (does h c.mock c.body)).1 } h false = D at *
  -- the views line up
  have hv : (A.2 ++ (run env A.1.sys (does h c.mock c.body)).2 ++ D.2).foldl View.step (view (trace env ops)) =
      view (trace env (ops ++ does h false (pragma (st.ext h).noop c.mock) ++ does h c.mock c.body ++
        does h false (pragma (A.1.ext h).noop false))) := by
    rw [(final_append env _ _).2, view_append, (final_append env _ _).2, view_append,
      (final_append env _ _).2, view_append, List.foldl_append, List.foldl_append,
      ← rb.past, ← ra.past, ← hr.past, a2, d2]
  rw [CoreCommit.Props.disciplined_append] at hdc
  have hdc2 := hdc.2
  rw [hv] at hdc2
  obtain ⟨_, t1, t2⟩ := c130_one_transaction env hnj hne _ D.1 h rd x f hdc2 hf hs
  have hnj' : D.1.sys.nextJournal = st.sys.nextJournal := by
    rw [d1, run_does_next]
    show (run env A.1.sys (does h c.mock c.body)).1.nextJournal = _
    rw [run_does_next, a1, run_does_next]
  rw [t1, hnj']
  refine ⟨rfl, ?_⟩
  rw [List.foldl_append, hv, t2, hnj', d3, ld, lb, la]
  have hp : (view (trace env (ops ++ does h false (pragma (st.ext h).noop c.mock) ++
      does h c.mock c.body ++ does h false (pragma (A.1.ext h).noop false)))).pend h =
      (view (trace env ops)).pend h ++ (if c.mock then (b!"PRAGMA noop_update=ON;") else []) ++
        kept c.mock c.body ++ (if c.mock then (b!"PRAGMA noop_update=OFF;") else []) := by
    rw [pd, pb, pa, a3, hn]
    cases c.mock <;> simp [pragma, kept]
  rw [hp]

/-- **C130** A command that wrote nothing is not committed, and its handler is not called — unless it
said that an empty transaction is to be committed, and then the handler is called (given the lock)
and its statements are all there is. -/
theorem c130_empty (env : Env) (h : Nat) (c : Cmd) (x : CoreCommit.Ctx) (st : St) (f : Handler)
    (hq : Quiet st) (hn : (st.ext h).noop = false) (hin : (st.sys.handles h).inside = true)
    (hu : (st.sys.handles h).uquery = []) (hm : c.mock = false) (hk : kept false c.body = [])
    (he : escapes false c.body = false) (hask : c.asked = true) (hf : c.handler = some f)
    (hg : Gets st.sys h x.wait = true) :
    (work env h c x st).told = (if c.commitEmpty then some st.sys.nextJournal else none) ∧
    (c.commitEmpty = false → (work env h c x st).result = .nothing) := by
  have hA : setNoop st h c.mock = (st, []) := by simp [setNoop, hn, hm]
  have hs : (run env st.sys (does h false c.body)).1 = st.sys := by
    rw [run_does env h false c.body st.sys hin, hk, addText_nil]
  have hD : setNoop st h false = (st, []) := by simp [setNoop, hn]
  cases hce : c.commitEmpty with
  | false =>
    unfold work
    simp only [hA, acts_run env, hn, he, hs, hu, hce]
    simp
  | true =>
    have hw : (work env h c x st).told = (commit env h x true (some f) st).told := by
      unfold work
      simp only [hA, acts_run env, hn, he, hs, hu, hce, hask, hf, hD]
      simp
    rw [hw]
    refine ⟨?_, fun hc => by simp at hc⟩
    rw [if_pos rfl, c130_called_iff env h x true (some f) st hq hin]
    exact ⟨rfl, by simp, rfl, by simpa [Gets] using hg⟩

/-! ## Concrete cases -/

/-- A handler that makes an ordinary write naming the number it was given, an idempotent one, one
that changes nothing, and one that fails. -/
def exHandler : Handler := fun id =>
  [.write false [UInt8.ofNat (48 + id)] true .ok, .write true [90] true .ok,
   .write false [91] false .ok, .write false [92] true .error]

def exOpen : St := { start exEnv (fun _ => []) with
  sys := DB.final exEnv [.begin 0 false false true, .write 0 [65] true true] }

theorem exReady : Ready exEnv [.begin 0 false false true, .write 0 [65] true true] exOpen 0 := by
  refine ⟨rfl, by decide +kernel, by decide +kernel, by decide +kernel, fun _ => ⟨rfl, rfl⟩⟩

/-- A commit with a handler, while another thread tries to write and prepare. -/
def exCtx : CoreCommit.Ctx where
  gap₁ := [.begin 1 false false true, .write 1 [66] true true, .prepare 1 true [] true]
  gap₃ := [.rollback 1]

example : (commit exEnv 0 exCtx true (some exHandler) exOpen).result = .ret true ∧
    (commit exEnv 0 exCtx true (some exHandler) exOpen).told = some 0 ∧
    (view (trace exEnv [.begin 0 false false true, .write 0 [65] true true] ++
      (commit exEnv 0 exCtx true (some exHandler) exOpen).trace)).log = [[65, 48, 90]] := by
  decide +kernel

example : Disciplined (view (trace exEnv [.begin 0 false false true, .write 0 [65] true true]))
      (commit exEnv 0 exCtx true (some exHandler) exOpen).trace ∧
    Gets exOpen.sys 0 exCtx.wait = true := by decide +kernel

example : ∀ op ∈ exCtx.gap₁ ++ exCtx.gap₂ ++ exCtx.gap₃, CoreCommit.Props.Foreign 0 op := by
  simp [exCtx, CoreCommit.Props.Foreign]

/-- A conflict, then the same command again: the handler is called twice, with different numbers, and
what it wrote is in the history once. -/
def exRetry : List Call :=
  [.op (.begin 0 false false true), .op (.write 0 [65] true true),
   .commit 0 { commitOk := false } true (some exHandler),
   .op (.begin 0 false false true), .op (.write 0 [65] true true),
   .commit 0 {} true (some exHandler),
   .op (.begin 0 false false true), .op (.write 0 [66] true true), .op (.prepare 0 true [] true),
   .op (.commit 0 true)]

example : (runs exEnv (start exEnv (fun _ => [])) exRetry).map (fun e => e.2.told) =
      [none, none, some 0, none, none, some 1, none, none, none, none] ∧
    (view (flat (runs exEnv (start exEnv (fun _ => [])) exRetry))).log = [[65, 49, 90], [66]] := by
  decide +kernel

/-- **C130** The number is not the number of the journal table, as the interface says it is: with two
journal tables, the third transaction prepared is told 2. -/
theorem c130_number_not_table :
    ∃ cs c, exEnv.numJournals = 2 ∧
      (step exEnv (OnPrepare.final exEnv (start exEnv (fun _ => [])) cs) c).told = some 2 :=
  ⟨[.op (.begin 0 false false true), .commit 0 {} true (some exHandler),
    .op (.begin 0 false false true), .commit 0 {} true (some exHandler),
    .op (.begin 0 false false true)], .commit 0 {} true (some exHandler), by decide +kernel⟩

/-- **C130** A mocked request whose command makes one ordinary write (which is ignored) and whose
handler makes one: the handler's write is committed, outside the pragma. -/
theorem c130_mocked_writes :
    let c : Cmd := { mock := true, body := [.write false [65] true .ok], asked := true
                     handler := some (fun _ => [.write false [66] true .ok]) }
    let st := OnPrepare.final exEnv (start exEnv (fun _ => [])) [.op (.begin 0 false false true)]
    (work exEnv 0 c {} st).result = .ret true ∧
    (view (flat (runs exEnv (start exEnv (fun _ => []))
      [.op (.begin 0 false false true), .work 0 c {}]))).log =
      [(b!"PRAGMA noop_update=ON;") ++ (b!"PRAGMA noop_update=OFF;") ++ [66]] := by
  decide +kernel

/-- A handler that violates a constraint. -/
example : (commit exEnv 0 {} true (some (fun _ => [.write false [66] true .constraint])) exOpen).result =
      .died ∧
    (work exEnv 0 { body := [.write false [66] true .constraint], asked := true, handler := some exHandler }
      {} exOpen).result = .nothing := by decide +kernel

/-- An empty transaction. -/
example :
    let st := OnPrepare.final exEnv (start exEnv (fun _ => [])) [.op (.begin 0 false false true)]
    (work exEnv 0 { asked := true, handler := some exHandler } {} st).told = none ∧
    (work exEnv 0 { asked := true, handler := some exHandler, commitEmpty := true } {} st).told = some 0 ∧
    (view (flat (runs exEnv (start exEnv (fun _ => [])) [.op (.begin 0 false false true),
      .work 0 { asked := true, handler := some exHandler, commitEmpty := true } {}]))).log =
      [[48, 90]] := by decide +kernel

end Bedrock.OnPrepare.Props
