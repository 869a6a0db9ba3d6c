import Verif.Model.OnPrepare
import Verif.Props.CoreCommit

/-!
# Handlers inside `prepare`: reduction to the database layer

What a handler does inside `prepare` is the same as doing it just before: a `prepare` with a handler
that returns is a list of writes followed by a plain `prepare`.
-/

namespace Bedrock.OnPrepare
open Bedrock Bedrock.DB Bedrock.DB.Spec

/-- The calls of a list that reach the database, up to and including one that throws. -/
def does (h : Nat) (noop : Bool) : List HAct → List Op
  | [] => []
  | .throws :: _ => []
  | .write idem q keep res :: as =>
    if noop && !idem then does h noop as
    else if res = .constraint then [.write h q keep false]
    else .write h q keep (res == .ok) :: does h noop as

/-- Does an exception leave the list? -/
def escapes (noop : Bool) : List HAct → Bool
  | [] => false
  | .throws :: _ => true
  | .write idem _ _ res :: as =>
    if noop && !idem then escapes noop as else res == .constraint || escapes noop as

/-- The text of the statements that ran, changed something, and were not thrown away. -/
def kept (noop : Bool) : List HAct → Bytes
  | [] => []
  | .throws :: _ => []
  | .write idem q keep res :: as =>
    if noop && !idem then kept noop as
    else match res with
      | .constraint => []
      | .error => kept noop as
      | .ok => (if keep then q else []) ++ kept noop as

theorem step_write (env : Env) (s : Sys) (h : Nat) (q : Bytes) (k ok : Bool) :
    DB.step env s (.write h q k ok) = DB.write s h q k ok := by
  have : (DB.write s h q k ok).2 ≠ .abort := by
    unfold DB.write; dsimp only; split <;> simp
  simp [DB.step, this]

theorem acts_run (env : Env) (h : Nat) (noop : Bool) (as : List HAct) (s : Sys) :
    acts h noop as s =
      ((run env s (does h noop as)).1, (run env s (does h noop as)).2, !escapes noop as) := by
  induction as generalizing s with
  | nil => rfl
  | cons a as ih =>
    cases a with
    | throws => rfl
    | write idem q keep res =>
      by_cases hn : (noop && !idem) = true
      · simp only [acts, does, escapes, hn, if_true]; exact ih s
      · simp only [acts, does, escapes, hn]
        cases res with
        | constraint =>
          have hw : (DB.write s h q keep false).1 = s := by simp [DB.write]
          simp [run, step_write, hw, show (Res.constraint == Res.ok) = false from rfl]
        | ok => simp [run, step_write, ih]
        | error => simp [run, step_write, ih]

/-- A transaction with more text. -/
def addText (s : Sys) (h : Nat) (t : Bytes) : Sys :=
  { s with handles := upd s.handles h { s.handles h with uquery := (s.handles h).uquery ++ t } }

theorem upd_upd (g : Nat → Handle) (h : Nat) (a b : Handle) : upd (upd g h a) h b = upd g h b := by
  funext k; by_cases hk : k = h <;> simp [upd, hk]

theorem addText_nil (s : Sys) (h : Nat) : addText s h [] = s := by
  have : upd s.handles h { s.handles h with uquery := (s.handles h).uquery ++ [] } = s.handles := by
    funext k; by_cases hk : k = h
    · subst hk; simp
    · simp [upd, hk]
  unfold addText
  rw [this]

theorem addText_addText (s : Sys) (h : Nat) (a b : Bytes) :
    addText (addText s h a) h b = addText s h (a ++ b) := by
  simp [addText, upd_upd, List.append_assoc]

theorem addText_handle (s : Sys) (h : Nat) (t : Bytes) :
    (addText s h t).handles h = { s.handles h with uquery := (s.handles h).uquery ++ t } := by
  simp [addText]

/-- The effect on an open transaction. -/
theorem run_does (env : Env) (h : Nat) (noop : Bool) (as : List HAct) (s : Sys)
    (hin : (s.handles h).inside = true) :
    (run env s (does h noop as)).1 = addText s h (kept noop as) := by
  induction as generalizing s with
  | nil => exact (addText_nil s h).symm
  | cons a as ih =>
    cases a with
    | throws => exact (addText_nil s h).symm
    | write idem q keep res =>
      by_cases hn : (noop && !idem) = true
      · simp only [does, kept, hn, if_true]; exact ih s hin
      · simp only [does, kept, hn]
        cases res with
        | constraint =>
          simp only [Bool.false_eq_true, if_false, if_true, run, step_write]
          rw [show (DB.write s h q keep false).1 = s from by simp [DB.write]]
          exact (addText_nil s h).symm
        | error =>
          simp only [Bool.false_eq_true, if_false, reduceCtorEq, run, step_write]
          rw [show (DB.write s h q keep (Res.error == Res.ok)).1 = s from by
            simp [DB.write, show (Res.error == Res.ok) = false from rfl]]
          exact ih s hin
        | ok =>
          simp only [Bool.false_eq_true, if_false, reduceCtorEq, run, step_write]
          have hw : (DB.write s h q keep (Res.ok == Res.ok)).1 = addText s h (if keep then q else []) := by
            cases keep <;> simp [DB.write, hin, addText]
          rw [hw, ih _ (by simp [addText, hin]), addText_addText]

/-- What the calls of a list return on an open transaction. -/
def returns : Op → Op × Out
  | .write h q k ok => (.write h q k ok, if ok then .done else .failed)
  | o => (o, .done)

theorem trace_does (env : Env) (h : Nat) (noop : Bool) (as : List HAct) (s : Sys)
    (hin : (s.handles h).inside = true) :
    (run env s (does h noop as)).2 = (does h noop as).map returns := by
  have one : ∀ (s : Sys) q k ok, (s.handles h).inside = true →
      (DB.write s h q k ok).2 = (if ok then .done else .failed) ∧
      ((DB.write s h q k ok).1.handles h).inside = true := by
    intro s q k ok hin
    cases ok <;> simp [DB.write, hin]
  induction as generalizing s with
  | nil => rfl
  | cons a as ih =>
    cases a with
    | throws => rfl
    | write idem q keep res =>
      by_cases hn : (noop && !idem) = true
      · simp only [does, hn, if_true]; exact ih s hin
      · simp only [does, hn, Bool.false_eq_true, if_false]
        split
        · simp [run, step_write, returns, one s q keep false hin]
        · simp only [run, step_write, List.map_cons, returns, one s q keep _ hin]
          rw [ih _ (one s q keep _ hin).2]

/-- Is the lock there for the taking? -/
def Gets (s : Sys) (h : Nat) (wait : Bool) : Bool := (s.handles h).locked || (wait && lockFree s h)

theorem prepare_eq (env : Env) (s : Sys) (h : Nat) (w : Bool) (p : List Nat) (ok : Bool)
    (hin : (s.handles h).inside = true) :
    DB.prepare env s h w p ok =
      if Gets s h w then
        let e := finish env (take (reserve env s h p) h) h (s.nextJournal % env.numJournals) ok
        (e.1, if e.2 then .done else .failed)
      else (reserve env s h p, .failed) := by
  have hlf : lockFree (reserve env s h p) h = lockFree s h := rfl
  have hlk : ((reserve env s h p).handles h).locked = (s.handles h).locked := by simp [reserve]
  have e0 : DB.prepare env s h w p ok =
      if (!(s.handles h).locked && !(w && lockFree s h)) = true then (reserve env s h p, .failed)
      else if ok then ((finish env (take (reserve env s h p) h) h (s.nextJournal % env.numJournals) true).1, .done)
        else ((finish env (take (reserve env s h p) h) h (s.nextJournal % env.numJournals) false).1, .failed) := by
    unfold DB.prepare take
    rw [if_neg (by simp [hin]), hlk]
    rfl
  rw [e0]
  unfold Gets
  cases h1 : (s.handles h).locked <;> cases h2 : (w && lockFree s h) <;> cases ok <;>
    simp [finish]

theorem gets_reserve (env : Env) (s : Sys) (h : Nat) (w : Bool) (p : List Nat) :
    (!(s.handles h).locked && !(w && lockFree (reserve env s h p) h)) = !Gets s h w := by
  have hlf : lockFree (reserve env s h p) h = lockFree s h := rfl
  rw [hlf]
  simp [Gets, Bool.not_or]

theorem prepare_quiet (env : Env) (s : Sys) (x : Ext) (h : Nat) (w : Bool) (p : List Nat) (ok : Bool)
    (hq : x.notify = false) :
    let r := DB.prepare env s h w p ok
    (prepare env s x h w p ok).sys = r.1 ∧
    (prepare env s x h w p ok).trace = [(.prepare h w p ok, r.2)] ∧
    (prepare env s x h w p ok).told = none ∧
    ((prepare env s x h w p ok).out =
      if (s.handles h).inside then (if Gets s h w && ok then .done else .failed) else .abort) ∧
    r.2 = (if (s.handles h).inside then (if Gets s h w && ok then .done else .failed) else .abort) := by
  intro r
  by_cases hin : (s.handles h).inside = true
  · simp only [r, prepare_eq env s h w p ok hin]
    unfold prepare
    simp only [hin, Bool.not_true, Bool.false_eq_true, if_false, hq, gets_reserve, if_true]
    cases hg : Gets s h w
    · simp
    · cases ok <;> simp [finish]
  · have hin' : (s.handles h).inside = false := by simpa using hin
    have hr : r = (s, .abort) := by simp [r, DB.prepare, hin']
    rw [hr]
    simp [prepare, hin']

theorem prepare_refused (env : Env) (s : Sys) (x : Ext) (h : Nat) (w : Bool) (p : List Nat) (ok : Bool)
    (hin : (s.handles h).inside = true) (hg : Gets s h w = false) :
    prepare env s x h w p ok =
      ⟨(DB.prepare env s h w p ok).1, [(.prepare h w p ok, .failed)], .failed, none⟩ ∧
    (DB.prepare env s h w p ok).2 = .failed := by
  rw [prepare_eq env s h w p ok hin]
  unfold prepare
  simp only [hin, gets_reserve, hg, Bool.not_true, Bool.not_false, Bool.false_eq_true, if_false,
    if_true, and_self]

theorem reserve_addText (env : Env) (s : Sys) (h : Nat) (p : List Nat) (t : Bytes) :
    reserve env (addText s h t) h p = addText (reserve env s h p) h t := by
  have ht : ∀ t', trimIds env (addText s h t) t' p = trimIds env s t' p := fun _ => rfl
  simp only [reserve, ht]
  simp [addText, upd_upd]

theorem take_addText (s : Sys) (h : Nat) (t : Bytes) :
    take (addText s h t) h = addText (take s h) h t := by
  unfold take
  rw [addText_handle]
  cases hl : (s.handles h).locked
  · simp only [Bool.false_eq_true, if_false]
    unfold lockAcquire addText
    cases s.lock with
    | none => simp [upd_upd]
    | some o => simp [upd_upd]
  · simp

theorem gets_addText (s : Sys) (h : Nat) (t : Bytes) (w : Bool) :
    Gets (addText s h t) h w = Gets s h w := by
  unfold Gets
  rw [addText_handle]
  rfl

theorem reserve_inside (env : Env) (s : Sys) (h : Nat) (p : List Nat) :
    ((reserve env s h p).handles h).inside = (s.handles h).inside := by simp [reserve]

theorem take_inside (s : Sys) (h : Nat) : ((take s h).handles h).inside = (s.handles h).inside := by
  unfold take
  split
  · rfl
  · simp [CoreCommit.Props.acquire_handles]

/-- The heart of the matter. -/
theorem prepare_asked (env : Env) (s : Sys) (x : Ext) (h : Nat) (w : Bool) (p : List Nat) (ok : Bool)
    (f : Handler) (hin : (s.handles h).inside = true) (hg : Gets s h w = true)
    (hq : x.notify = true) (hf : x.handler = some f)
    (he : escapes x.noop (f s.nextJournal) = false) :
    let ops := does h x.noop (f s.nextJournal)
    let r := DB.prepare env (run env s ops).1 h w p ok
    (prepare env s x h w p ok).sys = r.1 ∧
    (prepare env s x h w p ok).trace = (run env s ops).2 ++ [(.prepare h w p ok, r.2)] ∧
    (prepare env s x h w p ok).told = some s.nextJournal ∧
    (prepare env s x h w p ok).out = (if ok then .done else .failed) ∧
    r.2 = (if ok then .done else .failed) := by
  intro ops r
  have htr : ∀ s1 s2 : Sys, (s1.handles h).inside = true → (s2.handles h).inside = true →
      (run env s1 ops).2 = (run env s2 ops).2 := by
    intro s1 s2 h1 h2
    simp only [ops, trace_does env h x.noop _ s1 h1, trace_does env h x.noop _ s2 h2]
  have hr : r = DB.prepare env (addText s h (kept x.noop (f s.nextJournal))) h w p ok := by
    simp only [r, ops, run_does env h x.noop _ s hin]
  rw [prepare_eq _ _ _ _ _ _ (by simp [addText, hin]), gets_addText, if_pos hg, reserve_addText,
    take_addText] at hr
  have hin2 : ((take (reserve env s h p) h).handles h).inside = true := by
    rw [take_inside, reserve_inside, hin]
  unfold prepare
  simp only [hin, hq, hf, Bool.not_true, Bool.false_eq_true, if_false, gets_reserve, hg, if_true,
    acts_run env, he, Bool.not_false]
  rw [run_does env h x.noop _ _ hin2, htr _ s hin2 hin, hr]
  have hnj : (addText s h (kept x.noop (f s.nextJournal))).nextJournal = s.nextJournal := rfl
  rw [hnj]
  cases ok <;> simp [finish]

end Bedrock.OnPrepare
