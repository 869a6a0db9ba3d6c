import Verif.Model.CoreCommit
import Verif.Props.DB

/-!
# C41: commit on a node either commits on the leader or rolls back
-/

namespace Bedrock.CoreCommit.Props
open Bedrock Bedrock.DB Bedrock.DB.Spec Bedrock.CoreCommit

/-- An operation of some other thread, on another handle. -/
def Foreign (h : Nat) : Op → Prop
  | .begin h' _ _ _ | .write h' _ _ _ | .prepare h' _ _ _ | .commit h' _ | .rollback h' => h' ≠ h
  | .setCommitEnabled t _ => t ≠ h
  | .pop => True
  | .crash | .crashInCommit _ => False

theorem release_handles (s : Sys) : (lockRelease s).handles = s.handles := by
  rw [lockRelease_lock]

theorem rollback_handles (s : Sys) {h h' : Nat} (hne : h' ≠ h) :
    (rollback s h').handles h = s.handles h := by
  unfold rollback
  dsimp only
  split
  · split
    · rw [release_handles]; exact upd_ne _ _ (Ne.symm hne)
    · exact upd_ne _ _ (Ne.symm hne)
  · rfl

theorem rollback_self (s : Sys) (h : Nat) (hin : (s.handles h).inside = true) :
    ((rollback s h).handles h).inside = false ∧ ((rollback s h).handles h).locked = false ∧
    ((rollback s h).handles h).uhash = [] ∧ ((rollback s h).handles h).uquery = [] := by
  unfold rollback
  dsimp only
  rw [if_pos hin]
  split
  · rw [release_handles]; simp
  · simp

theorem acquire_handles (s : Sys) (h : Nat) : (lockAcquire s h).handles = s.handles := by
  unfold lockAcquire; split <;> rfl

theorem foreign_handle (env : Env) (s : Sys) (op : Op) (h : Nat) (hf : Foreign h op)
    (hna : (step env s op).2 ≠ .abort) : (step env s op).1.handles h = s.handles h := by
  cases op with
  | begin h' e sy ok =>
    have hne : h' ≠ h := hf
    have hna' : (begin' s h' e sy ok).2 ≠ .abort := by
      unfold begin'; split
      · cases sy <;> simp
      · dsimp only
        repeat' split
        all_goals simp
    simp only [step, hna', if_false]
    unfold begin'
    split
    · rfl
    · cases e
      · simp only [Bool.false_eq_true, if_false]
        split
        · exact rollback_handles _ hne
        · exact upd_ne _ _ (Ne.symm hne)
      · simp only [if_true]
        have key : upd (lockAcquire s h').handles h'
            { (lockAcquire s h').handles h' with locked := true } h = s.handles h := by
          rw [upd_ne _ _ (Ne.symm hne), acquire_handles]
        split
        · rw [show ∀ t : Sys, ((rollback t h', Out.failed) : Sys × Out).1 = rollback t h' from fun _ => rfl,
            rollback_handles _ hne]
          exact key
        · show upd _ _ _ h = _
          rw [upd_ne _ _ (Ne.symm hne)]; exact key
  | write h' q k ok =>
    have hne : h' ≠ h := hf
    have hna' : (write s h' q k ok).2 ≠ .abort := by
      unfold write; dsimp only; split <;> simp
    simp only [step, hna', if_false]
    unfold write
    dsimp only
    split
    · exact upd_ne _ _ (Ne.symm hne)
    · rfl
  | prepare h' w p ok =>
    have hne : h' ≠ h := hf
    by_cases hin : (s.handles h').inside = true
    · have hna' : (prepare env s h' w p ok).2 ≠ .abort := by
        rcases prepare_cases env s h' w p ok hin with ⟨he, _⟩ | ⟨s2, _, he⟩
        · rw [he]; simp
        · rw [he]; cases ok <;> simp
      simp only [step, hna', if_false]
      rcases prepare_cases env s h' w p ok hin with ⟨he, _⟩ | ⟨s2, hs2, he⟩
      · rw [he]; exact upd_ne _ _ (Ne.symm hne)
      · have hh : s2.handles h = s.handles h := by
          rcases hs2 with ⟨rfl, _⟩ | ⟨rfl, hfr, _⟩
          · exact upd_ne _ _ (Ne.symm hne)
          · obtain ⟨n, hn⟩ := acquire_eq _ h' hfr
            rw [hn]
            show upd (upd s.handles h' _) h' _ h = _
            rw [upd_ne _ _ (Ne.symm hne), upd_ne _ _ (Ne.symm hne)]
        have hp : ∀ t, (prepFinish env s2 h' t).handles h = s2.handles h := by
          intro t; exact upd_ne _ _ (Ne.symm hne)
        rw [he]
        cases ok
        · simp only [Bool.false_eq_true, if_false]
          rw [rollback_handles _ hne, hp, hh]
        · simp only [if_true]
          rw [hp, hh]
    · have hp : prepare env s h' w p ok = (s, .abort) := by simp [prepare, hin]
      simp [step, hp] at hna
  | commit h' ok =>
    have hne : h' ≠ h := hf
    by_cases hc : (DB.commit s h' ok).2 = .abort
    · simp [step, hc] at hna
    · simp only [step, hc, if_false]
      unfold DB.commit
      dsimp only
      repeat' split
      · rfl
      · rfl
      · rw [release_handles]
        show upd _ _ _ h = _
        rw [upd_ne _ _ (Ne.symm hne)]
        rfl
      · rfl
  | rollback h' => simp only [step]; exact rollback_handles s hf
  | setCommitEnabled t e =>
    simp only [step]
    by_cases h1 : s.commitEnabled = e
    · simp [h1]
    · by_cases h2 : lockFree s t = true <;> simp [h1, h2]
  | pop => simp [step]
  | crash => exact absurd hf (by simp [Foreign])
  | crashInCommit _ => exact absurd hf (by simp [Foreign])

/-- The part of the view that concerns handle `h` is not changed by other threads. -/
theorem foreign_view (v : View) (op : Op) (o : Out) (h : Nat) (hf : Foreign h op)
    (hna : o ≠ .abort) :
    (v.step (op, o)).pend h = v.pend h ∧ (v.step (op, o)).prepped h = v.prepped h := by
  cases op with
  | begin h' e sy ok =>
    have hne : h' ≠ h := hf
    cases o <;> simp_all [View.step, upd_ne _ _ (Ne.symm hne)]
  | write h' q k ok =>
    have hne : h' ≠ h := hf
    cases o <;> cases k <;> simp_all [View.step, upd_ne _ _ (Ne.symm hne)]
  | prepare h' w p ok =>
    have hne : h' ≠ h := hf
    cases o <;> simp_all [View.step, upd_ne _ _ (Ne.symm hne)]
  | commit h' ok =>
    have hne : h' ≠ h := hf
    cases o <;> simp_all [View.step, upd_ne _ _ (Ne.symm hne)]
  | rollback h' =>
    have hne : h' ≠ h := hf
    cases o <;> simp_all [View.step, upd_ne _ _ (Ne.symm hne)]
  | setCommitEnabled t e => cases o <;> simp_all [View.step]
  | pop => cases o <;> simp_all [View.step]
  | crash => exact hf.elim
  | crashInCommit _ => exact hf.elim

/-- What an event adds to the log. -/
theorem view_log (v : View) (op : Op) (o : Out) (h : Nat) (hf : Foreign h op) (hc : o ≠ .committed) :
    (v.step (op, o)).log = v.log := by
  cases op with
  | write h' q k ok => cases o <;> cases k <;> simp_all [View.step]
  | crash => exact hf.elim
  | crashInCommit _ => exact hf.elim
  | _ => cases o <;> simp_all [View.step]

/-- A commit by handle `h'` that succeeds was prepared. -/
theorem committed_prepared (env : Env) (s : Sys) (op : Op) (hc : (step env s op).2 = .committed) :
    (∃ h' ok, op = .commit h' ok ∧ (s.handles h').uhash ≠ []) ∨ ∃ h', op = .crashInCommit h' := by
  cases op with
  | commit h' ok =>
    left
    refine ⟨h', ok, rfl, ?_⟩
    intro hu
    by_cases ha : (DB.commit s h' ok).2 = .abort
    · simp [step, ha] at hc
    · simp only [step, ha, if_false] at hc
      unfold DB.commit at hc
      split at hc
      · simp at hc
      · simp [hu] at hc
  | crashInCommit h' => exact Or.inr ⟨h', rfl⟩
  | begin h' e sy ok =>
    exfalso; revert hc
    simp only [step, begin']
    repeat' split
    all_goals simp
  | write h' q k ok =>
    exfalso; revert hc
    simp only [step, write]
    repeat' split
    all_goals simp
  | prepare h' w p ok =>
    exfalso; revert hc
    by_cases hin : (s.handles h').inside = true
    · have : (prepare env s h' w p ok).2 ≠ .committed := by
        rcases prepare_cases env s h' w p ok hin with ⟨he, _⟩ | ⟨s2, _, he⟩
        · rw [he]; simp
        · rw [he]; cases ok <;> simp
      simp only [step]
      split
      · simp
      · exact this
    · have hp : prepare env s h' w p ok = (s, .abort) := by simp [prepare, hin]
      simp [step, hp]
  | rollback h' => simp [step] at hc
  | setCommitEnabled t e =>
    exfalso; revert hc
    simp only [step]
    by_cases h1 : s.commitEnabled = e
    · simp [h1]
    · by_cases h2 : lockFree s t = true <;> simp [h1, h2]
  | pop => simp [step] at hc
  | crash => simp [step] at hc

/-- Everything the other threads do in a gap, as seen from handle `h`. -/
theorem gap {env : Env} (hnj : 0 < env.numJournals) (hne : ∀ x, env.sha1hex x ≠ []) (h : Nat)
    (ops : List Op) : ∀ (s : Sys) (v : View), Inv env s v → Disciplined v (run env s ops).2 →
    (∀ op ∈ ops, Foreign h op) → died (run env s ops).2 = false →
    let s' := (run env s ops).1
    let v' := (run env s ops).2.foldl View.step v
    Inv env s' v' ∧ s'.handles h = s.handles h ∧ v'.pend h = v.pend h ∧ v'.prepped h = v.prepped h ∧
    ((s.handles h).uhash ≠ [] → v'.log = v.log) ∧
    (∀ e ∈ (run env s ops).2, e.2 = .committed → ∃ h' ok, h' ≠ h ∧ e.1 = .commit h' ok) := by
  induction ops with
  | nil => intro s v hi _ _ _; exact ⟨hi, rfl, rfl, rfl, fun _ => rfl, fun e he => by simp [run] at he⟩
  | cons op ops ih =>
    intro s v hi hd hf hdied
    simp only [run, Disciplined, died, List.any_cons, Bool.or_eq_false_iff] at hd hdied ⊢
    have hna : (step env s op).2 ≠ .abort := by
      intro hc; rw [hc] at hdied; simp at hdied
    have hi1 := inv_step hi op hd.1 hnj hne
    obtain ⟨r1, r2, r3, r4, r5, r6⟩ := ih _ _ hi1 hd.2 (fun o ho => hf o (by simp [ho])) hdied.2
    have hh := foreign_handle env s op h (hf op (by simp)) hna
    obtain ⟨hp, hq⟩ := foreign_view v op _ h (hf op (by simp)) hna
    refine ⟨r1, r2.trans hh, r3.trans hp, r4.trans hq, ?_, ?_⟩
    · intro hu
      rw [List.foldl_cons, r5 (by rw [hh]; exact hu)]
      apply view_log v op _ h (hf op (by simp))
      intro hc
      rcases committed_prepared env s op hc with ⟨h', ok, rfl, hu'⟩ | ⟨h', rfl⟩
      · obtain ⟨n, hn⟩ := (hi.handle h').locked ((hi.handle h').prepared hu').2.1
        obtain ⟨m, hm⟩ := (hi.handle h).locked ((hi.handle h).prepared hu).2.1
        rw [hn] at hm
        simp at hm
        exact (hf (.commit h' ok) (by simp) : h' ≠ h) hm.1
      · exact hf (.crashInCommit h') (by simp)
    · intro e he hc
      rcases List.mem_cons.mp he with rfl | he
      · rcases committed_prepared env s op hc with ⟨h', ok, rfl, _⟩ | ⟨h', rfl⟩
        · exact ⟨h', ok, hf (.commit h' ok) (by simp), rfl⟩
        · exact (hf (.crashInCommit h') (by simp) : False).elim
      · exact r6 e he hc

theorem disciplined_append (v : View) (a b : List (Op × Out)) :
    Disciplined v (a ++ b) ↔ Disciplined v a ∧ Disciplined (a.foldl View.step v) b := by
  induction a generalizing v with
  | nil => simp [Disciplined]
  | cons e a ih => simp only [List.cons_append, Disciplined, ih, List.foldl_cons, and_assoc]

/-- The outcome of the call, described by what can be observed. -/
structure Outcome (h : Nat) (x : Ctx) (v : View) (r : Ret) : Prop where
  /-- reported success means: on a leading node, and the transaction is now the newest entry of the
  history, on top of the history as it was -/
  success : r.result = some true → x.leading = true ∧
    (r.trace.foldl View.step v).log = v.log ++ [v.pend h]
  /-- reported failure means: this handle committed nothing -/
  failure : r.result = some false →
    ∀ e ∈ r.trace, e.2 = .committed → ∃ h' ok, h' ≠ h ∧ e.1 = .commit h' ok
  /-- either way no transaction is open on the handle and it does not hold the commit lock -/
  closed : r.result ≠ none → (r.sys.handles h).inside = false ∧ (r.sys.handles h).locked = false

theorem run_single (env : Env) (s : Sys) (op : Op) :
    run env s [op] = ((step env s op).1, [(op, (step env s op).2)]) := rfl

theorem giveUp_outcome {env : Env} (h : Nat) (x : Ctx) (v : View) (s : Sys) (tr : List (Op × Out))
    (hin : (s.handles h).inside = true)
    (htr : ∀ e ∈ tr, e.2 = .committed → ∃ h' ok, h' ≠ h ∧ e.1 = .commit h' ok) :
    Outcome h x v (giveUp env h s tr) := by
  have hs : step env s (.rollback h) = (rollback s h, .done) := by simp [step]
  refine ⟨fun hc => by simp [giveUp] at hc, ?_, ?_⟩
  · intro _ e he hc
    simp only [giveUp, run_single, hs] at he
    rcases List.mem_append.mp he with he | he
    · exact htr e he hc
    · simp at he; subst he; simp at hc
  · intro _
    simp only [giveUp, run_single, hs]
    exact ⟨(rollback_self s h hin).1, (rollback_self s h hin).2.1⟩

theorem giveUp_idle {env : Env} (h : Nat) (x : Ctx) (v : View) (s : Sys) (tr : List (Op × Out))
    (hin : (s.handles h).inside = false) (hl : (s.handles h).locked = false)
    (htr : ∀ e ∈ tr, e.2 = .committed → ∃ h' ok, h' ≠ h ∧ e.1 = .commit h' ok) :
    Outcome h x v (giveUp env h s tr) := by
  have hs : step env s (.rollback h) = (s, .done) := by simp [step, rollback, hin]
  refine ⟨fun hc => by simp [giveUp] at hc, ?_, ?_⟩
  · intro _ e he hc
    simp only [giveUp, run_single, hs] at he
    rcases List.mem_append.mp he with he | he
    · exact htr e he hc
    · simp at he; subst he; simp at hc
  · intro _
    simp only [giveUp, run_single, hs]
    exact ⟨hin, hl⟩

theorem outcome {env : Env} (hnj : 0 < env.numJournals) (hne : ∀ x, env.sha1hex x ≠ [])
    (h : Nat) (x : Ctx) (s : Sys) (v : View) (hi : Inv env s v)
    (hin : (s.handles h).inside = true) (hpre : v.prepped h = false)
    (hd : Disciplined v (commit env h x s).trace)
    (hf : ∀ op ∈ x.gap₁ ++ x.gap₂ ++ x.gap₃, Foreign h op) :
    Outcome h x v (commit env h x s) ∧
    ((commit env h x s).result = none → ∃ e ∈ (commit env h x s).trace, e.2 = .abort ∧ Foreign h e.1) := by
  have hf1 : ∀ op ∈ x.gap₁, Foreign h op := fun o ho => hf o (by simp [ho])
  have hf2 : ∀ op ∈ x.gap₂, Foreign h op := fun o ho => hf o (by simp [ho])
  have hf3 : ∀ op ∈ x.gap₃, Foreign h op := fun o ho => hf o (by simp [ho])
  have tracein : ∀ (s : Sys) (ops : List Op), ∀ e ∈ (run env s ops).2, e.1 ∈ ops := by
    intro s ops
    induction ops generalizing s with
    | nil => intro e he; simp [run] at he
    | cons o ops ih =>
      intro e he
      simp only [run, List.mem_cons] at he
      rcases he with rfl | he
      · simp
      · exact List.mem_cons_of_mem _ (ih _ e he)
  have diedIn : ∀ (s : Sys) (ops : List Op) (tr : List (Op × Out)), (∀ op ∈ ops, Foreign h op) →
      died (run env s ops).2 = true →
      ∃ e ∈ tr ++ (run env s ops).2, e.2 = .abort ∧ Foreign h e.1 := by
    intro s ops tr hfo hdd
    simp only [died, List.any_eq_true, beq_iff_eq] at hdd
    obtain ⟨e, he, ha⟩ := hdd
    exact ⟨e, by simp [he], ha, hfo _ (tracein s ops e he)⟩
  -- prepare
  have hstep : step env s (.prepare h x.wait x.pick x.insertOk) =
      prepare env s h x.wait x.pick x.insertOk := by
    have hna : (prepare env s h x.wait x.pick x.insertOk).2 ≠ .abort := by
      rcases prepare_cases env s h x.wait x.pick x.insertOk hin with ⟨he, _⟩ | ⟨s2, _, he⟩
      · rw [he]; simp
      · rw [he]; cases x.insertOk <;> simp
    simp only [step, hna, if_false]
  have hi1 := inv_step hi (.prepare h x.wait x.pick x.insertOk) hpre hnj hne
  rw [hstep] at hi1
  have huh : (s.handles h).uhash = [] := by
    have := (hi.handle h).prepped; rw [hpre] at this
    simpa using this.symm
  -- what prepare leaves behind
  have hprep : ((prepare env s h x.wait x.pick x.insertOk).2 = .done ∧
        ((prepare env s h x.wait x.pick x.insertOk).1.handles h).inside = true ∧
        ((prepare env s h x.wait x.pick x.insertOk).1.handles h).uhash ≠ []) ∨
      ((prepare env s h x.wait x.pick x.insertOk).2 = .failed ∧
        (((prepare env s h x.wait x.pick x.insertOk).1.handles h).inside = true ∨
         (((prepare env s h x.wait x.pick x.insertOk).1.handles h).inside = false ∧
          ((prepare env s h x.wait x.pick x.insertOk).1.handles h).locked = false))) := by
    rcases prepare_cases env s h x.wait x.pick x.insertOk hin with ⟨he, _⟩ | ⟨s2, hs2, he⟩
    · rw [he]; right; refine ⟨rfl, Or.inl ?_⟩
      simpa using hin
    · have hin2 : (s2.handles h).inside = true := by
        rcases hs2 with ⟨rfl, _⟩ | ⟨rfl, hfr, _⟩
        · simpa using hin
        · obtain ⟨n, hn⟩ := acquire_eq _ h hfr
          rw [hn]; simpa using hin
      rw [he]
      cases hok : x.insertOk
      · simp only [Bool.false_eq_true, if_false]
        right
        refine ⟨trivial, Or.inr ?_⟩
        have := rollback_self (prepFinish env s2 h (s.nextJournal % env.numJournals)) h
          (by simp [prepFinish, hin2])
        exact ⟨this.1, this.2.1⟩
      · simp only [if_true]
        left
        refine ⟨trivial, by simp [prepFinish, hin2], ?_⟩
        simp [prepFinish]; exact hne _
  have hview : (v.step (.prepare h x.wait x.pick x.insertOk,
      (prepare env s h x.wait x.pick x.insertOk).2)).log = v.log ∧
      (v.step (.prepare h x.wait x.pick x.insertOk,
      (prepare env s h x.wait x.pick x.insertOk).2)).pend h = v.pend h := by
    rcases hprep with ⟨he, _⟩ | ⟨he, _⟩ <;> rw [he] <;> exact ⟨rfl, rfl⟩
  unfold commit at hd ⊢
  simp only [run_single, hstep] at hd ⊢
  generalize prepare env s h x.wait x.pick x.insertOk = p at hprep hview hi1 hd
  obtain ⟨s1, o1⟩ := p
  simp only at hprep hview hi1 hd ⊢
  have hnd : died [(Op.prepare h x.wait x.pick x.insertOk, o1)] = false := by
    rcases hprep with ⟨rfl, _⟩ | ⟨rfl, _⟩ <;> rfl
  simp only [hnd, Bool.false_eq_true, if_false] at hd ⊢
  generalize hv1 : v.step (.prepare h x.wait x.pick x.insertOk, o1) = v1 at hview hi1
  have nocommit : ∀ e ∈ [(Op.prepare h x.wait x.pick x.insertOk, o1)], e.2 = .committed →
      ∃ h' ok, h' ≠ h ∧ e.1 = .commit h' ok := by
    intro e he hc
    simp at he; subst he
    rcases hprep with ⟨rfl, _⟩ | ⟨rfl, _⟩ <;> simp at hc
  -- first gap
  have trpre : ∀ (b : Ret) , Disciplined v b.trace →
      (∃ tl, b.trace = ([(Op.prepare h x.wait x.pick x.insertOk, o1)] ++ (run env s1 x.gap₁).2) ++ tl) →
      Disciplined v1 (run env s1 x.gap₁).2 := by
    intro b hb ⟨tl, htl⟩
    rw [htl, disciplined_append, disciplined_append] at hb
    have := hb.1.2
    simp only [List.foldl_cons, List.foldl_nil, hv1] at this
    exact this
  by_cases hd1 : died (run env s1 x.gap₁).2 = true
  · rw [if_pos hd1]
    refine ⟨⟨fun hc => by simp at hc, fun hc => by simp at hc, fun hc => by simp at hc⟩, fun _ => ?_⟩
    exact diedIn s1 x.gap₁ _ hf1 hd1
  · rw [if_neg hd1] at hd ⊢
    have hd1 : died (run env s1 x.gap₁).2 = false := by simpa using hd1
    have hdis1 : Disciplined v1 (run env s1 x.gap₁).2 := by
      refine trpre _ hd ?_
      split
      · exact ⟨_, rfl⟩
      split
      · exact ⟨_, rfl⟩
      split
      · exact ⟨[], by simp⟩
      split
      · exact ⟨(run env (run env s1 x.gap₁).1 x.gap₂).2, by simp⟩
      split
      · exact ⟨(run env (run env s1 x.gap₁).1 x.gap₂).2 ++ [_], by simp; rfl⟩
      split
      · exact ⟨(run env (run env s1 x.gap₁).1 x.gap₂).2 ++ [_], by simp; rfl⟩
      split
      · exact ⟨_, by simp only [List.append_assoc]; rfl⟩
      · exact ⟨_, by simp only [giveUp, List.append_assoc]; rfl⟩
    obtain ⟨gi, gh, gp, gq, gl, gc⟩ := gap hnj hne h x.gap₁ s1 v1 hi1 hdis1 hf1 hd1
    have gc' : ∀ e ∈ [(Op.prepare h x.wait x.pick x.insertOk, o1)] ++ (run env s1 x.gap₁).2,
        e.2 = .committed → ∃ h' ok, h' ≠ h ∧ e.1 = .commit h' ok := by
      intro e he hc
      rcases List.mem_append.mp he with he | he
      · exact nocommit e he hc
      · exact gc e he hc
    generalize hs2 : (run env s1 x.gap₁).1 = s2 at gi gh hd ⊢
    have hfold : ([(Op.prepare h x.wait x.pick x.insertOk, o1)] ++ (run env s1 x.gap₁).2).foldl
        View.step v = (run env s1 x.gap₁).2.foldl View.step v1 := by
      rw [List.foldl_append]; simp only [List.foldl_cons, List.foldl_nil, hv1]
    generalize (run env s1 x.gap₁).2.foldl View.step v1 = v2 at gi gp gq gl hfold
    generalize [(Op.prepare h x.wait x.pick x.insertOk, o1)] ++ (run env s1 x.gap₁).2 = tr at gc' hfold hd ⊢
    rcases hprep with ⟨rfl, hin1, hu1⟩ | ⟨rfl, hfail⟩
    case inr =>
      have : List.map Prod.snd [(Op.prepare h x.wait x.pick x.insertOk, Out.failed)] ≠ [Out.done] := by
        simp
      rw [if_pos this]
      refine ⟨?_, fun hc => by simp [giveUp] at hc⟩
      rcases hfail with hfl | ⟨hfl, hlk⟩
      · exact giveUp_outcome h x v s2 tr (by rw [gh]; exact hfl) gc'
      · exact giveUp_idle h x v s2 tr (by rw [gh]; exact hfl) (by rw [gh]; exact hlk) gc'
    case inl =>
      rw [if_neg (by simp)] at hd ⊢
      by_cases hlead : x.leading = true
      case neg =>
        rw [if_pos (by simpa using hlead)]
        exact ⟨giveUp_outcome h x v s2 tr (by rw [gh]; exact hin1) gc', fun hc => by simp [giveUp] at hc⟩
      case pos =>
        rw [if_neg (by simp [hlead])] at hd ⊢
        have hu2 : (s2.handles h).uhash ≠ [] := by rw [gh]; exact hu1
        rw [if_neg (by simpa using hu2)] at hd ⊢
        by_cases hd2 : died (run env s2 x.gap₂).2 = true
        · rw [if_pos hd2]
          refine ⟨⟨fun hc => by simp at hc, fun hc => by simp at hc, fun hc => by simp at hc⟩, fun _ => ?_⟩
          exact diedIn s2 x.gap₂ _ hf2 hd2
        · rw [if_neg hd2] at hd ⊢
          have hd2 : died (run env s2 x.gap₂).2 = false := by simpa using hd2
          have hdis2 : Disciplined v2 (run env s2 x.gap₂).2 := by
            have hsplit : ∀ (b : Ret), Disciplined v b.trace →
                (∃ tl, b.trace = (tr ++ (run env s2 x.gap₂).2) ++ tl) →
                Disciplined v2 (run env s2 x.gap₂).2 := by
              intro b hb ⟨tl, htl⟩
              rw [htl, disciplined_append, disciplined_append] at hb
              have := hb.1.2
              rw [hfold] at this
              exact this
            refine hsplit _ hd ?_
            split
            · exact ⟨_, rfl⟩
            split
            · exact ⟨_, rfl⟩
            split
            · exact ⟨_, by simp only [List.append_assoc]; rfl⟩
            · exact ⟨_, by simp only [giveUp, List.append_assoc]; rfl⟩
          obtain ⟨ki, kh, kp, kq, kl, kc⟩ := gap hnj hne h x.gap₂ s2 v2 gi hdis2 hf2 hd2
          have kl := kl hu2
          have kc' : ∀ e ∈ tr ++ (run env s2 x.gap₂).2, e.2 = .committed →
              ∃ h' ok, h' ≠ h ∧ e.1 = .commit h' ok := by
            intro e he hc
            rcases List.mem_append.mp he with he | he
            · exact gc' e he hc
            · exact kc e he hc
          generalize hs3 : (run env s2 x.gap₂).1 = s3 at ki kh hd ⊢
          have hfold2 : (tr ++ (run env s2 x.gap₂).2).foldl View.step v =
              (run env s2 x.gap₂).2.foldl View.step v2 := by
            rw [List.foldl_append, hfold]
          generalize (run env s2 x.gap₂).2.foldl View.step v2 = v3 at ki kp kq kl hfold2
          generalize tr ++ (run env s2 x.gap₂).2 = tr2 at kc' hfold2 hd ⊢
          have hin3 : (s3.handles h).inside = true := by rw [kh, gh]; exact hin1
          have hu3 : (s3.handles h).uhash ≠ [] := by rw [kh]; exact hu2
          have hlog3 : v3.log = v.log := by rw [kl, gl hu1]; exact hview.1
          have hpend3 : v3.pend h = v.pend h := by rw [kp, gp]; exact hview.2
          -- the commit itself
          have hcommit : (step env s3 (.commit h x.commitOk)).2 ≠ .abort ∧
              ((step env s3 (.commit h x.commitOk)).2 = .committed →
                ((step env s3 (.commit h x.commitOk)).1.handles h).inside = false ∧
                ((step env s3 (.commit h x.commitOk)).1.handles h).locked = false) ∧
              ((step env s3 (.commit h x.commitOk)).2 ≠ .committed →
                (step env s3 (.commit h x.commitOk)).1 = s3) := by
            have hna : (DB.commit s3 h x.commitOk).2 ≠ .abort := by
              unfold DB.commit
              split
              · simp
              · dsimp only
                rw [if_neg (by simp [hin3, hu3])]
                split <;> simp
            simp only [step, hna, if_false]
            refine ⟨hna, ?_, ?_⟩
            · unfold DB.commit
              split
              · simp
              · dsimp only
                rw [if_neg (by simp [hin3, hu3])]
                split
                · intro _
                  rw [release_handles]
                  simp
                · simp
            · unfold DB.commit
              split
              · intro _; rfl
              · dsimp only
                rw [if_neg (by simp [hin3, hu3])]
                split
                · simp
                · intro _; rfl
          generalize step env s3 (.commit h x.commitOk) = c at hcommit hd ⊢
          obtain ⟨s4, o4⟩ := c
          simp only at hcommit hd ⊢
          obtain ⟨ha4, hc4, hn4⟩ := hcommit
          have hd4 : died [(Op.commit h x.commitOk, o4)] = false := by
            simp [died, ha4]
          rw [if_neg (by rw [hd4]; simp)] at hd ⊢
          by_cases hcom : o4 = .committed
          · subst hcom
            rw [if_pos (by simp)]
            refine ⟨⟨fun _ => ⟨hlead, ?_⟩, fun hc => by simp at hc, fun _ => hc4 rfl⟩, fun hc => by simp at hc⟩
            rw [List.foldl_append, hfold2]
            show v3.log ++ [v3.pend h] = _
            rw [hlog3, hpend3]
          · rw [if_neg (by simpa using hcom)] at hd ⊢
            have hs4 := hn4 hcom
            subst hs4
            have kc4 : ∀ e ∈ tr2 ++ [(Op.commit h x.commitOk, o4)], e.2 = .committed →
                ∃ h' ok, h' ≠ h ∧ e.1 = .commit h' ok := by
              intro e he hc
              rcases List.mem_append.mp he with he | he
              · exact kc' e he hc
              · simp at he; subst he; exact absurd hc hcom
            have hv4 : v3.step (.commit h x.commitOk, o4) = v3 := by
              cases o4 <;> first | rfl | exact absurd rfl hcom | exact absurd rfl ha4
            by_cases hd5 : died (run env s4 x.gap₃).2 = true
            · rw [if_pos hd5]
              refine ⟨⟨fun hc => by simp at hc, fun hc => by simp at hc, fun hc => by simp at hc⟩, fun _ => ?_⟩
              exact diedIn s4 x.gap₃ _ hf3 hd5
            · rw [if_neg hd5] at hd ⊢
              have hd5 : died (run env s4 x.gap₃).2 = false := by simpa using hd5
              have hdis5 : Disciplined v3 (run env s4 x.gap₃).2 := by
                simp only [giveUp] at hd
                rw [disciplined_append, disciplined_append] at hd
                have := hd.1.2
                rw [List.foldl_append, hfold2] at this
                simp only [List.foldl_cons, List.foldl_nil, hv4] at this
                exact this
              obtain ⟨mi, mh, mp, mq, ml, mc⟩ := gap hnj hne h x.gap₃ s4 v3 ki hdis5 hf3 hd5
              refine ⟨giveUp_outcome h x v _ _ (by rw [mh]; exact hin3) ?_, fun hc => by simp [giveUp] at hc⟩
              intro e he hc
              rcases List.mem_append.mp he with he | he
              · exact kc4 e he hc
              · exact mc e he hc

/-! ## C41 -/

/-- **C41** Take any run of the database layer after which a transaction is open on handle `h` and
not yet prepared, and any behaviour of the other threads, SQLite and the node's state while
`SQLiteCore::commit` runs.  It reports success only on a node that was leading, and then the
transaction is in the committed history, directly on top of what was committed when it was called;
when it reports failure nothing was committed on this handle; and in both cases no transaction is
open on the handle any more and it does not hold the commit lock. -/
theorem c41_commit_or_rollback (env : Env) (hnj : 0 < env.numJournals)
    (hne : ∀ x, env.sha1hex x ≠ []) (ops : List Op) (hd : Disciplined {} (trace env ops))
    (h : Nat) (x : Ctx) (hin : ((final env ops).handles h).inside = true)
    (hpre : (view (trace env ops)).prepped h = false)
    (hdc : Disciplined (view (trace env ops)) (commit env h x (final env ops)).trace)
    (hf : ∀ op ∈ x.gap₁ ++ x.gap₂ ++ x.gap₃, Foreign h op) :
    Outcome h x (view (trace env ops)) (commit env h x (final env ops)) :=
  (outcome hnj hne h x _ _ (reach hnj hne ops hd) hin hpre hdc hf).1

/-- **C41** The call itself never trips an assertion: if the process dies it is because of another
thread. -/
theorem c41_never_asserts (env : Env) (hnj : 0 < env.numJournals)
    (hne : ∀ x, env.sha1hex x ≠ []) (ops : List Op) (hd : Disciplined {} (trace env ops))
    (h : Nat) (x : Ctx) (hin : ((final env ops).handles h).inside = true)
    (hpre : (view (trace env ops)).prepped h = false)
    (hdc : Disciplined (view (trace env ops)) (commit env h x (final env ops)).trace)
    (hf : ∀ op ∈ x.gap₁ ++ x.gap₂ ++ x.gap₃, Foreign h op)
    (hdead : (commit env h x (final env ops)).result = none) :
    ∃ e ∈ (commit env h x (final env ops)).trace, e.2 = .abort ∧ Foreign h e.1 :=
  (outcome hnj hne h x _ _ (reach hnj hne ops hd) hin hpre hdc hf).2 hdead

/-- **C41** The branch "commit called with nothing to commit", which would return success with the
transaction and the commit lock still held, is never taken: success always comes with a commit of
this handle in the trace. -/
theorem c41_success_committed (env : Env) (hnj : 0 < env.numJournals)
    (hne : ∀ x, env.sha1hex x ≠ []) (ops : List Op) (hd : Disciplined {} (trace env ops))
    (h : Nat) (x : Ctx) (hin : ((final env ops).handles h).inside = true)
    (hpre : (view (trace env ops)).prepped h = false)
    (hdc : Disciplined (view (trace env ops)) (commit env h x (final env ops)).trace)
    (hf : ∀ op ∈ x.gap₁ ++ x.gap₂ ++ x.gap₃, Foreign h op)
    (hs : (commit env h x (final env ops)).result = some true) :
    (history env ops).length <
      ((commit env h x (final env ops)).trace.foldl View.step (view (trace env ops))).log.length := by
  have := ((c41_commit_or_rollback env hnj hne ops hd h x hin hpre hdc hf).success hs).2
  rw [this]
  simp [history]

/-- Non-vacuity: with another handle writing and trying to prepare in every gap, a commit on handle 0
succeeds on a leader, fails on a conflict, and fails on a node that stopped leading. -/
def exBefore : List Op := [.begin 0 false false true, .write 0 [65] true true, .begin 1 false false true]

def exCtx : Ctx where
  gap₁ := [.write 1 [66] true true, .prepare 1 true [] true]
  gap₂ := [.pop]
  gap₃ := [.rollback 1]

example : (commit exEnv 0 exCtx (final exEnv exBefore)).result = some true ∧
    (commit exEnv 0 { exCtx with commitOk := false } (final exEnv exBefore)).result = some false ∧
    (commit exEnv 0 { exCtx with leading := false } (final exEnv exBefore)).result = some false ∧
    (commit exEnv 0 { exCtx with insertOk := false } (final exEnv exBefore)).result = some false := by
  decide +kernel

/-- The trace with another thread failing to prepare because the lock is held. -/
example : (commit exEnv 0 exCtx (final exEnv exBefore)).trace.map Prod.snd =
      [.done, .done, .failed, .popped [], .committed] := by decide +kernel

example : Disciplined {} (trace exEnv exBefore) ∧
    Disciplined (view (trace exEnv exBefore)) (commit exEnv 0 exCtx (final exEnv exBefore)).trace := by
  have h1 : trace exEnv exBefore = [(.begin 0 false false true, .done), (.write 0 [65] true true, .done),
      (.begin 1 false false true, .done)] := by decide +kernel
  have h2 : (commit exEnv 0 exCtx (final exEnv exBefore)).trace =
      [(.prepare 0 true [] true, .done), (.write 1 [66] true true, .done),
       (.prepare 1 true [] true, .failed), (.pop, .popped []), (.commit 0 true, .committed)] := by
    decide +kernel
  rw [h1, h2]
  simp [Disciplined, okCall, view, View.step, upd]

example : ∀ op ∈ exCtx.gap₁ ++ exCtx.gap₂ ++ exCtx.gap₃, Foreign 0 op := by
  simp [exCtx, Foreign]

end Bedrock.CoreCommit.Props
