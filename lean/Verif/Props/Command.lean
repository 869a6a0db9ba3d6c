import Verif.Model.Command

/-!
# C42: every command leaves the database handle clean
-/

namespace Bedrock.Command.Props
open Bedrock Bedrock.Command Bedrock.Deadline

/-- A handle nobody is using: as it sits in the pool. -/
def Clean (h : Hd) : Prop := h = {}

/-- What holds between any two calls: text is only pending inside a transaction. -/
def WF (h : Hd) : Prop := h.inside = false → h.uq = []

theorem wf_rollback (h : Hd) (w : WF h) : WF (rollback h) := by
  unfold rollback; split
  · intro _; rfl
  · exact w

theorem rollback_outside (h : Hd) : (rollback h).inside = false := by
  unfold rollback; split
  · rfl
  · rename_i hh; simpa using hh

theorem wf_begin (h : Hd) (e ok : Bool) (w : WF h) : WF (begin' h e ok).1 := by
  have w1 : WF (if e then { h with locked := true } else h) := by
    cases e <;> exact w
  unfold begin'; dsimp only
  generalize (if e then { h with locked := true } else h) = h1 at w1
  split
  · exact wf_rollback _ w1
  · rename_i hc; intro _; simp at hc; exact hc.2

theorem wf_setNoop (h : Hd) (b : Bool) (w : WF h) : WF (setNoop h b) := by
  unfold setNoop; split
  · exact w
  · intro hi
    have hi : h.inside = false := hi
    simp [hi, w hi]

theorem wf_call (h : Hd) (c : Call) (w : WF h) : WF (c.run h) := by
  cases c with
  | write i q ok ch =>
    simp only [Call.run, write]
    split
    · exact w
    split
    · rename_i hc; simp at hc; intro hi; simp [hc.1.1.1] at hi
    · exact w
  | begin e ok => exact wf_begin h e ok w
  | rollback => exact wf_rollback h w
  | setNoop b => exact wf_setNoop h b w
  | _ => exact w

theorem wf_calls (cs : List Call) : ∀ h, WF h → WF (cs.foldl Call.run h) := by
  induction cs with
  | nil => intro h w; exact w
  | cons c cs ih => intro h w; exact ih _ (wf_call h c w)

theorem wf_open (e : Env) (h : Hd) (c : Cmd) (w : WF h) : WF (open' e h c).1 := by
  have w1 := wf_begin h e.exclusive e.beginOk w
  unfold open'
  generalize begin' h e.exclusive e.beginOk = r at w1
  obtain ⟨h1, b⟩ := r
  have w1 : WF h1 := w1
  cases b with
  | false => exact w1
  | true =>
    dsimp only
    split
    · have hd : WF (decrease e h1 c (exclusiveMs c)).1 := by
        unfold decrease
        repeat' split
        all_goals exact w1
      revert hd
      generalize decrease e h1 c (exclusiveMs c) = r2
      obtain ⟨h2, c2, b⟩ := r2
      cases b <;> exact id
    · exact w1

theorem wf_peekBody (e : Env) (p : Callback) (h : Hd) (c : Cmd) (w : WF h) :
    WF (peekBody e p h c).1 := by
  unfold peekBody
  split
  · exact w
  split
  · exact w
  · rename_i r _
    have w1 := wf_open e { h with limit := some r, abortRef := true } c w
    revert w1
    generalize open' e { h with limit := some r, abortRef := true } c = o
    obtain ⟨h1, c1, x⟩ := o
    intro w1
    have w1 : WF h1 := w1
    cases x with
    | some x => exact w1
    | none =>
      have w2 : WF (p.calls.foldl Call.run { h1 with queryOnly := true }) := wf_calls _ _ w1
      simp only [Callback.exec]
      repeat' split
      all_goals exact w2

theorem wf_processInner (e : Env) (rw p : Callback) (h : Hd) (c : Cmd) (w : WF h) :
    WF (processInner e rw p h c).1 := by
  have w2 := wf_calls rw.calls _ (wf_setNoop h c.mock w)
  unfold processInner
  dsimp only
  generalize rw.calls.foldl Call.run (setNoop h c.mock) = h3 at w2
  split
  · exact w2
  · rename_i enable _
    have w4 : WF (p.calls.foldl Call.run { h3 with rewrite := enable || h3.rewrite }) :=
      wf_calls p.calls _ w2
    simp only [Callback.exec]
    generalize p.calls.foldl Call.run _ = h5 at w4
    repeat' split
    all_goals exact w4

theorem wf_processBody (e : Env) (rw p : Callback) (h : Hd) (c : Cmd) (w : WF h) :
    WF (processBody e rw p h c).1 := by
  unfold processBody
  split
  · exact w
  split
  · exact w
  · rename_i r _
    dsimp only
    split
    · exact wf_processInner e rw p _ c w
    · have w1 := wf_open e { h with limit := some r, abortRef := true } c w
      generalize open' e { h with limit := some r, abortRef := true } c = o at w1
      obtain ⟨h1, c1, x⟩ := o
      cases x with
      | some x => exact w1
      | none => exact wf_processInner e rw p h1 c1 w1

/-! ## Reading stages -/

/-- **C42** Peeking: whatever the plugin does with the handle and however it ends, and wherever an
exception is thrown, if the command is finished there is no open transaction, no pending text, no
time limit, no abort hook, no read-only mode; the command is marked complete and no longer counts
as inside a database operation. -/
theorem c42_peek_complete (e : Env) (p : Callback) (h : Hd) (c : Cmd) (w : WF h)
    (hres : (peek e p h c).2.2 = .complete) :
    let h' := (peek e p h c).1
    let c' := (peek e p h c).2.1
    h'.inside = false ∧ h'.uq = [] ∧ h'.limit = none ∧ h'.abortRef = false ∧ h'.queryOnly = false ∧
      c'.complete = true := by
  have w1 := wf_peekBody e p h c w
  unfold peek at hres ⊢
  generalize peekBody e p h c = r at hres w1
  obtain ⟨h1, c1, x⟩ := r
  have w1 : WF h1 := w1
  cases x with
  | notCompleted => simp at hres
  | completed =>
    exact ⟨rollback_outside h1, wf_rollback h1 w1 (rollback_outside h1), rfl, rfl, rfl, rfl⟩
  | threw x =>
    exact ⟨rollback_outside h1, wf_rollback h1 w1 (rollback_outside h1), rfl, rfl, rfl, rfl⟩

/-- **C42** Peeking when the command must still be processed: time limit, abort hook and read-only
mode are off (the transaction stays open for `process`, see `c42_peek_keeps_transaction_partial`). -/
theorem c42_peek_shouldProcess (e : Env) (p : Callback) (h : Hd) (c : Cmd) :
    let h' := (peek e p h c).1
    h'.limit = none ∧ h'.abortRef = false ∧ h'.queryOnly = false := by
  unfold peek
  generalize peekBody e p h c = r
  obtain ⟨h1, c1, x⟩ := r
  cases x <;> exact ⟨rfl, rfl, rfl⟩

/-- **C42** prePeek and postProcess always switch off time limit, abort hook and read-only mode. -/
theorem c42_read_stage_resets (e : Env) (p : Callback) (h : Hd) (c : Cmd) :
    (∀ h' ∈ [(prePeek e p h c).1, (postProcess e p h c).1],
      h'.limit = none ∧ h'.abortRef = false ∧ h'.queryOnly = false) ∧
    (postProcess e p h c).2.complete = true := by
  unfold prePeek postProcess
  generalize readBody e p .prePeek "555 Timeout prePeeking command" h c = r
  generalize readBody e p .postProcess "555 Timeout postProcessing command" h c = s
  obtain ⟨h1, c1, x⟩ := r
  obtain ⟨h2, c2, y⟩ := s
  cases x <;> cases y <;> simp [resetRead]

/-- **C42** Processing: whatever the plugin and its rewriting hook do, and wherever an exception is
thrown, no-op mode, the time limit and the abort hook are off afterwards.  If no commit is required
there is no open transaction and no pending text and the command is complete.  If a commit is
required the command is not complete, and a transaction is open unless the command asked for empty
transactions to be committed and closed the transaction itself. -/
theorem c42_process (e : Env) (rw p : Callback) (h : Hd) (c : Cmd) (w : WF h) :
    let h' := (process e rw p h c).1
    let c' := (process e rw p h c).2.1
    h'.noop = false ∧ h'.limit = none ∧ h'.abortRef = false ∧
    ((process e rw p h c).2.2 = .noCommitRequired →
      h'.inside = false ∧ h'.uq = [] ∧ c'.complete = true) ∧
    ((process e rw p h c).2.2 = .needsCommit →
      c'.complete = false ∧ (h'.inside = true ∨ c'.commitEmpty = true)) ∧
    ((process e rw p h c).2.2 = .noCommitRequired ∨ (process e rw p h c).2.2 = .needsCommit) := by
  have w1 := wf_processBody e rw p h c w
  have noopOff : ∀ h : Hd, (resetProcess h).noop = false := by
    intro h
    simp only [resetProcess, setNoop]
    split
    · assumption
    · rfl
  have out : ∀ h : Hd, WF h → (resetProcess (rollback h)).inside = false ∧
      (resetProcess (rollback h)).uq = [] := by
    intro h w
    have hr := rollback_outside h
    have wr := wf_rollback h w hr
    simp only [resetProcess, setNoop]
    split
    · exact ⟨hr, wr⟩
    · simp [hr, wr]
  unfold process
  generalize processBody e rw p h c = r at w1
  obtain ⟨h1, c1, x⟩ := r
  have w1 : WF h1 := w1
  cases x with
  | some x =>
    refine ⟨noopOff _, rfl, rfl, fun _ => ⟨(out h1 w1).1, (out h1 w1).2, rfl⟩, ?_, Or.inl rfl⟩
    intro hc; simp at hc
  | none =>
    dsimp only
    by_cases hc : (h1.uq.isEmpty && !c1.commitEmpty) = true
    · rw [if_pos hc]
      refine ⟨noopOff _, rfl, rfl, fun _ => ⟨(out h1 w1).1, (out h1 w1).2, rfl⟩, ?_, Or.inl rfl⟩
      intro hc; simp at hc
    · rw [if_neg hc]
      refine ⟨noopOff _, rfl, rfl, ?_, ?_, Or.inr rfl⟩
      · intro hc; simp at hc
      · intro _
        refine ⟨rfl, ?_⟩
        have hin : (resetProcess h1).inside = h1.inside := by
          simp only [resetProcess, setNoop]; split <;> rfl
        have hce : (defaultOk c1).commitEmpty = c1.commitEmpty := by
          unfold defaultOk; split <;> rfl
        by_cases hi : h1.inside = true
        · exact Or.inl (by rw [hin]; exact hi)
        · right
          have hu := w1 (by simpa using hi)
          show (defaultOk c1).commitEmpty = true
          rw [hce]
          rw [hu] at hc; simpa using hc

/-- **C42** Whatever happens in a stage, afterwards the command no longer counts as inside the database operation of
that stage, and the flag of the other kind of operation is as it was. -/
theorem c42_flags (e : Env) (rw p : Callback) (h : Hd) (c : Cmd) :
    (∀ c' ∈ [(prePeek e p h c).2, (peek e p h c).2.1, (postProcess e p h c).2],
      c'.inRead = false ∧ c'.inWrite = c.inWrite) ∧
    (process e rw p h c).2.1.inWrite = false ∧ (process e rw p h c).2.1.inRead = c.inRead := by
  have hh : ∀ (c : Cmd) (m : String), (handleException c m).inRead = c.inRead ∧ (handleException c m).inWrite = c.inWrite := by
    intro c m; unfold handleException; split <;> exact ⟨rfl, rfl⟩
  have hd : ∀ c : Cmd, (defaultOk c).inRead = c.inRead ∧ (defaultOk c).inWrite = c.inWrite := by
    intro c; unfold defaultOk; split <;> exact ⟨rfl, rfl⟩
  have rc : ∀ (c : Cmd) (x : Exc), (readCatch c x).inRead = false ∧ (readCatch c x).inWrite = c.inWrite := by
    intro c x; cases x <;> refine ⟨rfl, ?_⟩ <;> first | rfl | exact (hh _ _).2
  have pc : ∀ (c : Cmd) (x : Exc), (processCatch c x).inWrite = false ∧ (processCatch c x).inRead = c.inRead := by
    intro c x; cases x <;> refine ⟨rfl, ?_⟩ <;> first | rfl | exact (hh _ _).1
  have dec : ∀ (h : Hd) (c : Cmd) (ms : Int), (decrease e h c ms).2.1.inRead = c.inRead ∧
      (decrease e h c ms).2.1.inWrite = c.inWrite := by
    intro h c ms; unfold decrease; split
    · exact ⟨rfl, rfl⟩
    · split
      · split <;> exact ⟨rfl, rfl⟩
      · exact ⟨rfl, rfl⟩
  have op : ∀ (h : Hd) (c : Cmd), (open' e h c).2.1.inRead = c.inRead ∧ (open' e h c).2.1.inWrite = c.inWrite := by
    intro h c; unfold open'; split
    · exact ⟨rfl, rfl⟩
    · split
      · have := dec (by assumption) c (exclusiveMs c)
        split <;> rename_i heq <;> rw [heq] at this <;> exact this
      · exact ⟨rfl, rfl⟩
  have rb : ∀ st w, (readBody e p st w h c).2.1.inWrite = c.inWrite ∧
      ((readBody e p st w h c).2.2 = none → (readBody e p st w h c).2.1.inRead = false) := by
    intro st w; unfold readBody Callback.exec; split
    · exact ⟨rfl, fun h => by cases h⟩
    · split
      · exact ⟨rfl, fun h => by cases h⟩
      · dsimp only
        split
        · split <;> exact ⟨rfl, fun _ => rfl⟩
        · exact ⟨rfl, fun _ => rfl⟩
        · exact ⟨rfl, fun h => by cases h⟩
  have pb : (peekBody e p h c).2.1.inWrite = c.inWrite ∧
      ((∀ x, (peekBody e p h c).2.2 ≠ .threw x) → (peekBody e p h c).2.1.inRead = false) := by
    unfold peekBody Callback.exec; split
    · exact ⟨rfl, fun h => absurd rfl (h _)⟩
    · split
      · exact ⟨rfl, fun h => absurd rfl (h _)⟩
      · rename_i r _
        have o := op { h with limit := some r, abortRef := true } c
        split <;> rename_i heq <;> rw [heq] at o
        · exact ⟨o.2, fun h => absurd rfl (h _)⟩
        · dsimp only
          split
          · split <;> exact ⟨o.2, fun _ => rfl⟩
          · exact ⟨o.2, fun _ => rfl⟩
          · exact ⟨o.2, fun h => absurd rfl (h _)⟩
  have pi : ∀ (h : Hd) (c : Cmd), (processInner e rw p h c).2.1.inRead = c.inRead ∧
      ((processInner e rw p h c).2.2 = none → (processInner e rw p h c).2.1.inWrite = false) := by
    intro h c; unfold processInner Callback.exec; dsimp only; split
    · exact ⟨rfl, fun h => by cases h⟩
    · split
      · exact ⟨rfl, fun h => by cases h⟩
      · exact ⟨rfl, fun h => by cases h⟩
      · split <;> exact ⟨rfl, fun _ => rfl⟩
  have wb : (processBody e rw p h c).2.1.inRead = c.inRead ∧
      ((processBody e rw p h c).2.2 = none → (processBody e rw p h c).2.1.inWrite = false) := by
    unfold processBody; split
    · exact ⟨rfl, fun h => by cases h⟩
    · split
      · exact ⟨rfl, fun h => by cases h⟩
      · rename_i r _
        have o := op { h with limit := some r, abortRef := true } c
        dsimp only
        split
        · exact pi _ _
        · split <;> rename_i heq <;> rw [heq] at o
          · exact ⟨o.1, fun h => by cases h⟩
          · have q := pi (by assumption) (by assumption)
            rename_i h2 c2
            have q := pi h2 c2
            exact ⟨q.1.trans o.1, q.2⟩
  refine ⟨?_, ?_⟩
  · intro c' hc
    simp only [List.mem_cons, List.not_mem_nil, or_false] at hc
    rcases hc with rfl | rfl | rfl
    · have := rb .prePeek "555 Timeout prePeeking command"
      unfold prePeek
      split <;> rename_i heq <;> rw [heq] at this
      · exact ⟨this.2 rfl, this.1⟩
      · exact ⟨(rc _ _).1, (rc _ _).2.trans this.1⟩
    · unfold peek
      split <;> rename_i heq <;> rw [heq] at pb
      · exact ⟨pb.2 (fun x h => by cases h), pb.1⟩
      · exact ⟨(hd _).1.trans (pb.2 (fun x h => by cases h)), (hd _).2.trans pb.1⟩
      · exact ⟨(rc _ _).1, (rc _ _).2.trans pb.1⟩
    · have := rb .postProcess "555 Timeout postProcessing command"
      unfold postProcess
      split <;> rename_i heq <;> rw [heq] at this
      · exact ⟨this.2 rfl, this.1⟩
      · exact ⟨(rc _ _).1, (rc _ _).2.trans this.1⟩
  · unfold process
    split <;> rename_i heq <;> rw [heq] at wb
    · exact ⟨(pc _ _).1, (pc _ _).2.trans wb.1⟩
    · split
      · exact ⟨(hd _).2.trans (wb.2 rfl), (hd _).1.trans wb.1⟩
      · exact ⟨(hd _).2.trans (wb.2 rfl), (hd _).1.trans wb.1⟩

/-- **C42** A command whose peek says it is done, or whose process returns, without abort or timeout: the client gets
the answer that callback set, or the one set before if it set none, or "200 OK" if nobody set one. -/
theorem c42_answer (e : Env) (rw p : Callback) (h : Hd) (c : Cmd) (b : Bool) (ha : e.abort₀ = false)
    (ha1 : e.abort₁ = false) (hx : e.exclusive = false) (hb : e.beginOk = true) (hin : h.inside = false)
    (hu : h.uq = []) (hr : remaining c.req c.deadline e.t₀ false ≠ none)
    (hr' : remaining c.req c.deadline e.t₀ true ≠ none) (hrw : rw.ending = .ret b) :
    let want := if p.response.getD c.response = "" then "200 OK" else p.response.getD c.response
    (p.ending = .ret true → (peek e p h c).2.1.response = want) ∧
    (∀ b', p.ending = .ret b' → (process e rw p h c).2.1.response = want) := by
  obtain ⟨r, hr⟩ := Option.ne_none_iff_exists'.mp hr
  obtain ⟨r', hr'⟩ := Option.ne_none_iff_exists'.mp hr'
  have ho : ∀ h0 : Hd, h0.inside = false → h0.uq = [] → ∃ h1, open' e h0 c = (h1, c, none) := by
    intro h0 h1 h2
    unfold open' begin'
    simp [h1, h2, hx, hb]
  have dr : ∀ c : Cmd, (defaultOk c).response = if c.response = "" then "200 OK" else c.response := by
    intro c; unfold defaultOk; split <;> simp [*]
  refine ⟨fun hp => ?_, fun b' hp => ?_⟩
  · obtain ⟨h1, h2⟩ := ho { h with limit := some r, abortRef := true } hin hu
    unfold peek peekBody
    simp only [ha, hr, h2, hp, ha1, Callback.exec, Bool.false_eq_true, if_false, if_true]
    exact dr _
  · obtain ⟨h1, h2⟩ := ho { h with limit := some r', abortRef := true } hin hu
    have hi : ∃ h' c', processBody e rw p h c = (h', c', none) ∧ c'.response = p.response.getD c.response := by
      unfold processBody
      simp only [ha, hr', Bool.false_eq_true, if_false]
      rw [if_neg (by simp [hin]), h2]
      unfold processInner
      simp only [hp, hrw, ha1, Callback.exec, Bool.false_eq_true, if_false]
      exact ⟨_, _, rfl, rfl⟩
    obtain ⟨h', c', hi, hc⟩ := hi
    unfold process
    rw [hi]
    dsimp only
    split <;> exact (dr c').trans (by rw [hc])

/-- Two peeks that are done: the first sets no answer, the second its own. -/
example : (peek {} {} {} { deadline := 5000000 }).2.1.response = "200 OK" ∧
    (peek {} { response := some "404 No such job" } {} { deadline := 5000000 }).2.1.response = "404 No such job" := by
  decide +kernel

/-! ## Plugins that leave transaction control to the core -/

/-- Calls that read or write data, or touch only what the core resets in every stage. -/
def plainCall : Call → Bool
  | .write .. | .setTimeout _ | .clearTimeout | .setAbortRef | .clearAbortRef => true
  | _ => false

/-- A callback that leaves transactions, no-op mode, read-only mode and rewriting to the core. -/
def Plain (p : Callback) : Prop := ∀ c ∈ p.calls, plainCall c = true

/-- Fields a plain callback does not touch. -/
def Same (a b : Hd) : Prop :=
  b.inside = a.inside ∧ b.locked = a.locked ∧ b.noop = a.noop ∧ b.rewrite = a.rewrite ∧
    b.queryOnly = a.queryOnly

theorem same_call (h : Hd) (c : Call) (hp : plainCall c = true) : Same h (c.run h) := by
  cases c with
  | write i q ok ch =>
    simp only [Call.run, write]
    repeat' split
    all_goals exact ⟨rfl, rfl, rfl, rfl, rfl⟩
  | setTimeout | clearTimeout | setAbortRef | clearAbortRef => exact ⟨rfl, rfl, rfl, rfl, rfl⟩
  | _ => simp [plainCall] at hp

theorem same_trans {a b c : Hd} (h1 : Same a b) (h2 : Same b c) : Same a c := by
  obtain ⟨a1, a2, a3, a4, a5⟩ := h1
  obtain ⟨b1, b2, b3, b4, b5⟩ := h2
  exact ⟨b1.trans a1, b2.trans a2, b3.trans a3, b4.trans a4, b5.trans a5⟩

theorem same_calls (cs : List Call) : ∀ h, (∀ c ∈ cs, plainCall c = true) →
    Same h (cs.foldl Call.run h) := by
  induction cs with
  | nil => intro h _; exact ⟨rfl, rfl, rfl, rfl, rfl⟩
  | cons c cs ih =>
    intro h hp
    exact same_trans (same_call h c (hp c (by simp))) (ih _ (fun x hx => hp x (by simp [hx])))

/-- In read-only mode a plain callback cannot add pending text either. -/
theorem uq_calls (cs : List Call) : ∀ h, h.queryOnly = true → (∀ c ∈ cs, plainCall c = true) →
    (cs.foldl Call.run h).uq = h.uq := by
  induction cs with
  | nil => intro h _ _; rfl
  | cons c cs ih =>
    intro h hq hp
    have h1 := same_call h c (hp c (by simp))
    have hu : (c.run h).uq = h.uq := by
      cases c with
      | write i q ok ch =>
        simp only [Call.run, write]
        repeat' split
        · rfl
        · rename_i hc; simp [hq] at hc
        · rfl
      | setTimeout | clearTimeout | setAbortRef | clearAbortRef => rfl
      | begin | rollback | setNoop | setQueryOnly | enableRewrite =>
        have := hp _ List.mem_cons_self; simp [plainCall] at this
    rw [List.foldl_cons, ih _ (by rw [h1.2.2.2.2]; exact hq) (fun x hx => hp x (by simp [hx])), hu]

theorem eq_clean (h : Hd) (h1 : h.inside = false) (h2 : h.locked = false) (h3 : h.uq = [])
    (h4 : h.limit = none) (h5 : h.abortRef = false) (h6 : h.queryOnly = false)
    (h7 : h.noop = false) (h8 : h.rewrite = false) : Clean h := by
  obtain ⟨a, b, c, d, e, f, g, i⟩ := h
  simp only at *
  subst_vars; rfl

/-- **C42** (partial: needs a plugin that leaves transaction control to the core, see
`c42_prePeek_transaction_leak`.)  After prePeek or postProcess of any command on a clean handle the
handle is clean again, whatever the callback does or throws. -/
theorem c42_read_stage_clean_partial (e : Env) (p : Callback) (hp : Plain p) (c : Cmd) :
    Clean (prePeek e p {} c).1 ∧ Clean (postProcess e p {} c).1 := by
  have key : ∀ st what, Clean (resetRead (readBody e p st what {} c).1) := by
    intro st what
    unfold readBody
    split
    · rfl
    split
    · rfl
    · rename_i r _
      have hs := same_calls p.calls { limit := some r, abortRef := true, queryOnly := true } hp
      have hu := uq_calls p.calls { limit := some r, abortRef := true, queryOnly := true } rfl hp
      have fin : Clean (resetRead (p.calls.foldl Call.run
          { limit := some r, abortRef := true, queryOnly := true })) :=
        eq_clean _ hs.1 hs.2.1 hu rfl rfl rfl hs.2.2.1 hs.2.2.2.1
      simp only [Callback.exec]
      repeat' split
      all_goals exact fin
  have k1 := key .prePeek "555 Timeout prePeeking command"
  have k2 := key .postProcess "555 Timeout postProcessing command"
  constructor
  · unfold prePeek
    generalize readBody e p .prePeek "555 Timeout prePeeking command" {} c = r at k1
    obtain ⟨h1, c1, x⟩ := r
    cases x <;> exact k1
  · unfold postProcess
    generalize readBody e p .postProcess "555 Timeout postProcessing command" {} c = r at k2
    obtain ⟨h1, c1, x⟩ := r
    cases x <;> exact k2

/-- The handle with a transaction open and limits set. -/
def opened (ex : Bool) (lim : Int) (qo : Bool) : Hd :=
  { inside := true, locked := ex, limit := some lim, abortRef := true, queryOnly := qo }

theorem decrease_hd (e : Env) (h : Hd) (c : Cmd) (ms : Int) :
    (decrease e h c ms).1 = h ∨ ∃ lim, (decrease e h c ms).1 = { h with limit := some lim } := by
  unfold decrease
  split
  · exact Or.inl rfl
  split
  · split
    · exact Or.inl rfl
    · exact Or.inr ⟨_, rfl⟩
  · exact Or.inl rfl

/-- Opening the transaction on a clean handle when `BEGIN` works. -/
theorem open_ok (e : Env) (c : Cmd) (hb : e.beginOk = true) (r : Int) :
    ∃ lim, (open' e { limit := some r, abortRef := true } c).1 = opened e.exclusive lim false := by
  unfold open' begin'
  cases he : e.exclusive
  · exact ⟨r, by simp [hb, opened]⟩
  · simp only [hb, if_true, List.isEmpty_nil, Bool.not_true, Bool.or_self, Bool.false_eq_true,
      if_false]
    have hd := decrease_hd e { inside := true, locked := true, limit := some r, abortRef := true } c
      (exclusiveMs c)
    generalize decrease e { inside := true, locked := true, limit := some r, abortRef := true } c
      (exclusiveMs c) = d at hd
    obtain ⟨h2, c2, b⟩ := d
    rcases hd with hd | ⟨lim, hd⟩
    · have hd : h2 = _ := hd
      subst hd
      cases b <;> exact ⟨r, rfl⟩
    · have hd : h2 = _ := hd
      subst hd
      cases b <;> exact ⟨lim, rfl⟩

/-- **C42** (partial: plugin leaves transaction control to the core, and SQLite's `BEGIN` does not
fail; see the witnesses below.)  Peeking any command on a clean handle, whatever the callback does or
throws: if the command is finished the handle is clean again; otherwise it is clean except that the
transaction is open for `process` (with the commit lock on the blocking thread). -/
theorem c42_peek_clean_partial (e : Env) (p : Callback) (hp : Plain p) (hb : e.beginOk = true)
    (c : Cmd) :
    ((peek e p {} c).2.2 = .complete ∧ Clean (peek e p {} c).1) ∨
    ((peek e p {} c).2.2 = .shouldProcess ∧
      (peek e p {} c).1 = { inside := true, locked := e.exclusive }) := by
  have key : (∃ x, (peekBody e p {} c).2.2 = .threw x ∧
        (peekBody e p {} c).1.inside = false ∧ Clean (resetRead (peekBody e p {} c).1)) ∨
      resetRead (peekBody e p {} c).1 = { inside := true, locked := e.exclusive } := by
    unfold peekBody
    split
    · exact Or.inl ⟨_, rfl, rfl, rfl⟩
    split
    · exact Or.inl ⟨_, rfl, rfl, rfl⟩
    · rename_i r _
      obtain ⟨lim, ho⟩ := open_ok e c hb r
      generalize open' e { limit := some r, abortRef := true } c = o at ho
      obtain ⟨h1, c1, x⟩ := o
      have ho : h1 = _ := ho
      subst ho
      right
      cases x with
      | some x => rfl
      | none =>
        have hs := same_calls p.calls (opened e.exclusive lim true) hp
        have hu := uq_calls p.calls (opened e.exclusive lim true) rfl hp
        have fin : resetRead (p.calls.foldl Call.run (opened e.exclusive lim true)) =
            { inside := true, locked := e.exclusive } := by
          obtain ⟨a1, a2, a3, a4, a5⟩ := hs
          generalize p.calls.foldl Call.run (opened e.exclusive lim true) = h2 at a1 a2 a3 a4 a5 hu
          obtain ⟨a, b, c, d, e, f, g, i⟩ := h2
          simp only [opened] at *
          subst_vars; rfl
        simp only [Callback.exec]
        repeat' split
        all_goals exact fin
  unfold peek
  generalize peekBody e p {} c = r at key
  obtain ⟨h1, c1, x⟩ := r
  have roll : ∀ h1 : Hd, resetRead h1 = { inside := true, locked := e.exclusive } →
      Clean (resetRead (rollback h1)) := by
    intro h1 hr
    obtain ⟨a, b, c, d, e, f, g, i⟩ := h1
    simp only [resetRead, Hd.mk.injEq] at hr
    obtain ⟨rfl, rfl, rfl, -, -, -, rfl, rfl⟩ := hr
    rfl
  rcases key with ⟨x', hx, hin, hcl⟩ | hr
  · have hx : x = .threw x' := hx
    subst hx
    left
    refine ⟨rfl, ?_⟩
    have : rollback h1 = h1 := by
      have hin : h1.inside = false := hin
      simp [rollback, hin]
    show Clean (resetRead (rollback h1))
    rw [this]; exact hcl
  · cases x with
    | notCompleted => exact Or.inr ⟨rfl, hr⟩
    | completed => exact Or.inl ⟨rfl, roll h1 hr⟩
    | threw x => exact Or.inl ⟨rfl, roll h1 hr⟩

/-- **C42** Consequence: `SHOULD_PROCESS` means the transaction is open. -/
theorem c42_peek_keeps_transaction_partial (e : Env) (p : Callback) (hp : Plain p)
    (hb : e.beginOk = true) (c : Cmd) (hres : (peek e p {} c).2.2 = .shouldProcess) :
    (peek e p {} c).1.inside = true := by
  rcases c42_peek_clean_partial e p hp hb c with ⟨h, _⟩ | ⟨_, h⟩
  · rw [hres] at h; simp at h
  · rw [h]

/-- What a plain `process` keeps: the transaction, the lock, and read-only mode off. -/
def Working (ex : Bool) (h : Hd) : Prop :=
  h.inside = true ∧ h.locked = ex ∧ h.queryOnly = false ∧ h.rewrite = false

theorem working_inner (e : Env) (rw p : Callback) (hrw : Plain rw) (hp : Plain p) (h : Hd) (c : Cmd)
    (ex : Bool) (hw : Working ex h) : Working ex (processInner e rw p h c).1 := by
  have h1 : Working ex (setNoop h c.mock) := by
    unfold setNoop; split <;> exact hw
  obtain ⟨a1, a2, a3, a4, a5⟩ := same_calls rw.calls (setNoop h c.mock) hrw
  have h2 : Working ex (rw.calls.foldl Call.run (setNoop h c.mock)) :=
    ⟨a1.trans h1.1, a2.trans h1.2.1, a5.trans h1.2.2.1, a4.trans h1.2.2.2⟩
  unfold processInner
  dsimp only
  generalize rw.calls.foldl Call.run (setNoop h c.mock) = h3 at h2
  split
  · exact h2
  · rename_i enable _
    obtain ⟨b1, b2, b3, b4, b5⟩ := same_calls p.calls { h3 with rewrite := enable || h3.rewrite } hp
    simp only [Callback.exec]
    generalize p.calls.foldl Call.run _ = h5 at b1 b2 b3 b4 b5
    have h6 : Working ex { h5 with rewrite := !enable && h5.rewrite } := by
      refine ⟨b1.trans h2.1, b2.trans h2.2.1, b5.trans h2.2.2.1, ?_⟩
      show (!enable && h5.rewrite) = false
      rw [b4]
      show (!enable && (enable || h3.rewrite)) = false
      rw [h2.2.2.2]; cases enable <;> rfl
    repeat' split
    all_goals exact h6

/-- **C42** (partial, same hypotheses.)  Processing any command, on the handle as `peek` left it or on
a clean handle (a command that was not peeked on this handle), whatever the callbacks do or throw: if
no commit is required the handle is clean; if a commit is required exactly the transaction is open,
with pending text unless the command asked for empty commits. -/
theorem c42_process_clean_partial (e : Env) (rw p : Callback) (hrw : Plain rw) (hp : Plain p)
    (hb : e.beginOk = true) (c : Cmd) (h : Hd)
    (hh : h = {} ∨ h = { inside := true, locked := e.exclusive }) :
    let r := process e rw p h c
    (r.2.2 = .noCommitRequired ∧ Clean r.1) ∨
    (r.2.2 = .needsCommit ∧ r.1 = { inside := true, locked := e.exclusive, uq := r.1.uq } ∧
      (r.1.uq ≠ [] ∨ r.2.1.commitEmpty = true)) := by
  have hwf : WF h := by rcases hh with rfl | rfl <;> intro _ <;> rfl
  have key : Working e.exclusive (processBody e rw p h c).1 ∨
      ((∃ x, (processBody e rw p h c).2.2 = some x) ∧
        (processBody e rw p h c).1.inside = false ∧ (processBody e rw p h c).1.locked = false ∧
        (processBody e rw p h c).1.queryOnly = false ∧ (processBody e rw p h c).1.rewrite = false) := by
    unfold processBody
    split
    · rcases hh with rfl | rfl
      · exact Or.inr ⟨⟨_, rfl⟩, rfl, rfl, rfl, rfl⟩
      · exact Or.inl ⟨rfl, rfl, rfl, rfl⟩
    split
    · rcases hh with rfl | rfl
      · exact Or.inr ⟨⟨_, rfl⟩, rfl, rfl, rfl, rfl⟩
      · exact Or.inl ⟨rfl, rfl, rfl, rfl⟩
    · rename_i r _
      dsimp only
      left
      rcases hh with rfl | rfl
      · rw [if_neg (by simp)]
        obtain ⟨lim, ho⟩ := open_ok e c hb r
        generalize open' e { limit := some r, abortRef := true } c = o at ho
        obtain ⟨h1, c1, x⟩ := o
        have ho : h1 = _ := ho
        subst ho
        cases x with
        | some x => exact ⟨rfl, rfl, rfl, rfl⟩
        | none => exact working_inner e rw p hrw hp _ _ _ ⟨rfl, rfl, rfl, rfl⟩
      · rw [if_pos rfl]
        exact working_inner e rw p hrw hp _ _ _ ⟨rfl, rfl, rfl, rfl⟩
  have hall := c42_process e rw p h c hwf
  dsimp only at hall ⊢
  obtain ⟨hn, hl, ha, hno, hneed, hor⟩ := hall
  -- the two remaining fields
  have rest : (process e rw p h c).1.queryOnly = false ∧ (process e rw p h c).1.rewrite = false ∧
      ((process e rw p h c).2.2 = .noCommitRequired → (process e rw p h c).1.locked = false) ∧
      ((process e rw p h c).2.2 = .needsCommit → (process e rw p h c).1.inside = true ∧
        (process e rw p h c).1.locked = e.exclusive ∧
        ((process e rw p h c).1.uq ≠ [] ∨ (process e rw p h c).2.1.commitEmpty = true)) := by
    clear hn hl ha hno hneed hor
    unfold process
    generalize processBody e rw p h c = r at key
    obtain ⟨h1, c1, x⟩ := r
    have rq : ∀ h : Hd, (resetProcess h).queryOnly = h.queryOnly ∧
        (resetProcess h).rewrite = h.rewrite ∧ (resetProcess h).locked = h.locked ∧
        (resetProcess h).inside = h.inside := by
      intro h; simp only [resetProcess, setNoop]; split <;> exact ⟨rfl, rfl, rfl, rfl⟩
    have rb : ∀ h : Hd, (rollback h).queryOnly = h.queryOnly ∧ (rollback h).rewrite = h.rewrite ∧
        (h.inside = true → (rollback h).locked = false) ∧
        (h.inside = false → (rollback h).locked = h.locked) := by
      intro h; unfold rollback
      split
      · rename_i hi; exact ⟨rfl, rfl, fun _ => rfl, fun h => by simp [hi] at h⟩
      · exact ⟨rfl, rfl, fun h => by contradiction, fun _ => rfl⟩
    have quiet : (h1.queryOnly = false ∧ h1.rewrite = false) ∧ (rollback h1).locked = false := by
      rcases key with hw | ⟨_, k1, k2, k3, k4⟩
      · exact ⟨⟨hw.2.2.1, hw.2.2.2⟩, (rb h1).2.2.1 hw.1⟩
      · exact ⟨⟨k3, k4⟩, ((rb h1).2.2.2 k1).trans k2⟩
    have done : (resetProcess (rollback h1)).queryOnly = false ∧
        (resetProcess (rollback h1)).rewrite = false ∧
        (resetProcess (rollback h1)).locked = false :=
      ⟨(rq _).1.trans ((rb h1).1.trans quiet.1.1), (rq _).2.1.trans ((rb h1).2.1.trans quiet.1.2),
        (rq _).2.2.1.trans quiet.2⟩
    cases x with
    | some x => exact ⟨done.1, done.2.1, fun _ => done.2.2, fun hc => by simp at hc⟩
    | none =>
      dsimp only
      by_cases hc : (h1.uq.isEmpty && !c1.commitEmpty) = true
      · rw [if_pos hc]
        exact ⟨done.1, done.2.1, fun _ => done.2.2, fun hc => by simp at hc⟩
      · rw [if_neg hc]
        rcases key with hw | ⟨⟨x, hx⟩, _⟩
        · refine ⟨(rq h1).1.trans quiet.1.1, (rq h1).2.1.trans quiet.1.2, fun hc => by simp at hc,
            fun _ => ⟨(rq h1).2.2.2.trans hw.1, (rq h1).2.2.1.trans hw.2.1, ?_⟩⟩
          have hce : (defaultOk c1).commitEmpty = c1.commitEmpty := by
            unfold defaultOk; split <;> rfl
          by_cases hu : h1.uq = []
          · right
            show (defaultOk c1).commitEmpty = true
            rw [hce]; rw [hu] at hc; simpa using hc
          · left
            simp only [resetProcess, setNoop]
            split
            · exact hu
            · show (if h1.inside = true then h1.uq ++ noopText false else h1.uq) ≠ []
              rw [if_pos hw.1]; simp [hu]
        · simp at hx
  obtain ⟨r1, r2, r3, r4⟩ := rest
  rcases hor with ho | ho
  · left
    obtain ⟨i1, i2, _⟩ := hno ho
    exact ⟨ho, eq_clean _ i1 (r3 ho) i2 hl ha r1 hn r2⟩
  · right
    obtain ⟨j1, j2, j3⟩ := r4 ho
    refine ⟨ho, ?_, j3⟩
    generalize (process e rw p h c).1 = h' at *
    obtain ⟨a, b, c, d, e, f, g, i⟩ := h'
    simp only at *
    subst_vars; rfl

/-! ## Examples and violations -/

/-- A request with the default timeout, created at time 0. -/
def exCmd : Cmd := { deadline := 110000000 }

/-- A peek that wants processing, and a process that writes. -/
def exPeek : Callback := { calls := [.write true [1] true true], ending := .ret false }
def exProcess : Callback :=
  { calls := [.write false [65, 59] true true, .setTimeout 5], ending := .ret true }

example : Plain exPeek ∧ Plain exProcess := by
  constructor <;> intro c hc <;> revert hc <;> simp [exPeek, exProcess] <;> rintro (rfl | rfl) <;> rfl

/-- The hypotheses are met, and the write made while peeking is refused. -/
example : (peek {} exPeek {} exCmd) =
      ({ inside := true }, { exCmd with ran := [.peek] }, .shouldProcess) ∧
    (process {} { ending := .ret true } exProcess { inside := true } exCmd).1 =
      { inside := true, uq := [65, 59] } ∧
    (process {} { ending := .ret true } exProcess { inside := true } exCmd).2.2 = .needsCommit := by
  decide +kernel

/-- Exceptions: a constraint error in `process` of a mocked request on the blocking thread. -/
example :
    let r := process { exclusive := true } { ending := .ret true }
      { exProcess with ending := .throw .constraint } {} { exCmd with mock := true }
    r.1 = {} ∧ r.2.1.response = "400 Unique Constraints Violation" ∧ r.2.2 = .noCommitRequired := by
  decide +kernel

/-- **C42, violation**: a `prePeek` callback that begins a transaction and returns leaves it open, and
the command's own `peek` then fails because of it. -/
theorem c42_prePeek_transaction_leak :
    let p : Callback := { calls := [.begin false true] }
    (prePeek {} p {} exCmd).1.inside = true ∧ (prePeek {} p {} exCmd).2.complete = false ∧
    (peek {} exPeek (prePeek {} p {} exCmd).1 exCmd).2.1.response =
      "501 Failed to begin transaction" := by decide +kernel

/-- **C42, violation**: a `process` callback that closes its transaction and asks for empty commits
makes the core ask for a commit although no transaction is open (`prepare` then asserts). -/
theorem c42_needsCommit_without_transaction :
    let p : Callback := { calls := [.rollback], commitEmpty := true }
    (process {} { ending := .ret false } p { inside := true } exCmd).2.2 = .needsCommit ∧
    (process {} { ending := .ret false } p { inside := true } exCmd).1.inside = false := by
  decide +kernel

/-- **C42, violation**: a `peek` callback that turns on no-op mode leaves it on for the next command
that uses the handle. -/
theorem c42_peek_noop_leak :
    (peek {} { calls := [.setNoop true] } {} exCmd).1.noop = true ∧
    (peek {} { calls := [.setNoop true] } {} exCmd).2.2 = .complete := by decide +kernel

/-- **C42, violation**: if `BEGIN` fails on the blocking thread the commit lock stays taken although
the command is finished. -/
theorem c42_failed_begin_keeps_lock :
    (peek { exclusive := true, beginOk := false } exPeek {} exCmd).1 = { locked := true } ∧
    (peek { exclusive := true, beginOk := false } exPeek {} exCmd).2.2 = .complete := by
  decide +kernel

end Bedrock.Command.Props
