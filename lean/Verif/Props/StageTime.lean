import Verif.Props.Deadline

/-!
# C43: the time limit a plugin works under, on ordinary threads and on the blocking thread
-/

namespace Bedrock.Deadline.Props
open Bedrock.Text Bedrock.Command

/-- Milliseconds a command may take on the blocking thread. -/
def blockingMs (c : Cmd) : Int := if c.isSync then 20000 else 5000

/-- The clock readings of a stage, in order. -/
def Ordered (e : Env) : Prop :=
  Clock e.t₀ ∧ Clock e.t₁ ∧ Clock e.t₂ ∧ Clock e.t₃ ∧ e.t₀ ≤ e.t₁ ∧ e.t₁ ≤ e.t₂ ∧ e.t₂ ≤ e.t₃

/-- What `open'` leaves as limit and deadline if it goes through. -/
theorem open_limit (e : Env) (h : Hd) (c : Cmd) (hd : 0 ≤ c.deadline ∧ c.deadline < 2 ^ 63) (ht : Ordered e)
    (h2 : Hd) (c2 : Cmd) (ho : open' e h c = (h2, c2, none)) :
    (e.exclusive = false ∧ h2.limit = h.limit ∧ c2.deadline = c.deadline) ∨
    (e.exclusive = true ∧ e.t₁ < c.deadline ∧ c.deadline - e.t₁ ≤ blockingMs c * 1000 ∧ h2.limit = h.limit ∧
      c2.deadline = c.deadline) ∨
    (e.exclusive = true ∧ blockingMs c * 1000 < c.deadline - e.t₁ ∧ c2.deadline = e.t₂ + blockingMs c * 1000 ∧
      e.t₃ < c2.deadline ∧ h2.limit = some (c2.deadline - e.t₃)) := by
  obtain ⟨u0, u1, u2, u3, o1, o2, o3⟩ := ht
  unfold open' at ho
  have hl : (begin' h e.exclusive e.beginOk).1.limit = h.limit := by
    unfold begin'
    cases e.exclusive <;> simp only [Bool.false_eq_true, if_true, if_false] <;> split <;>
      simp [rollback] <;> split <;> rfl
  generalize hb : begin' h e.exclusive e.beginOk = b at ho hl
  obtain ⟨h1, ok⟩ := b
  simp only at hl
  cases ok with
  | false => simp at ho
  | true =>
    simp only at ho
    cases hx : e.exclusive with
    | false =>
      rw [hx] at ho
      simp only [Bool.false_eq_true, if_false, Prod.mk.injEq, and_true] at ho
      obtain ⟨rfl, rfl⟩ := ho
      exact .inl ⟨rfl, hl, rfl⟩
    | true =>
      rw [hx] at ho
      simp only [if_true] at ho
      have hms : exclusiveMs c = blockingMs c := rfl
      rw [hms] at ho
      have hms' : 0 < blockingMs c ∧ blockingMs c < 2 ^ 31 := by unfold blockingMs; split <;> omega
      generalize blockingMs c = ms at ho hms' ⊢
      obtain ⟨k1, k2⟩ := c43_remaining c.req c.deadline e.t₁ hd u1 false
      unfold Command.decrease at ho
      cases hr : remaining c.req c.deadline e.t₁ false with
      | none => rw [hr] at ho; simp at ho
      | some x =>
        have hx' := (k2 x hr)
        have hx'' := hx'.2.2.2 rfl
        rw [hr] at ho
        simp only at ho
        by_cases hc : ms * 1000 < x
        · rw [if_pos hc] at ho
          have hs : setTimeout ms e.t₂ = e.t₂ + ms * 1000 := by
            have := u2.1; have := u2.2
            unfold setTimeout
            rw [toU64_id (x := ms * 1000) (by omega) (by omega), toU64_id (by omega) (by omega)]
            omega
          rw [hs] at ho
          have hd2 : 0 ≤ e.t₂ + ms * 1000 ∧ e.t₂ + ms * 1000 < 2 ^ 63 := by
            have := u2.1; have := u2.2; have := hd.2; omega
          obtain ⟨j1, j2⟩ := c43_remaining c.req (e.t₂ + ms * 1000) e.t₃ hd2 u3 false
          cases hr' : remaining c.req (e.t₂ + ms * 1000) e.t₃ false with
          | none => rw [hr'] at ho; simp at ho
          | some y =>
            rw [hr'] at ho
            simp only [Prod.mk.injEq, and_true] at ho
            obtain ⟨rfl, rfl⟩ := ho
            have hy := j2 y hr'
            have hy' := hy.2.2.2 rfl
            refine .inr (.inr ⟨rfl, by omega, rfl, ?_, ?_⟩)
            · show e.t₃ < e.t₂ + ms * 1000; omega
            · show some y = some (e.t₂ + ms * 1000 - e.t₃); rw [hy']
        · rw [if_neg hc] at ho
          simp only [Prod.mk.injEq, and_true] at ho
          obtain ⟨rfl, rfl⟩ := ho
          exact .inr (.inl ⟨rfl, by omega, by omega, hl, rfl⟩)

theorem begin_abortRef (h : Hd) (x ok : Bool) : (begin' h x ok).1.abortRef = h.abortRef := by
  unfold begin'
  cases x <;> simp only [Bool.false_eq_true, if_true, if_false] <;> split <;>
    simp [rollback] <;> split <;> rfl

theorem decrease_rest (e : Env) (h : Hd) (c : Cmd) (ms : Int) :
    (Command.decrease e h c ms).1.abortRef = h.abortRef ∧ (Command.decrease e h c ms).2.1.ran = c.ran := by
  unfold Command.decrease
  repeat' split
  all_goals exact ⟨rfl, rfl⟩

theorem open_rest (e : Env) (h : Hd) (c : Cmd) :
    (open' e h c).1.abortRef = h.abortRef ∧ (open' e h c).2.1.ran = c.ran := by
  have hb := begin_abortRef h e.exclusive e.beginOk
  unfold open'
  generalize begin' h e.exclusive e.beginOk = b at hb
  obtain ⟨h1, ok⟩ := b
  cases ok with
  | false => exact ⟨hb, rfl⟩
  | true =>
    simp only
    split
    · have hr := decrease_rest e h1 c (exclusiveMs c)
      generalize Command.decrease e h1 c (exclusiveMs c) = d at hr
      obtain ⟨h2, c2, ok⟩ := d
      cases ok <;> exact ⟨hr.1.trans hb, hr.2⟩
    · exact ⟨hb, rfl⟩

/-- **C43** Peeking: the database works under a limit that ends at the command's deadline; on the
blocking thread that deadline is first brought forward to five seconds (twenty for a synchronous
command) from now.  If no transaction could be begun, or the time ran out while waiting for the lock,
the plugin is not called. -/
theorem c43_peek_limit (e : Env) (p : Callback) (h : Hd) (c : Cmd)
    (hd : 0 ≤ c.deadline ∧ c.deadline < 2 ^ 63) (ht : Ordered e)
    (hran : (peek e p h c).2.1.ran ≠ c.ran) :
    ∃ h1 lim, (peekBody e p h c).1 = p.calls.foldl Call.run h1 ∧ h1.limit = some lim ∧ 0 < lim ∧
      h1.queryOnly = true ∧ h1.abortRef = true ∧
      ((e.exclusive = false ∧ lim = c.deadline - e.t₀) ∨
       (e.exclusive = true ∧ c.deadline - e.t₁ ≤ (if c.isSync then 20000000 else 5000000) ∧ lim = c.deadline - e.t₀) ∨
       (e.exclusive = true ∧ lim = e.t₂ + (if c.isSync then 20000000 else 5000000) - e.t₃)) := by
  have hran' : (peekBody e p h c).2.1.ran ≠ c.ran := by
    intro he
    refine hran ?_
    unfold peek
    generalize peekBody e p h c = b at he
    obtain ⟨h1, c1, x⟩ := b
    simp only at he
    cases x with
    | completed => simp only [defaultOk]; split <;> exact he
    | notCompleted => exact he
    | threw x => cases x <;> simp only [readCatch, handleException] <;> (try split) <;> exact he
  obtain ⟨k1, k2⟩ := c43_remaining c.req c.deadline e.t₀ hd ht.1 false
  unfold peekBody at hran' ⊢
  cases ha : e.abort₀ with
  | true => rw [ha] at hran'; simp at hran'
  | false =>
    rw [ha] at hran'
    simp only [Bool.false_eq_true, if_false] at hran' ⊢
    cases hr : remaining c.req c.deadline e.t₀ false with
    | none => rw [hr] at hran'; simp at hran'
    | some r =>
      rw [hr] at hran'
      simp only at hran' ⊢
      have hr' := k2 r hr
      have hr'' := hr'.2.2.2 rfl
      have hop := open_limit e { h with limit := some r, abortRef := true } c hd ht
      have hrest := open_rest e { h with limit := some r, abortRef := true } c
      generalize open' e { h with limit := some r, abortRef := true } c = o at hran' hop hrest ⊢
      obtain ⟨h1, c1, x⟩ := o
      cases x with
      | some x => exact absurd hrest.2 hran'
      | none =>
        have hop := hop h1 c1 rfl
        have hab : h1.abortRef = true := hrest.1
        refine ⟨{ h1 with queryOnly := true }, ?_⟩
        have e1 : (match p.ending with
            | .ret b =>
              if e.abort₁ = true then
                ((p.exec .peek { h1 with queryOnly := true } { c1 with inRead := true }).1,
                  { (p.exec .peek { h1 with queryOnly := true } { c1 with inRead := true }).2 with inRead := false },
                  PeekEnd.threw (.sexc "556 Aborted"))
              else
                ((p.exec .peek { h1 with queryOnly := true } { c1 with inRead := true }).1,
                  { (p.exec .peek { h1 with queryOnly := true } { c1 with inRead := true }).2 with inRead := false },
                  if b = true then .completed else .notCompleted)
            | .throw .timeout =>
              ((p.exec .peek { h1 with queryOnly := true } { c1 with inRead := true }).1,
                { (p.exec .peek { h1 with queryOnly := true } { c1 with inRead := true }).2 with inRead := false },
                PeekEnd.threw (.sexc "555 Timeout peeking command"))
            | .throw x =>
              ((p.exec .peek { h1 with queryOnly := true } { c1 with inRead := true }).1,
                (p.exec .peek { h1 with queryOnly := true } { c1 with inRead := true }).2, .threw x)).1
            = p.calls.foldl Call.run { h1 with queryOnly := true } := by
          repeat' split
          all_goals rfl
        have hb : blockingMs c * 1000 = if c.isSync then 20000000 else 5000000 := by unfold blockingMs; split <;> rfl
        rcases hop with ⟨a1, a2, a3⟩ | ⟨a1, a2, a3, a4, a5⟩ | ⟨a1, a2, a3, a4, a5⟩
        · exact ⟨r, e1, a2, by omega, rfl, hab, .inl ⟨a1, by omega⟩⟩
        · exact ⟨r, e1, a4, by omega, rfl, hab, .inr (.inl ⟨a1, by rw [← hb]; omega, by omega⟩)⟩
        · exact ⟨_, e1, a5, by omega, rfl, hab, .inr (.inr ⟨a1, by rw [← hb]; omega⟩)⟩

/-- **C43** Processing: in a transaction that peeking has begun, or in one of its own on an ordinary thread,
the database works under a limit that ends at the deadline or after the processing allowance, whichever
comes first.  On the blocking thread, without a transaction from peeking, a command with more than five
(twenty) seconds left gets that much instead, its processing allowance notwithstanding. -/
theorem c43_process_limit (e : Env) (rw p : Callback) (h : Hd) (c : Cmd)
    (hd : 0 ≤ c.deadline ∧ c.deadline < 2 ^ 63) (ht : Ordered e) (hrw : rw.calls = [] ∧ ∃ b, rw.ending = .ret b)
    (hran : (process e rw p h c).2.1.ran ≠ c.ran) :
    ∃ h1 lim, (processBody e rw p h c).1.limit = (p.calls.foldl Call.run h1).limit ∧ h1.limit = some lim ∧ 0 < lim ∧
      ((lim ≤ processUs c.req ∧ lim ≤ c.deadline - e.t₀) ∨
       (h.inside = false ∧ e.exclusive = true ∧ (if c.isSync then 20000000 else 5000000) < c.deadline - e.t₁ ∧
         lim = e.t₂ + (if c.isSync then 20000000 else 5000000) - e.t₃)) := by
  have hran' : (processBody e rw p h c).2.1.ran ≠ c.ran := by
    intro he
    refine hran ?_
    unfold process
    generalize processBody e rw p h c = b at he
    obtain ⟨h1, c1, x⟩ := b
    simp only at he
    cases x with
    | none => simp only [defaultOk]; split <;> split <;> exact he
    | some x => cases x <;> simp only [processCatch, handleException] <;> (try split) <;> exact he
  obtain ⟨hr1, b, hr2⟩ := hrw
  have hin : ∀ h2 c2, ∃ h1, (processInner e rw p h2 c2).1.limit = (p.calls.foldl Call.run h1).limit ∧
      h1.limit = h2.limit := by
    intro h2 c2
    have hn : (setNoop h2 c2.mock).limit = h2.limit := by unfold setNoop; split <;> rfl
    refine ⟨{ (setNoop h2 c2.mock) with rewrite := b || (setNoop h2 c2.mock).rewrite }, ?_, hn⟩
    unfold processInner
    rw [hr1, hr2]
    simp only [List.foldl_nil, Callback.exec]
    repeat' split
    all_goals rfl
  obtain ⟨k1, k2⟩ := c43_remaining c.req c.deadline e.t₀ hd ht.1 true
  unfold processBody at hran' ⊢
  cases ha : e.abort₀ with
  | true => rw [ha] at hran'; simp at hran'
  | false =>
    rw [ha] at hran'
    simp only [Bool.false_eq_true, if_false] at hran' ⊢
    cases hr : remaining c.req c.deadline e.t₀ true with
    | none => rw [hr] at hran'; simp at hran'
    | some r =>
      rw [hr] at hran'
      simp only at hran' ⊢
      have hr' := k2 r hr
      have hp' := hr'.2.2.1 rfl
      cases hi : h.inside with
      | true =>
        rw [if_pos rfl]
        obtain ⟨h1, q1, q2⟩ := hin { h with limit := some r, abortRef := true } c
        rw [hi] at q1
        exact ⟨h1, r, q1, q2, by omega, .inl ⟨hp', by omega⟩⟩
      | false =>
        rw [hi] at hran'
        have hop := open_limit e { h with limit := some r, abortRef := true } c hd ht
        have hrest := open_rest e { h with limit := some r, abortRef := true } c
        rw [hi] at hop hrest
        simp only [Bool.false_eq_true, if_false] at hran' ⊢
        generalize open' e ⟨false, h.locked, h.uq, some r, true, h.queryOnly, h.noop, h.rewrite⟩ c = o at hran' hop hrest ⊢
        obtain ⟨h2, c2, x⟩ := o
        cases x with
        | some x => exact absurd hrest.2 hran'
        | none =>
          have hop := hop h2 c2 rfl
          obtain ⟨h1, q1, q2⟩ := hin h2 c2
          have hb : blockingMs c * 1000 = if c.isSync then 20000000 else 5000000 := by unfold blockingMs; split <;> rfl
          rcases hop with ⟨a1, a2, a3⟩ | ⟨a1, a2, a3, a4, a5⟩ | ⟨a1, a2, a3, a4, a5⟩
          · exact ⟨h1, r, q1, q2.trans a2, by omega, .inl ⟨hp', by omega⟩⟩
          · exact ⟨h1, r, q1, q2.trans a4, by omega, .inl ⟨hp', by omega⟩⟩
          · exact ⟨h1, _, q1, q2.trans a5, by omega, .inr ⟨trivial, a1, by rw [← hb]; omega, by rw [← hb]; omega⟩⟩

/-- **C43** A command whose time runs out while it waits for the lock of the blocking thread is answered
with 555 and not run. -/
theorem c43_expired_waiting (e : Env) (rw p : Callback) (h : Hd) (c : Cmd)
    (hd : 0 ≤ c.deadline ∧ c.deadline < 2 ^ 63) (ht : Ordered e) (ha : e.abort₀ = false) (hx : e.exclusive = true)
    (hb : e.beginOk = true) (hclean : h.inside = false ∧ h.uq = [])
    (h0 : e.t₀ < c.deadline) (h1 : c.deadline ≤ e.t₁) :
    ((peek e p h c).2.1.ran = c.ran ∧ (peek e p h c).2.1.response = "555 Timeout" ∧ (peek e p h c).2.2 = .complete ∧
      (peek e p h c).1.inside = false) ∧
    (0 < processUs c.req →
      (process e rw p h c).2.1.ran = c.ran ∧ (process e rw p h c).2.1.response = "555 Timeout" ∧
      (process e rw p h c).2.2 = .noCommitRequired ∧ (process e rw p h c).1.inside = false) := by
  have hno : remaining c.req c.deadline e.t₁ false = none :=
    (c43_remaining c.req c.deadline e.t₁ hd ht.2.1 false).1.mpr (.inl h1)
  have hopen : ∀ r, open' e { h with limit := some r, abortRef := true } c =
      ({ h with limit := some r, abortRef := true, locked := true, inside := true }, c, some (.sexc "555 Timeout")) := by
    intro r
    unfold open' begin'
    simp [hx, hb, hclean.1, hclean.2, Command.decrease, hno]
  constructor
  · obtain ⟨k1, k2⟩ := c43_remaining c.req c.deadline e.t₀ hd ht.1 false
    cases hr : remaining c.req c.deadline e.t₀ false with
    | none => have := k1.mp hr; simp at this; omega
    | some r =>
      simp [peek, peekBody, ha, hr, hopen, readCatch, handleException, resetRead, rollback]
  · intro hp
    obtain ⟨k1, k2⟩ := c43_remaining c.req c.deadline e.t₀ hd ht.1 true
    cases hr : remaining c.req c.deadline e.t₀ true with
    | none => have := k1.mp hr; simp at this; omega
    | some r =>
      have hn : ∀ h' : Hd, h'.inside = false → (setNoop h' false).inside = false := by
        intro h' hh; unfold setNoop; split
        · exact hh
        · exact hh
      have hbody : processBody e rw p h c =
          ({ h with limit := some r, abortRef := true, locked := true, inside := true }, c, some (.sexc "555 Timeout")) := by
        unfold processBody
        simp only [ha, hr, Bool.false_eq_true, if_false]
        rw [if_neg (by simp [hclean.1]), hopen r]
      simp [process, hbody, processCatch, handleException, resetProcess, hn, rollback]

/-- A synchronous command with a minute left, on the blocking thread; one that expires while it waits. -/
example :
    (peek { exclusive := true, t₀ := 0, t₁ := 0, t₂ := 0, t₃ := 0 } {} {} { deadline := 60000000, isSync := true }).2.1.ran = [.peek] := by
  decide +kernel

example : (peekBody { exclusive := true } {} {} { deadline := 60000000, isSync := true }).1.limit = some 20000000 := by
  decide +kernel

example : Ordered { exclusive := true, t₀ := 1, t₁ := 2000001, t₂ := 2000002, t₃ := 2000003 } := by
  unfold Ordered Clock; decide +kernel

example : (process { exclusive := true, t₀ := 1, t₁ := 2000001, t₂ := 2000002, t₃ := 2000003 } {} {} {} { deadline := 2000000 }).2.1.response
    = "555 Timeout" := by decide +kernel

/-- The processing allowance is lost on the blocking thread: half a second was asked for. -/
theorem c43_allowance_lost :
    (processBody { exclusive := true } {} {} {} { deadline := 60000000, req := { processTimeout := some (str "500") } }).1.limit =
      some 5000000 := by decide +kernel

end Bedrock.Deadline.Props
