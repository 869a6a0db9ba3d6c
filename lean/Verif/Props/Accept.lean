import Verif.Model.Accept

/-!
# C120: connections are taken in order, once, up to the limit, and the control port always
-/

namespace Bedrock.Accept.Props
open Bedrock.Accept

theorem upd_self (f : Port → α) (p : Port) (x : α) : upd f p x p = x := by simp [upd]
theorem upd_ne (f : Port → α) {p q : Port} (x : α) (h : q ≠ p) : upd f p x q = f q := by simp [upd, h]

theorem run_nil (s : Srv) : s.run [] = s := rfl
theorem run_cons (s : Srv) (e : Ev) (es : List Ev) : s.run (e :: es) = (s.step e).run es := rfl
theorem run_append (s : Srv) (a b : List Ev) : s.run (a ++ b) = (s.run a).run b := by
  simp [Srv.run, List.foldl_append]

theorem step_halted {s : Srv} (h : s.halted.isSome = true) (e : Ev) : s.step e = s := by simp [Srv.step, h]

theorem run_halted {s : Srv} (h : s.halted.isSome = true) (es : List Ev) : s.run es = s := by
  induction es with
  | nil => rfl
  | cons e es ih => rw [run_cons, step_halted h]; exact ih

/-- A run that has not halted was never halted. -/
theorem not_halted {s : Srv} {e : Ev} {es : List Ev} (h : ((s.step e).run es).halted = none) :
    s.halted = none ∧ (s.step e).halted = none := by
  have h1 : (s.step e).halted = none := by
    cases h' : (s.step e).halted with
    | none => rfl
    | some x =>
      have : (s.step e).halted.isSome = true := by simp [h']
      rw [run_halted this, h'] at h
      cases h
  refine ⟨?_, h1⟩
  cases h' : s.halted with
  | none => rfl
  | some x =>
    have : s.halted.isSome = true := by simp [h']
    rw [step_halted this, h'] at h1
    cases h1

/-- What one iteration does. -/
theorem iter_cases (s : Srv) (ok started : Bool) :
    (s.todo = [] ∧ s.iter ok started = s) ∨
    (∃ p rest, s.todo = p :: rest ∧ p ≠ .control ∧ s.limit ≤ s.out ∧ s.iter ok started = { s with todo := [] }) ∨
    (∃ p rest, s.todo = p :: rest ∧ (p = .control ∨ s.out < s.limit) ∧ (ok = false ∨ s.waiting p = []) ∧
      s.iter ok started = { s with todo := rest }) ∨
    (∃ p rest c cs, s.todo = p :: rest ∧ (p = .control ∨ s.out < s.limit) ∧ ok = true ∧ s.waiting p = c :: cs ∧ started = true ∧
      s.iter ok started = { s with waiting := upd s.waiting p cs, out := s.out + 1, taken := s.taken ++ [(p, c)],
                                   threads := s.threads ++ [(p, c)] }) ∨
    (started = false ∧ (s.iter ok started).halted.isSome = true) := by
  unfold Srv.iter
  cases ht : s.todo with
  | nil => exact .inl ⟨rfl, rfl⟩
  | cons p rest =>
    dsimp only
    by_cases h1 : p ≠ .control ∧ s.limit ≤ s.out
    · rw [if_pos h1]; exact .inr (.inl ⟨p, rest, rfl, h1.1, h1.2, rfl⟩)
    · rw [if_neg h1]
      have h1' : p = .control ∨ s.out < s.limit := by
        by_cases hp : p = .control
        · exact .inl hp
        · exact .inr (by have : ¬ s.limit ≤ s.out := fun h => h1 ⟨hp, h⟩
                         omega)
      cases ok with
      | false => exact .inr (.inr (.inl ⟨p, rest, rfl, h1', .inl rfl, by simp⟩))
      | true =>
        cases hw : s.waiting p with
        | nil => exact .inr (.inr (.inl ⟨p, rest, rfl, h1', .inr hw, by simp⟩))
        | cons c cs =>
          cases started with
          | true => exact .inr (.inr (.inr (.inl ⟨p, rest, c, cs, rfl, h1', rfl, hw, rfl, by simp⟩)))
          | false => exact .inr (.inr (.inr (.inr ⟨rfl, by simp⟩)))

/-! ## The counter and the limit -/

theorem count_step {s : Srv} (h : s.out = s.threads.length) (e : Ev) (hn : (s.step e).halted = none) :
    (s.step e).out = (s.step e).threads.length := by
  have hs : s.halted.isSome = false := by
    cases h' : s.halted.isSome with
    | false => rfl
    | true => rw [step_halted h'] at hn; rw [hn] at h'; cases h'
  unfold Srv.step at hn ⊢
  rw [hs] at hn ⊢
  simp only [Bool.false_eq_true, if_false] at hn ⊢
  cases e with
  | connect p c => dsimp only; split <;> exact h
  | round => dsimp only; split <;> exact h
  | iter ok started =>
    dsimp only at hn ⊢
    rcases iter_cases s ok started with ⟨_, e⟩ | ⟨_, _, _, _, _, e⟩ | ⟨_, _, _, _, _, e⟩ | ⟨_, _, _, _, _, _, _, _, _, e⟩ | ⟨_, e⟩
    · rw [e]; exact h
    · rw [e]; exact h
    · rw [e]; exact h
    · rw [e]; simp [h]
    · rw [hn] at e; cases e
  | ends i =>
    dsimp only
    split
    · rename_i hi
      simp only [List.length_eraseIdx, hi, if_true, h]
    · exact h
  | limit n => dsimp only; split <;> exact h
  | opened p => dsimp only; split <;> exact h
  | closed p => dsimp only; split <;> exact h

theorem count_run {s : Srv} (h : s.out = s.threads.length) (es : List Ev) (hn : (s.run es).halted = none) :
    (s.run es).out = (s.run es).threads.length := by
  induction es generalizing s with
  | nil => exact h
  | cons e es ih =>
    rw [run_cons] at hn ⊢
    exact ih (count_step h e (not_halted hn).2) hn

/-- C120: the counter is the number of threads that serve a connection, at every moment. -/
theorem c120_counter (l k : Nat) (es : List Ev) (hn : ((start l k).run es).halted = none) :
    ((start l k).run es).out = ((start l k).run es).threads.length := count_run rfl es hn

/-- C120: a shutdown goes on only when no connection is being served. -/
theorem c120_shutdown (l k : Nat) (es : List Ev) (hn : ((start l k).run es).halted = none) (n : Nat)
    (h : ((start l k).run es).mayFinish n = true) : ((start l k).run es).threads = [] ∧ n = 0 := by
  simp only [Srv.mayFinish, Bool.and_eq_true, beq_iff_eq] at h
  rw [c120_counter l k es hn] at h
  exact ⟨List.length_eq_zero_iff.mp h.1, h.2⟩

/-- How many threads serve connections of other ports than the control port. -/
def others (ts : List (Port × Nat)) : Nat := ts.countP (fun t => t.1 ≠ .control)

theorem others_le (ts : List (Port × Nat)) : others ts ≤ ts.length := List.countP_le_length

theorem limit_step {s : Srv} {L : Nat} (h : s.out = s.threads.length) (h1 : s.limit ≤ L) (h2 : others s.threads ≤ L) (e : Ev)
    (he : ∀ n, e = .limit n → n ≤ L) (hn : (s.step e).halted = none) :
    (s.step e).limit ≤ L ∧ others (s.step e).threads ≤ L := by
  have hs : s.halted.isSome = false := by
    cases h' : s.halted.isSome with
    | false => rfl
    | true => rw [step_halted h'] at hn; rw [hn] at h'; cases h'
  unfold Srv.step at hn ⊢
  rw [hs] at hn ⊢
  simp only [Bool.false_eq_true, if_false] at hn ⊢
  cases e with
  | connect p c => dsimp only; split <;> exact ⟨h1, h2⟩
  | round => dsimp only; split <;> exact ⟨h1, h2⟩
  | iter ok started =>
    dsimp only at hn ⊢
    rcases iter_cases s ok started with ⟨_, e⟩ | ⟨_, _, _, _, _, e⟩ | ⟨_, _, _, _, _, e⟩ | ⟨p, _, c, _, _, hp, _, _, _, e⟩ | ⟨_, e⟩
    · rw [e]; exact ⟨h1, h2⟩
    · rw [e]; exact ⟨h1, h2⟩
    · rw [e]; exact ⟨h1, h2⟩
    · rw [e]
      refine ⟨h1, ?_⟩
      simp only [others, List.countP_append, List.countP_cons, List.countP_nil]
      rcases hp with rfl | hp
      · simpa [others] using h2
      · have := others_le s.threads
        simp only [others] at this
        split <;> omega
    · rw [hn] at e; cases e
  | ends i =>
    dsimp only
    split
    · exact ⟨h1, Nat.le_trans ((List.eraseIdx_sublist s.threads i).countP_le) h2⟩
    · exact ⟨h1, h2⟩
  | limit n =>
    dsimp only
    split
    · exact ⟨h1, h2⟩
    · exact ⟨he n rfl, h2⟩
  | opened p => dsimp only; split <;> exact ⟨h1, h2⟩
  | closed p => dsimp only; split <;> exact ⟨h1, h2⟩

theorem limit_run {s : Srv} {L : Nat} (h : s.out = s.threads.length) (h1 : s.limit ≤ L) (h2 : others s.threads ≤ L) (es : List Ev)
    (he : ∀ n, Ev.limit n ∈ es → n ≤ L) (hn : (s.run es).halted = none) : others (s.run es).threads ≤ L := by
  induction es generalizing s with
  | nil => exact h2
  | cons e es ih =>
    rw [run_cons] at hn ⊢
    have hn' := (not_halted hn).2
    obtain ⟨a, b⟩ := limit_step h h1 h2 e (fun n hn => he n (by simp [hn])) hn'
    exact ih (count_step h e hn') a b (fun n hn => he n (List.mem_cons_of_mem _ hn)) hn

/-- C120: in any order of events the connections served, without those of the control port, are never more than the largest
limit there was. -/
theorem c120_limit (l k L : Nat) (hl : l ≤ L) (es : List Ev) (he : ∀ n, Ev.limit n ∈ es → n ≤ L)
    (hn : ((start l k).run es).halted = none) :
    (((start l k).run es).threads.filter (fun t => t.1 ≠ .control)).length ≤ L := by
  rw [← List.countP_eq_length_filter]
  exact limit_run rfl hl (Nat.zero_le _) es he hn

/-! ## Order -/

/-- The connections asked for on a port, in order. -/
def asked (p : Port) (es : List Ev) : List Nat :=
  es.filterMap (fun e => match e with | .connect q c => if q = p then some c else none | _ => none)

/-- Those taken from a port, in order. -/
def takenFrom (p : Port) (ts : List (Port × Nat)) : List Nat :=
  ts.filterMap (fun t => if t.1 = p then some t.2 else none)

theorem takenFrom_append (p : Port) (a b : List (Port × Nat)) : takenFrom p (a ++ b) = takenFrom p a ++ takenFrom p b := by
  simp [takenFrom, List.filterMap_append]

theorem order_step {s : Srv} {p : Port} (ho : s.isOpen p = true) (e : Ev) (he : e ≠ .closed p) (hn : (s.step e).halted = none) :
    (s.step e).isOpen p = true ∧
    takenFrom p (s.step e).taken ++ (s.step e).waiting p = takenFrom p s.taken ++ s.waiting p ++ asked p [e] := by
  have hs : s.halted.isSome = false := by
    cases h' : s.halted.isSome with
    | false => rfl
    | true => rw [step_halted h'] at hn; rw [hn] at h'; cases h'
  unfold Srv.step at hn ⊢
  rw [hs] at hn ⊢
  simp only [Bool.false_eq_true, if_false] at hn ⊢
  cases e with
  | connect q c =>
    dsimp only
    by_cases hq : q = p
    · subst hq
      rw [if_pos ho]
      exact ⟨ho, by simp [upd_self, asked]⟩
    · split
      · exact ⟨ho, by dsimp only; rw [upd_ne _ _ (Ne.symm hq)]; simp [asked, hq]⟩
      · exact ⟨ho, by simp [asked, hq]⟩
  | round => dsimp only; split <;> exact ⟨ho, by simp [asked]⟩
  | iter ok started =>
    dsimp only at hn ⊢
    rcases iter_cases s ok started with ⟨_, e⟩ | ⟨_, _, _, _, _, e⟩ | ⟨_, _, _, _, _, e⟩ | ⟨q, _, c, cs, _, _, _, hw, _, e⟩ | ⟨_, e⟩
    · rw [e]; exact ⟨ho, by simp [asked]⟩
    · rw [e]; exact ⟨ho, by simp [asked]⟩
    · rw [e]; exact ⟨ho, by simp [asked]⟩
    · rw [e]
      refine ⟨ho, ?_⟩
      simp only [takenFrom_append]
      by_cases hq : q = p
      · subst hq
        simp [upd_self, takenFrom, asked, hw]
      · rw [upd_ne _ _ (Ne.symm hq)]
        simp [takenFrom, asked, hq]
    · rw [hn] at e; cases e
  | ends i => dsimp only; split <;> exact ⟨ho, by simp [asked]⟩
  | limit n => dsimp only; split <;> exact ⟨ho, by simp [asked]⟩
  | opened q =>
    dsimp only
    split
    · refine ⟨?_, by simp [asked]⟩
      by_cases hq : p = q
      · subst hq; exact upd_self _ _ _
      · dsimp only; rw [upd_ne _ _ hq]; exact ho
    · exact ⟨ho, by simp [asked]⟩
  | closed q =>
    have hq : p ≠ q := fun h => he (by rw [h])
    dsimp only
    split
    · exact ⟨by dsimp only; rw [upd_ne _ _ hq]; exact ho, by dsimp only; rw [upd_ne _ _ hq]; simp [asked]⟩
    · exact ⟨ho, by simp [asked]⟩

theorem asked_cons (p : Port) (e : Ev) (es : List Ev) : asked p (e :: es) = asked p [e] ++ asked p es := by
  have := List.filterMap_append (l := [e]) (l' := es)
    (f := fun e => match e with | .connect q c => if q = p then some c else none | _ => none)
  exact this

theorem order_run {s : Srv} {p : Port} (ho : s.isOpen p = true) (es : List Ev) (he : Ev.closed p ∉ es)
    (hn : (s.run es).halted = none) :
    takenFrom p (s.run es).taken ++ (s.run es).waiting p = takenFrom p s.taken ++ s.waiting p ++ asked p es := by
  induction es generalizing s with
  | nil => simp [run_nil, asked]
  | cons e es ih =>
    rw [run_cons] at hn ⊢
    obtain ⟨h1, h2⟩ := order_step ho e (fun h => he (by simp [h])) (not_halted hn).2
    rw [ih h1 (fun h => he (List.mem_cons_of_mem _ h)) hn, h2, asked_cons p e es]
    simp

/-- C120: the connections of a port that stays open are taken in the order in which clients connected, each once; the others
still wait. -/
theorem c120_in_order (l k : Nat) (p : Port) (es : List Ev) (he : Ev.closed p ∉ es) (hn : ((start l k).run es).halted = none) :
    takenFrom p ((start l k).run es).taken ++ ((start l k).run es).waiting p = asked p es := by
  rw [order_run rfl es he hn]
  simp [start, takenFrom]

/-! ## The control port -/

/-- What holds of the connections `q` from the beginning of a call on. -/
def Ctl (q : List Nat) (s : Srv) : Prop :=
  ((∃ rest, s.todo = .control :: rest) ∧ ∀ c ∈ q, (Port.control, c) ∈ s.taken ∨ c ∈ s.waiting .control) ∨
  ∀ c ∈ q, (Port.control, c) ∈ s.taken

theorem ctl_step {q : List Nat} {s : Srv} (h : Ctl q s) (e : Ev) (he : ∀ st, e ≠ .iter false st) (hn : (s.step e).halted = none) :
    Ctl q (s.step e) := by
  have hs : s.halted.isSome = false := by
    cases h' : s.halted.isSome with
    | false => rfl
    | true => rw [step_halted h'] at hn; rw [hn] at h'; cases h'
  unfold Srv.step at hn ⊢
  rw [hs] at hn ⊢
  simp only [Bool.false_eq_true, if_false] at hn ⊢
  cases e with
  | connect p c =>
    dsimp only
    split
    · rcases h with ⟨h1, h2⟩ | h
      · refine .inl ⟨h1, fun x hx => ?_⟩
        rcases h2 x hx with h2 | h2
        · exact .inl h2
        · refine .inr ?_
          show x ∈ upd s.waiting p (s.waiting p ++ [c]) .control
          by_cases hp : Port.control = p
          · subst hp; rw [upd_self]; simp [h2]
          · rw [upd_ne _ _ hp]; exact h2
      · exact .inr h
    · exact h
  | round =>
    dsimp only
    split
    · rename_i ht
      rcases h with ⟨⟨_, h1⟩, _⟩ | h
      · rw [ht] at h1; cases h1
      · exact .inr h
    · exact h
  | iter ok started =>
    dsimp only at hn ⊢
    rcases iter_cases s ok started with ⟨_, e⟩ | ⟨p, _, ht, hp, _, e⟩ | ⟨p, _, ht, _, hw, e⟩ | ⟨p, rest, c, cs, ht, _, _, hw, _, e⟩ | ⟨_, e⟩
    · rw [e]; exact h
    · rw [e]
      rcases h with ⟨⟨_, h1⟩, _⟩ | h
      · rw [ht] at h1; cases h1; exact absurd rfl hp
      · exact .inr h
    · rw [e]
      rcases h with ⟨⟨_, h1⟩, h2⟩ | h
      · rw [ht] at h1
        cases h1
        rcases hw with hw | hw
        · exact absurd (by rw [hw]) (he started)
        · refine .inr fun x hx => ?_
          rcases h2 x hx with h2 | h2
          · exact h2
          · rw [hw] at h2; cases h2
      · exact .inr h
    · rw [e]
      rcases h with ⟨⟨r, h1⟩, h2⟩ | h
      · rw [ht] at h1
        cases h1
        refine .inl ⟨⟨_, ht⟩, fun x hx => ?_⟩
        rcases h2 x hx with h2 | h2
        · exact .inl (by simp [h2])
        · rw [hw] at h2
          rcases List.mem_cons.mp h2 with rfl | h2
          · exact .inl (by simp)
          · exact .inr (by show x ∈ upd s.waiting .control cs .control; rw [upd_self]; exact h2)
      · exact .inr fun x hx => by simp [h x hx]
    · rw [hn] at e; cases e
  | ends i => dsimp only; split <;> exact h
  | limit n => dsimp only; split <;> exact h
  | opened p => dsimp only; split <;> exact h
  | closed p =>
    dsimp only
    split
    · rename_i ht
      rcases h with ⟨⟨_, h1⟩, _⟩ | h
      · rw [ht] at h1; cases h1
      · exact .inr h
    · exact h

theorem ctl_run {q : List Nat} {s : Srv} (h : Ctl q s) (es : List Ev) (he : ∀ st, Ev.iter false st ∉ es)
    (hn : (s.run es).halted = none) : Ctl q (s.run es) := by
  induction es generalizing s with
  | nil => exact h
  | cons e es ih =>
    rw [run_cons] at hn ⊢
    exact ih (ctl_step h e (fun st h => he st (by simp [h])) (not_halted hn).2) (fun st h => he st (List.mem_cons_of_mem _ h)) hn

/-- C120: whatever the limit is and however many connections are served: of the connections that wait at the control port
when the main thread looks for connections, all have been taken when it is past that port. -/
theorem c120_control (s : Srv) (hs : s.todo = []) (ho : s.isOpen .control = true) (hh : s.halted = none) (es : List Ev)
    (he : ∀ st, Ev.iter false st ∉ es) (hn : ((s.step .round).run es).halted = none)
    (hp : ∀ rest, ((s.step .round).run es).todo ≠ .control :: rest) :
    ∀ c ∈ s.waiting .control, (Port.control, c) ∈ ((s.step .round).run es).taken := by
  have h0 : Ctl (s.waiting .control) (s.step .round) := by
    refine .inl ⟨?_, fun c hc => .inr ?_⟩
    · simp [Srv.step, hh, hs, Srv.portList, ho]
    · simpa [Srv.step, hh, hs] using hc
  rcases ctl_run h0 es he hn with ⟨⟨r, h⟩, _⟩ | h
  · exact absurd h (hp r)
  · exact h

/-! ## A call with nothing in between -/

/-- The connections that wait at some ports, in the order of the ports. -/
def queued (s : Srv) (ps : List Port) : List (Port × Nat) := ps.flatMap (fun p => (s.waiting p).map (p, ·))

/-- `n` iterations. -/
def iters (s : Srv) (n : Nat) : Srv := s.run (List.replicate n (.iter true true))

theorem iters_succ {s : Srv} (hh : s.halted = none) (n : Nat) : iters s (n + 1) = iters (s.iter true true) n := by
  simp [iters, List.replicate_succ, run_cons, Srv.step, hh]

/-- All connections of the port at the head are taken while there is room (or always, for the control port). -/
theorem drain (cs : List Nat) : ∀ (s : Srv) (p : Port) (rest : List Port), s.halted = none → s.todo = p :: rest →
    s.waiting p = cs → (p = .control ∨ s.out + cs.length < s.limit) →
    ∃ n, iters s n = { s with todo := rest, waiting := upd s.waiting p [], out := s.out + cs.length,
                              taken := s.taken ++ cs.map (p, ·), threads := s.threads ++ cs.map (p, ·) } := by
  induction cs with
  | nil =>
    intro s p rest hh ht hw hl
    refine ⟨1, ?_⟩
    have h1 : ¬ (p ≠ .control ∧ s.limit ≤ s.out) := by
      rintro ⟨a, b⟩
      rcases hl with hl | hl
      · exact a hl
      · simp at hl; omega
    have : upd s.waiting p [] = s.waiting := by
      funext q
      by_cases hq : q = p
      · subst hq; rw [upd_self, hw]
      · rw [upd_ne _ _ hq]
    rw [iters_succ hh]
    simp [iters, run_nil, Srv.iter, ht, h1, hw, this]
  | cons c cs ih =>
    intro s p rest hh ht hw hl
    have h1 : ¬ (p ≠ .control ∧ s.limit ≤ s.out) := by
      rintro ⟨a, b⟩
      rcases hl with hl | hl
      · exact a hl
      · simp at hl; omega
    have e1 : s.iter true true = { s with waiting := upd s.waiting p cs, out := s.out + 1, taken := s.taken ++ [(p, c)],
                                          threads := s.threads ++ [(p, c)] } := by
      simp [Srv.iter, ht, h1, hw]
    obtain ⟨n, hn⟩ := ih (s.iter true true) p rest (by rw [e1]; exact hh) (by rw [e1]; exact ht)
      (by rw [e1]; exact upd_self _ _ _) (by
        rw [e1]
        rcases hl with hl | hl
        · exact .inl hl
        · exact .inr (by simp at hl ⊢; omega))
    refine ⟨n + 1, ?_⟩
    rw [iters_succ hh, hn, e1]
    have : upd (upd s.waiting p cs) p [] = upd s.waiting p [] := by
      funext q
      by_cases hq : q = p
      · subst hq; simp [upd_self]
      · simp [upd_ne _ _ hq]
    simp [this]; omega

/-- When there is not room for all, as many as there is room for, and the call ends. -/
theorem fill (cs : List Nat) : ∀ (s : Srv) (p : Port) (rest : List Port), s.halted = none → s.todo = p :: rest →
    s.waiting p = cs → p ≠ .control → s.limit ≤ s.out + cs.length →
    ∃ n, iters s n = { s with todo := [], waiting := upd s.waiting p (cs.drop (s.limit - s.out)),
                              out := s.out + (cs.take (s.limit - s.out)).length,
                              taken := s.taken ++ (cs.take (s.limit - s.out)).map (p, ·),
                              threads := s.threads ++ (cs.take (s.limit - s.out)).map (p, ·) } := by
  have done : ∀ (s : Srv) (p : Port) (rest : List Port) (cs : List Nat), s.halted = none → s.todo = p :: rest →
      s.waiting p = cs → p ≠ .control → s.limit ≤ s.out →
      ∃ n, iters s n = { s with todo := [], waiting := upd s.waiting p (cs.drop (s.limit - s.out)),
                                out := s.out + (cs.take (s.limit - s.out)).length,
                                taken := s.taken ++ (cs.take (s.limit - s.out)).map (p, ·),
                                threads := s.threads ++ (cs.take (s.limit - s.out)).map (p, ·) } := by
    intro s p rest cs hh ht hw hp hl
    refine ⟨1, ?_⟩
    have : upd s.waiting p cs = s.waiting := by
      funext q
      by_cases hq : q = p
      · subst hq; rw [upd_self, hw]
      · rw [upd_ne _ _ hq]
    have h0 : s.limit - s.out = 0 := by omega
    rw [iters_succ hh]
    simp [iters, run_nil, Srv.iter, ht, hp, hl, h0, this]
  induction cs with
  | nil =>
    intro s p rest hh ht hw hp hl
    exact done s p rest [] hh ht hw hp (by simpa using hl)
  | cons c cs ih =>
    intro s p rest hh ht hw hp hl
    by_cases hl' : s.limit ≤ s.out
    · exact done s p rest (c :: cs) hh ht hw hp hl'
    · have e1 : s.iter true true = { s with waiting := upd s.waiting p cs, out := s.out + 1, taken := s.taken ++ [(p, c)],
                                            threads := s.threads ++ [(p, c)] } := by
        simp [Srv.iter, ht, hl', hw]
      obtain ⟨n, hn⟩ := ih (s.iter true true) p rest (by rw [e1]; exact hh) (by rw [e1]; exact ht)
        (by rw [e1]; exact upd_self _ _ _) hp (by rw [e1]; simp at hl ⊢; omega)
      refine ⟨n + 1, ?_⟩
      rw [iters_succ hh, hn, e1]
      have hk : s.limit - s.out = (s.limit - (s.out + 1)) + 1 := by omega
      have hu : ∀ x, upd (upd s.waiting p cs) p x = upd s.waiting p x := by
        intro x
        funext q
        by_cases hq : q = p
        · subst hq; simp [upd_self]
        · simp [upd_ne _ _ hq]
      simp only [hu, hk, List.drop_succ_cons, List.take_succ_cons, List.map_cons, List.length_cons, List.append_assoc,
        List.singleton_append]
      congr 1
      omega

theorem queued_congr {s t : Srv} {ps : List Port} (h : ∀ p ∈ ps, s.waiting p = t.waiting p) : queued s ps = queued t ps := by
  induction ps with
  | nil => rfl
  | cons p ps ih =>
    simp only [queued, List.flatMap_cons] at ih ⊢
    rw [h p (by simp), ih (fun q hq => h q (List.mem_cons_of_mem _ hq))]

theorem iters_add (s : Srv) (m n : Nat) : iters (iters s m) n = iters s (m + n) := by
  rw [iters, iters, iters, ← run_append, List.replicate_append_replicate]

/-- The other ports, one after the other. -/
theorem fill_all (ps : List Port) : ∀ (s : Srv), s.halted = none → s.todo = ps → ps.Nodup → Port.control ∉ ps →
    ∃ n, (iters s n).todo = [] ∧ (iters s n).halted = none ∧
      (iters s n).taken = s.taken ++ (queued s ps).take (s.limit - s.out) ∧
      (iters s n).threads = s.threads ++ (queued s ps).take (s.limit - s.out) := by
  induction ps with
  | nil =>
    intro s hh ht _ _
    exact ⟨0, ht, hh, by simp [iters, run_nil, queued], by simp [iters, run_nil, queued]⟩
  | cons p ps ih =>
    intro s hh ht hd hc
    have hp : p ≠ .control := fun h => hc (by simp [h])
    by_cases hl : s.out + (s.waiting p).length < s.limit
    · obtain ⟨n, hn⟩ := drain _ s p ps hh ht rfl (.inr hl)
      obtain ⟨m, h1, h2, h3, h4⟩ := ih (iters s n) (by rw [hn]; exact hh) (by rw [hn]) (List.nodup_cons.mp hd).2
        (fun h => hc (List.mem_cons_of_mem _ h))
      have hq : queued (iters s n) ps = queued s ps := by
        apply queued_congr
        intro q hq
        rw [hn]
        exact upd_ne _ _ (fun h => (List.nodup_cons.mp hd).1 (h ▸ hq))
      refine ⟨n + m, ?_⟩
      rw [← iters_add]
      refine ⟨h1, h2, ?_, ?_⟩
      · rw [h3, hq, hn]
        simp only [queued, List.flatMap_cons]
        rw [List.take_append]
        rw [List.take_of_length_le (l := List.map _ _) (by simp; omega)]
        simp only [List.length_map, List.append_assoc]
        congr 3
        omega
      · rw [h4, hq, hn]
        simp only [queued, List.flatMap_cons]
        rw [List.take_append]
        rw [List.take_of_length_le (l := List.map _ _) (by simp; omega)]
        simp only [List.length_map, List.append_assoc]
        congr 3
        omega
    · obtain ⟨n, hn⟩ := fill _ s p ps hh ht rfl hp (by omega)
      have hz : s.limit - s.out - (List.map (p, ·) (s.waiting p)).length = 0 := by simp; omega
      refine ⟨n, by rw [hn], by rw [hn]; exact hh, ?_, ?_⟩
      · rw [hn]
        simp only [queued, List.flatMap_cons]
        rw [List.take_append, hz]
        simp [List.map_take]
      · rw [hn]
        simp only [queued, List.flatMap_cons]
        rw [List.take_append, hz]
        simp [List.map_take]

theorem portList_nodup (s : Srv) : s.portList.Nodup := by
  unfold Srv.portList
  refine List.Pairwise.filter _ ?_
  have h : ((List.range s.plugins).map Port.plug).Nodup :=
    List.Pairwise.map _ (fun a b hab => fun h => hab (by cases h; rfl)) List.nodup_range
  simp only [List.cons_append, List.nil_append]
  refine List.nodup_cons.mpr ⟨by simp, List.nodup_cons.mpr ⟨by simp, List.nodup_cons.mpr ⟨by simp, h⟩⟩⟩

/-- The ports other than the control port, in the order in which they are looked at. -/
def rest (s : Srv) : List Port := (([.priv, .pub] : List Port) ++ (List.range s.plugins).map Port.plug).filter s.isOpen

theorem portList_eq (s : Srv) : s.portList = (if s.isOpen .control then [Port.control] else []) ++ rest s := by
  unfold Srv.portList rest
  simp only [List.cons_append, List.filter_cons]
  split <;> simp

theorem control_notMem_rest (s : Srv) : Port.control ∉ rest s := by
  simp [rest]

/-- C120: a call takes all connections of the control port, then of the others, private, public and plugins in this order, as
many as are left to the limit, the oldest first; and starts a thread for each. -/
theorem c120_call (s : Srv) (hs : s.todo = []) (hh : s.halted = none) (ho : s.isOpen .control = true) :
    ∃ n, let s' := iters (s.step .round) n
      s'.todo = [] ∧
      s'.taken = s.taken ++ (s.waiting .control).map (Port.control, ·) ++
        (queued s (rest s)).take (s.limit - (s.out + (s.waiting .control).length)) ∧
      s'.threads = s.threads ++ (s.waiting .control).map (Port.control, ·) ++
        (queued s (rest s)).take (s.limit - (s.out + (s.waiting .control).length)) := by
  have e0 : s.step .round = { s with todo := .control :: rest s } := by
    simp [Srv.step, hh, hs, portList_eq, ho]
  obtain ⟨n, hn⟩ := drain _ (s.step .round) .control (rest s) (by rw [e0]; exact hh) (by rw [e0]) rfl (.inl rfl)
  have hnd : (rest s).Nodup := by
    have := portList_nodup s
    rw [portList_eq, if_pos ho] at this
    exact (List.nodup_cons.mp this).2
  obtain ⟨m, h1, h2, h3, h4⟩ := fill_all (rest s) (iters (s.step .round) n) (by rw [hn, e0]; exact hh) (by rw [hn]) hnd
    (control_notMem_rest s)
  have hq : queued (iters (s.step .round) n) (rest s) = queued s (rest s) := by
    apply queued_congr
    intro q hq
    rw [hn, e0]
    exact upd_ne _ _ (fun h => control_notMem_rest s (h ▸ hq))
  refine ⟨n + m, ?_⟩
  simp only [← iters_add]
  refine ⟨h1, ?_, ?_⟩
  · rw [h3, hq, hn, e0]
  · rw [h4, hq, hn, e0]

/-- C120: with a limit of 0 only connections of the control port are taken; the limit cannot be set to 0, and once an operator
has set another the rest are taken. -/
theorem c120_zero (s : Srv) (hs : s.todo = []) (hh : s.halted = none) (ho : s.isOpen .control = true) (hl : s.limit = 0) :
    (∃ n, let s' := iters (s.step .round) n
      s'.todo = [] ∧ s'.taken = s.taken ++ (s.waiting .control).map (Port.control, ·)) ∧
    s.step (.limit 0) = s ∧
    (∀ k, k ≠ 0 → (s.step (.limit k)).limit = k) := by
  refine ⟨?_, by simp [Srv.step], fun k hk => by simp [Srv.step, hh, hk]⟩
  obtain ⟨n, h1, h2, _⟩ := c120_call s hs hh ho
  exact ⟨n, h1, by simpa [hl] using h2⟩

/-! ## What can go wrong -/

/-- C120: when a thread cannot be started the process ends or, with a hundred and more, its behaviour is undefined. -/
theorem c120_no_thread (s : Srv) (hh : s.halted = none) (p : Port) (rest : List Port) (ht : s.todo = p :: rest) (c : Nat)
    (cs : List Nat) (hw : s.waiting p = c :: cs) (hl : p = .control ∨ s.out < s.limit) :
    (s.step (.iter true false)).halted = some (if s.out + 1 < 100 then .exit else .undefined) := by
  have h1 : ¬ (p ≠ .control ∧ s.limit ≤ s.out) := by
    rintro ⟨a, b⟩
    rcases hl with hl | hl
    · exact a hl
    · omega
  simp [Srv.step, hh, Srv.iter, ht, h1, hw]

/-- A thread ends, and another client of the private port has connected. -/
def cycle (c : Nat) : List Ev :=
  [.connect .priv c, .ends 0, .round, .iter true true, .iter true true, .iter true true]

theorem cycle_run (s : Srv) (x c : Nat) (hh : s.halted = none) (hl : s.limit = 1) (ho : s.out = 1) (ht : s.threads = [(.priv, x)])
    (hop : s.isOpen = fun _ => true) (hw1 : s.waiting .control = []) (hw2 : s.waiting .priv = []) (htd : s.todo = []) :
    s.run (cycle c) = { s with threads := [(.priv, c)], taken := s.taken ++ [(.priv, c)] } := by
  obtain ⟨lim, pl, op, w, o, th, tk, dr, td, ha⟩ := s
  simp only at hh hl ho ht hop hw1 hw2 htd
  subst hh hl ho ht hop htd
  have hu : upd (upd w .priv [c]) .priv [] = w := by
    funext q
    by_cases hq : q = .priv
    · subst hq; rw [upd_self, hw2]
    · rw [upd_ne _ _ hq, upd_ne _ _ hq]
  simp [cycle, Srv.run, Srv.step, Srv.iter, Srv.portList, upd, hw1, hw2]
  exact hu

/-- C120, violation: a client of the public port can wait for ever although threads end all the time and others are served;
the private port always goes first. -/
theorem c120_starved (n : Nat) :
    ∃ es : List Ev, es.countP (fun e => e == .ends 0) = n ∧ .connect .pub 0 ∈ es ∧
      ((start 1 0).run es).taken.length = n + 1 ∧ (.pub, 0) ∉ ((start 1 0).run es).taken := by
  have key : ∀ n, ∃ es : List Ev, ∃ x tk, es.countP (fun e => e == .ends 0) = n ∧ .connect .pub 0 ∈ es ∧
      (start 1 0).run es = { limit := 1, out := 1, threads := [(.priv, x)], taken := tk,
                             waiting := upd (fun _ => []) .pub [0] } ∧
      tk.length = n + 1 ∧ (Port.pub, 0) ∉ tk := by
    intro n
    induction n with
    | zero =>
      refine ⟨[.connect .priv 1, .round, .iter true true, .iter true true, .iter true true, .connect .pub 0], 1, [(.priv, 1)], by decide,
        by decide, ?_, rfl, by decide⟩
      simp [start, Srv.run, Srv.step, Srv.iter, Srv.portList, upd]
      funext q
      cases q <;> simp [upd]
    | succ n ih =>
      obtain ⟨es, x, tk, h1, h2, h3, h4, h5⟩ := ih
      refine ⟨es ++ cycle 1, 1, tk ++ [(.priv, 1)], ?_, by simp [h2], ?_, by simp [h4], by simp [h5]⟩
      · rw [List.countP_append, h1]; simp [cycle]
      · rw [run_append, h3, cycle_run _ x 1 rfl rfl rfl rfl rfl (by simp [upd]) (by simp [upd]) rfl]
  obtain ⟨es, x, tk, h1, h2, h3, h4, h5⟩ := key n
  exact ⟨es, h1, h2, by rw [h3]; exact h4, by rw [h3]; exact h5⟩

/-- C120: when each thread looks before the next counts itself off, one of them sees 50 on the way down. -/
theorem c120_fifty_partial (n m : Nat) (hn : 50 < n) (hm : n - m ≤ 50) :
    ((List.replicate m [Leave.off, .look]).flatten.foldl Leaving.step { out := n }).seen50 = true := by
  have mono : ∀ (m : Nat) (l : Leaving), l.seen50 = true →
      ((List.replicate m [Leave.off, .look]).flatten.foldl Leaving.step l).seen50 = true := by
    intro m
    induction m with
    | zero => intro l h; simpa using h
    | succ m ih =>
      intro l h
      rw [List.replicate_succ, List.flatten_cons, List.foldl_append]
      refine ih _ ?_
      simp only [List.foldl_cons, List.foldl_nil, Leaving.step]
      split <;> split <;> simp [h]
  induction m generalizing n with
  | zero => omega
  | succ m ih =>
    rw [List.replicate_succ, List.flatten_cons, List.foldl_append]
    have e : [Leave.off, .look].foldl Leaving.step { out := n } = { out := n - 1, between := 0, seen50 := (n - 1 == 50) } := by
      have : n ≠ 0 := by omega
      simp [Leaving.step, this]
    rw [e]
    by_cases h50 : n = 51
    · subst h50; exact mono m _ rfl
    · have : (n - 1 == 50) = false := by simp; omega
      rw [this]
      exact ih (n - 1) (by omega) (by omega)

/-- C120, violation: two threads that end at the same time pass 50 unseen, and the port stays blocked. -/
theorem c120_fifty_missed :
    ([Leave.off, .off, .look, .look].foldl Leaving.step { out := 51 }) = { out := 49, between := 0, seen50 := false } := by decide

/-! Non-vacuity. -/

/-- A server with a limit of two: the control connection is taken beyond it, the private ones before the public one. -/
example :
    let s := (start 2 1).run [.connect .pub 10, .connect (.plug 0) 40, .connect .priv 20, .connect .control 30, .round, .iter true true,
      .iter true true, .iter true true, .iter true true, .connect .control 31, .round, .iter true true, .iter true true, .iter true true]
    s.taken = [(.control, 30), (.priv, 20), (.control, 31)] ∧ s.out = 3 ∧ s.waiting .pub = [10] ∧ s.todo = [] ∧ s.halted = none := by
  decide

example : ((start 2 1).run [.connect .pub 10, .closed .pub]).dropped = [(.pub, 10)] := by decide

example : ((start 0 0).run [.connect .pub 10, .round, .iter true true, .iter true true, .limit 5, .round, .iter true true,
    .iter true true, .iter true true]).taken = [(.pub, 10)] := by decide

example : ((start 5 0).run [.connect .pub 10, .round, .iter true true, .iter true true, .iter true false]).halted = some .exit := by decide

end Bedrock.Accept.Props
