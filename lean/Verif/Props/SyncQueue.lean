import Verif.Model.SyncQueue

/-!
# Properties of the synchronised queue: C36
-/

namespace Bedrock.SyncQueue.Props
open Bedrock.SyncQueue

variable {T : Type}

theorem run_append (cap : Nat) (a b : List (Step T)) (x y : Q T) (h : run cap x a = some y) :
    run cap x (a ++ b) = run cap y b := by
  induction a generalizing x with
  | nil => simp only [run, Option.some.injEq] at h; subst h; rfl
  | cons e a ih =>
    simp only [run, List.cons_append] at h ⊢
    cases hx : step cap x e with
    | none => rw [hx] at h; cases h
    | some x1 => rw [hx] at h; exact ih x1 h

/-- The items inserted by an execution, in order. -/
def inserted : List (Step T) → List T
  | [] => []
  | .insert v :: es => v :: inserted es
  | _ :: es => inserted es

/-- The results of the pops of an execution, in order. -/
def results (cap : Nat) (s : Q T) : List (Step T) → List T
  | [] => []
  | e :: es =>
    match step cap s e with
    | none => []
    | some s' =>
      (match e, s.queue with
        | .pop, v :: _ => [v]
        | _, _ => []) ++ results cap s' es

theorem history (cap : Nat) (es : List (Step T)) (s s' : Q T) (h : run cap s es = some s') :
    s'.pushed = s.pushed ++ inserted es ∧ s'.popped = s.popped ++ results cap s es := by
  induction es generalizing s with
  | nil => simp only [run, Option.some.injEq] at h; subst h; simp [inserted, results]
  | cons e es ih =>
    simp only [run] at h
    cases hs : step cap s e with
    | none => rw [hs] at h; cases h
    | some s1 =>
      rw [hs] at h
      obtain ⟨h1, h2⟩ := ih s1 h
      rw [h1, h2]
      simp only [results, hs]
      cases e with
      | pop =>
        simp only [step] at hs
        split at hs
        · split at hs
          · rename_i hq
            injection hs with hs; subst hs; simp [inserted, hq]
          · rename_i v rest hq
            injection hs with hs; subst hs; simp [inserted, hq]
        · cases hs
      | _ =>
        simp only [step] at hs
        repeat' split at hs
        all_goals first
          | (cases hs; done)
          | (injection hs with hs; subst hs; simp [inserted])

/-- C36.  Items come out in the order pushed, each exactly once: as long as the queue is not
cleared, what came out followed by what is still queued is what was pushed. -/
theorem c36_fifo (cap : Nat) (es : List (Step T)) (s : Q T) (h : run cap {} es = some s)
    (hc : .clear ∉ es) : results cap {} es ++ s.queue = inserted es := by
  have key : ∀ (es : List (Step T)) (s s' : Q T), run cap s es = some s' → .clear ∉ es →
      s.popped ++ s.queue = s.pushed → s'.popped ++ s'.queue = s'.pushed := by
    intro es
    induction es with
    | nil => intro s s' h _ hi; simp only [run, Option.some.injEq] at h; subst h; exact hi
    | cons e es ih =>
      intro s s' h hc hi
      simp only [run] at h
      cases hs : step cap s e with
      | none => rw [hs] at h; cases h
      | some s1 =>
        rw [hs] at h
        refine ih s1 s' h (fun x => hc (List.mem_cons_of_mem _ x)) ?_
        cases e with
        | clear => exact absurd (List.mem_cons_self ..) hc
        | pop =>
          simp only [step] at hs
          split at hs
          · split at hs
            · injection hs with hs; subst hs; exact hi
            · rename_i v rest hq
              injection hs with hs; subst hs; rw [hq] at hi; simpa using hi
          · cases hs
        | insert v =>
          simp only [step] at hs
          split at hs
          · cases hs
          · injection hs with hs; subst hs; simp [← hi]
        | _ =>
          simp only [step] at hs
          repeat' split at hs
          all_goals first
            | (cases hs; done)
            | (injection hs with hs; subst hs; exact hi)
  have h1 := key es {} s h hc rfl
  have h2 := history cap es {} s h
  simp only [List.nil_append] at h2
  rw [h2.1, h2.2] at h1
  exact h1

/-- C36.  Clearing only removes: what comes out is always a subsequence of what was pushed. -/
theorem c36_subsequence (cap : Nat) (es : List (Step T)) (s : Q T) (h : run cap {} es = some s) :
    List.Sublist (results cap {} es) (inserted es) := by
  have key : ∀ (es : List (Step T)) (s s' : Q T), run cap s es = some s' →
      List.Sublist (s.popped ++ s.queue) s.pushed → List.Sublist (s'.popped ++ s'.queue) s'.pushed := by
    intro es
    induction es with
    | nil => intro s s' h hi; simp only [run, Option.some.injEq] at h; subst h; exact hi
    | cons e es ih =>
      intro s s' h hi
      simp only [run] at h
      cases hs : step cap s e with
      | none => rw [hs] at h; cases h
      | some s1 =>
        rw [hs] at h
        refine ih s1 s' h ?_
        cases e with
        | clear =>
          simp only [step] at hs
          split at hs
          · cases hs
          · injection hs with hs; subst hs
            rw [List.append_nil]
            exact (List.sublist_append_left _ _).trans hi
        | pop =>
          simp only [step] at hs
          split at hs
          · split at hs
            · injection hs with hs; subst hs; exact hi
            · rename_i v rest hq
              injection hs with hs; subst hs; rw [hq] at hi; simpa using hi
          · cases hs
        | insert v =>
          simp only [step] at hs
          split at hs
          · cases hs
          · injection hs with hs; subst hs
            simp only [← List.append_assoc]
            exact List.Sublist.append_right hi [v]
        | _ =>
          simp only [step] at hs
          repeat' split at hs
          all_goals first
            | (cases hs; done)
            | (injection hs with hs; subst hs; exact hi)
  have h1 := key es {} s h (List.Sublist.refl _)
  have h2 := history cap es {} s h
  simp only [List.nil_append] at h2
  rw [h2.1, h2.2] at h1
  exact (List.sublist_append_left _ _).trans h1

/-- C36.  No wakeup is lost: while a consumer that always pops until the queue is empty waits in
`poll`, a non-empty queue means that the descriptor is readable or that a producer is about to make
it readable. -/
theorem c36_no_lost_wakeup (cap : Nat) (es : List (Step T)) (s : Q T) (h : run cap {} es = some s)
    (hl : .leave ∉ es) (hw : s.phase = .waiting) (hq : s.queue ≠ []) : 0 < s.pipe ∨ s.pushing = true := by
  have key : ∀ (es : List (Step T)) (s s' : Q T), run cap s es = some s' → .leave ∉ es →
      (s.phase = .waiting → s.queue ≠ [] → 0 < s.pipe ∨ s.pushing = true) →
      (s'.phase = .waiting → s'.queue ≠ [] → 0 < s'.pipe ∨ s'.pushing = true) := by
    intro es
    induction es with
    | nil => intro s s' h _ hi; simp only [run, Option.some.injEq] at h; subst h; exact hi
    | cons e es ih =>
      intro s s' h hc hi
      simp only [run] at h
      cases hs : step cap s e with
      | none => rw [hs] at h; cases h
      | some s1 =>
        rw [hs] at h
        refine ih s1 s' h (fun x => hc (List.mem_cons_of_mem _ x)) ?_
        cases e with
        | leave => exact absurd (List.mem_cons_self ..) hc
        | insert v =>
          simp only [step] at hs
          split at hs
          · cases hs
          · injection hs with hs; subst hs; intro _ _; exact .inr rfl
        | announce =>
          simp only [step] at hs
          split at hs
          · injection hs with hs; subst hs; intro _ _; left; show 0 < s.pipe + 1; omega
          · cases hs
        | wake =>
          simp only [step] at hs
          split at hs
          · injection hs with hs; subst hs; intro hx; simp at hx
          · cases hs
        | timeout =>
          simp only [step] at hs
          split at hs
          · injection hs with hs; subst hs; intro hx; simp at hx
          · cases hs
        | read =>
          simp only [step] at hs
          split at hs
          · rename_i hd
            split at hs
            · injection hs with hs; subst hs; intro hx; rw [hd] at hx; simp at hx
            · injection hs with hs; subst hs; intro hx; simp at hx
          · cases hs
        | pop =>
          simp only [step] at hs
          split at hs
          · rename_i hd
            split at hs
            · rename_i hq
              injection hs with hs; subst hs; intro _ hx; exact absurd hq hx
            · injection hs with hs; subst hs; intro hx; rw [hd.1] at hx; simp at hx
          · cases hs
        | clear =>
          simp only [step] at hs
          split at hs
          · cases hs
          · injection hs with hs; subst hs; intro _ hx; exact absurd rfl hx
  exact key es {} s h hl (fun _ hx => absurd rfl hx) hw hq

-- an item is inserted while the consumer is emptying the pipe; its byte wakes the consumer again
example : ∃ s : Q Nat, run 10 {} [.insert 1, .announce, .wake, .insert 2, .read, .read, .announce, .pop, .pop, .pop] = some s ∧
    s.phase = .waiting ∧ s.pipe = 1 ∧ s.queue = [] := by decide +kernel

example : ∃ s : Q Nat, run 10 {} [.insert 1, .announce, .wake, .read, .read, .pop, .pop, .insert 2] = some s ∧
    s.phase = .waiting ∧ s.queue = [2] ∧ s.pushing = true := by decide +kernel

/-- C36, limit: a consumer that takes one item per round can sleep on a non-empty queue. -/
theorem c36_lost_wakeup_if_left : ∃ s : Q Nat,
    run 10 {} [.insert 1, .announce, .insert 2, .announce, .wake, .read, .read, .read, .pop, .leave] = some s ∧
      s.phase = .waiting ∧ s.queue = [2] ∧ s.pipe = 0 ∧ s.pushing = false := by decide +kernel

/-- `n` complete pushes. -/
def pushes (v : T) : Nat → List (Step T)
  | 0 => []
  | n + 1 => .insert v :: .announce :: pushes v n

theorem run_pushes (cap : Nat) (v : T) (n : Nat) (s : Q T) (h : s.pushing = false) (hn : s.pipe + n ≤ cap) :
    ∃ s', run cap s (pushes v n) = some s' ∧ s'.pushing = false ∧ s'.pipe = s.pipe + n ∧ s'.phase = s.phase := by
  induction n generalizing s with
  | zero => exact ⟨s, rfl, h, rfl, rfl⟩
  | succ n ih =>
    obtain ⟨s', h1, h2, h3, h4⟩ := ih
      { s with queue := s.queue ++ [v], pushing := false, pushed := s.pushed ++ [v], pipe := s.pipe + 1 } rfl
      (by simp only; omega)
    refine ⟨s', ?_, h2, by rw [h3]; simp only; omega, h4⟩
    have hp : s.pipe < cap := by omega
    simp only [pushes, run, step, h, Bool.false_eq_true, if_false, Option.bind_some, hp, true_and, and_true,
      if_true]
    exact h1

/-- C36, limit: if more items are pushed than the pipe has room for while the consumer is between
emptying the pipe and popping, the producer waits for room holding the mutex and the consumer waits
for the mutex: no step is possible any more. -/
theorem c36_full_pipe_deadlock (cap : Nat) (v : T) : ∃ es s, run cap ({} : Q T) es = some s ∧ s.queue ≠ [] ∧
    ∀ e, e ≠ .leave → step cap s e = none := by
  obtain ⟨s', h1, h2, h3, h4⟩ := run_pushes cap v cap ({ phase := .popping } : Q T) rfl (by simp)
  refine ⟨.timeout :: (pushes v cap ++ [.insert v]), { s' with queue := s'.queue ++ [v], pushing := true, pushed := s'.pushed ++ [v] }, ?_, by simp, ?_⟩
  · show run cap ({ phase := .popping } : Q T) _ = _
    rw [run_append cap _ _ _ _ h1]
    simp only [run, step, h2, Bool.false_eq_true, if_false, Option.bind_some]
  · have h4 : s'.phase = .popping := h4
    have h3 : s'.pipe = cap := by rw [h3]; exact Nat.zero_add _
    intro e he
    cases e with
    | leave => exact absurd rfl he
    | _ => simp [step, h3, h4]

end Bedrock.SyncQueue.Props
