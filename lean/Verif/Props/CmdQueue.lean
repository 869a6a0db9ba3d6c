import Verif.Lemmas.CmdQueue

/-!
# Properties of the command queue: C37
-/

namespace Bedrock.CmdQueue.Props
open Bedrock.CmdQueue

/-- The commands pushed in a history, in order. -/
def pushed : List Op → List Cmd
  | [] => []
  | .push c :: ops => c :: pushed ops
  | _ :: ops => pushed ops

/-- A queue reached by some history from the empty queue. -/
def Reachable (ops : List Op) (q : Q) : Prop := (Q.run {} ops).2.2 = q

theorem run_append (q : Q) (a b : List Op) :
    (q.run (a ++ b)).2.2 = ((q.run a).2.2.run b).2.2 := by
  induction a generalizing q with
  | nil => rfl
  | cons op a ih => exact ih _

theorem run_sorted (q : Q) (h : Sorted q) (ops : List Op) : Sorted (q.run ops).2.2 := by
  induction ops generalizing q with
  | nil => exact h
  | cons op ops ih => exact ih _ (h.step op)

theorem run_exact (q : Q) (h : Exact q) (ops : List Op) (hop : ∀ limit, .abandon limit ∉ ops) :
    Exact (q.run ops).2.2 := by
  induction ops generalizing q with
  | nil => exact h
  | cons op ops ih =>
    refine ih _ (h.step op ?_) (fun limit hm => hop limit (List.mem_cons_of_mem _ hm))
    intro limit e
    exact hop limit (by rw [e]; exact List.mem_cons_self ..)

theorem sorted_init : Sorted {} := ⟨List.Pairwise.nil, List.Pairwise.nil⟩

/-- C37.  Nothing is lost and nothing is duplicated, whatever the history: the commands pushed are
exactly those handed out, those discarded on request, and those still in the queue. -/
theorem c37_exactly_once (ops : List Op) :
    (pushed ops).Perm ((Q.run {} ops).1 ++ ((Q.run {} ops).2.1 ++ (Q.run {} ops).2.2.queue)) := by
  have key : ∀ (ops : List Op) (q : Q),
      (q.queue ++ pushed ops).Perm ((q.run ops).1 ++ ((q.run ops).2.1 ++ (q.run ops).2.2.queue)) := by
    intro ops
    induction ops with
    | nil => intro q; simp [Q.run, pushed]
    | cons op ops ih =>
      intro q
      -- one step: the queue before is what is handed out, discarded and left, up to the pushed command
      have hstep : (q.queue ++ pushed [op]).Perm ((q.step op).1 ++ ((q.step op).2.1 ++ (q.step op).2.2.queue)) := by
        cases op with
        | push c =>
          simp only [pushed, Q.step, List.nil_append, Q.push]
          exact (List.perm_append_comm.trans (List.Perm.refl _)).trans (insertBy_perm _ _ _).symm
        | get now =>
          simp only [pushed, Q.step, List.nil_append, List.append_nil]
          exact (dequeue_perm q now).1
        | getAll => simp [pushed, Q.step]
        | clear => simp [pushed, Q.step]
        | abandon limit =>
          simp only [pushed, Q.step, Q.abandon, List.nil_append, List.append_nil]
          exact (List.perm_append_comm.trans (List.filter_append_perm _ _)).symm
      have hp : pushed (op :: ops) = pushed [op] ++ pushed ops := by cases op <;> rfl
      rw [hp, ← List.append_assoc]
      refine (List.Perm.append_right _ hstep).trans ?_
      simp only [Q.run]
      have := ih (q.step op).2.2
      simp only [List.append_assoc]
      refine List.Perm.append_left _ ?_
      refine (List.Perm.append_left _ this).trans ?_
      simp only [← List.append_assoc]
      refine List.Perm.append_right _ ?_
      refine List.Perm.append_right _ ?_
      exact List.perm_append_comm
  simpa using key ops {}

/-- C37.  A command is never handed out before its scheduled time unless it has timed out. -/
theorem c37_never_early (ops : List Op) (q : Q) (h : Reachable ops q) (now : Nat) (c : Cmd)
    (hc : (q.dequeue now).1 = some c) : c.sched ≤ now ∨ c.timeout ≤ now := by
  have hsched : ∀ q : Q, (q.dequeueScheduled now).1 = some c → c.sched ≤ now := by
    intro q hq
    rcases dequeueScheduled_cases q now with ⟨h, _⟩ | ⟨c', rest, lk, _, h1, h2, _⟩
    · rw [h] at hq; cases hq
    · rw [h2] at hq; injection hq with hq; subst hq; exact h1
  unfold Q.dequeue at hc
  cases hl : q.lookup with
  | nil => rw [hl] at hc; exact .inl (hsched _ hc)
  | cons e rest =>
    obtain ⟨t, s⟩ := e
    rw [hl] at hc
    simp only at hc
    split at hc
    · rename_i hle
      cases ht : takeFirst (fun c => c.sched == s && c.timeout == t) q.queue with
      | some z =>
        obtain ⟨c', queue⟩ := z
        rw [ht] at hc
        simp only [Option.some.injEq] at hc
        subst hc
        have := (takeFirst_some ht).1
        simp only [Bool.and_eq_true, beq_iff_eq] at this
        right; omega
      | none => rw [ht] at hc; exact .inl (hsched _ hc)
    · exact .inl (hsched _ hc)

/-- C37.  If some command has timed out, one with the oldest timeout is handed out (as long as
commands have not been abandoned, see `c37_abandon_delays`). -/
theorem c37_oldest_timeout_first (ops : List Op) (q : Q) (h : Reachable ops q)
    (ha : ∀ limit, .abandon limit ∉ ops) (now : Nat) (x : Cmd) (hx : x ∈ q.queue) (ht : x.timeout ≤ now) :
    ∃ c ∈ q.queue, (q.dequeue now).1 = some c ∧ ∀ y ∈ q.queue, c.timeout ≤ y.timeout := by
  subst h
  have hs := run_sorted {} sorted_init ops
  have he := run_exact {} (List.Perm.refl _) ops ha
  generalize (Q.run {} ops).2.2 = q at *
  have hall : ∀ y ∈ q.queue, key y ∈ q.lookup := by
    intro y hy; rw [he.mem_iff]; exact List.mem_map.mpr ⟨y, hy, rfl⟩
  cases hl : q.lookup with
  | nil => have := hall x hx; rw [hl] at this; simp at this
  | cons e rest =>
    obtain ⟨t, s⟩ := e
    have hmin : ∀ y ∈ q.queue, t ≤ y.timeout := by
      intro y hy
      have hm := hall y hy
      have hsl := hs.lookup
      rw [hl] at hm hsl
      rcases List.mem_cons.mp hm with e | hm
      · simp only [key, Prod.mk.injEq] at e; omega
      · exact (List.pairwise_cons.mp hsl).1 _ hm
    obtain ⟨c, hc, h1, h2⟩ := (dequeue_exact q now he).2.1 t s rest hl (by have := hmin x hx; omega)
    exact ⟨c, hc, h1, fun y hy => by rw [h2]; exact hmin y hy⟩

/-- C37.  If no command has timed out, one with the earliest scheduled time is handed out, if that
time has come; otherwise nothing. -/
theorem c37_earliest_scheduled_next (ops : List Op) (q : Q) (h : Reachable ops q)
    (ha : ∀ limit, .abandon limit ∉ ops) (now : Nat) (hno : ∀ x ∈ q.queue, now < x.timeout) :
    ((∃ x ∈ q.queue, x.sched ≤ now) →
      ∃ c ∈ q.queue, (q.dequeue now).1 = some c ∧ ∀ y ∈ q.queue, c.sched ≤ y.sched) ∧
    ((∀ x ∈ q.queue, now < x.sched) → (q.dequeue now).1 = none) := by
  subst h
  have hs := run_sorted {} sorted_init ops
  have he := run_exact {} (List.Perm.refl _) ops ha
  generalize (Q.run {} ops).2.2 = q at *
  have heq : (q.dequeue now).1 = (q.dequeueScheduled now).1 := by
    refine (dequeue_exact q now he).2.2 ?_
    intro t s rest hl
    have : (t, s) ∈ q.queue.map key := by rw [← he.mem_iff, hl]; simp
    rw [List.mem_map] at this
    obtain ⟨c, hc, e⟩ := this
    simp only [key, Prod.mk.injEq] at e
    have := hno c hc
    omega
  rw [heq]
  rcases dequeueScheduled_cases q now with ⟨h1, h2⟩ | ⟨c, rest, lk, h1, h2, h3, _⟩
  · rw [h1]
    refine ⟨?_, fun _ => rfl⟩
    rintro ⟨x, hx, hle⟩
    rcases h2 with e | ⟨c, rest, e, hlt⟩
    · rw [e] at hx; simp at hx
    · have hsq := hs.queue
      rw [e] at hx hsq
      rcases List.mem_cons.mp hx with e' | hx
      · subst e'; omega
      · have := (List.pairwise_cons.mp hsq).1 x hx; omega
  · rw [h3]
    refine ⟨fun _ => ⟨c, by rw [h1]; simp, rfl, ?_⟩, ?_⟩
    · intro y hy
      have hsq := hs.queue
      rw [h1] at hy hsq
      rcases List.mem_cons.mp hy with e' | hy
      · subst e'; exact Nat.le_refl _
      · exact (List.pairwise_cons.mp hsq).1 y hy
    · intro hall
      have := hall c (by rw [h1]; simp)
      omega

-- two commands scheduled now, one of them timed out, and one timed out command from the future
example : let q := (Q.run {} [.push ⟨5, 90, 1⟩, .push ⟨5, 8, 2⟩, .push ⟨70, 7, 3⟩]).2.2
    (q.dequeue 10).1 = some ⟨70, 7, 3⟩ ∧ ((q.dequeue 10).2.dequeue 10).1 = some ⟨5, 8, 2⟩ ∧
    (q.dequeue 6).1 = some ⟨5, 90, 1⟩ ∧ (q.dequeue 4).1 = none := by decide +kernel

theorem filter_insertBy (s : Nat) (c : Cmd) (l : List Cmd) (h : SortedBy Cmd.sched l) :
    (insertBy Cmd.sched c l).filter (fun x => x.sched == s) =
      l.filter (fun x => x.sched == s) ++ [c].filter (fun x => x.sched == s) := by
  induction l with
  | nil => rfl
  | cons y ys ih =>
    have h' := List.pairwise_cons.mp h
    unfold insertBy
    split
    · rename_i hlt
      by_cases hs : c.sched = s
      · -- everything behind is later, so it is filtered away
        have : (y :: ys).filter (fun x => x.sched == s) = [] := by
          rw [List.filter_eq_nil_iff]
          intro z hz
          rcases List.mem_cons.mp hz with e | hz
          · subst e; simp; omega
          · have := h'.1 z hz; simp; omega
        rw [List.filter_cons, this]; simp [hs]
      · simp [List.filter_cons, hs]
    · rw [List.filter_cons, List.filter_cons, ih h'.2]
      split <;> simp

theorem run_stable (s : Nat) (ops : List Op) : ∀ q : Q, Sorted q →
    ((q.run ops).2.2.queue.filter (fun x => x.sched == s)).Sublist
      (q.queue.filter (fun x => x.sched == s) ++ (pushed ops).filter (fun x => x.sched == s)) := by
  induction ops with
  | nil => intro q _; simp [Q.run, pushed]
  | cons op ops ih =>
    intro q h
    refine (ih _ (h.step op)).trans ?_
    have shrink : ∀ q' : Q, q'.queue.Sublist q.queue →
        (q'.queue.filter (fun x => x.sched == s) ++ (pushed ops).filter (fun x => x.sched == s)).Sublist
        (q.queue.filter (fun x => x.sched == s) ++ (pushed ops).filter (fun x => x.sched == s)) :=
      fun q' h => List.Sublist.append (h.filter _) (List.Sublist.refl _)
    cases op with
    | push c =>
      simp only [Q.step, Q.push, pushed]
      rw [filter_insertBy s c _ h.queue, List.append_assoc, ← List.filter_append]
      exact List.Sublist.refl _
    | get now => exact shrink _ (dequeue_perm q now).2.1
    | getAll => exact shrink _ (List.nil_sublist _)
    | clear => exact shrink _ (List.nil_sublist _)
    | abandon limit => exact shrink _ List.filter_sublist

/-- C37.  Among commands with the same scheduled time that have not timed out, the one pushed first is
handed out first: every such command left behind was pushed after the one handed out. -/
theorem c37_equal_times_in_order (ops : List Op) (q : Q) (h : Reachable ops q)
    (ha : ∀ limit, .abandon limit ∉ ops) (now : Nat) (hno : ∀ x ∈ q.queue, now < x.timeout)
    (c y : Cmd) (hc : (q.dequeue now).1 = some c) (hy : y ∈ (q.dequeue now).2.queue)
    (hs : y.sched = c.sched) : [c, y].Sublist (pushed ops) := by
  subst h
  have hst := run_stable c.sched ops {} sorted_init
  have he := run_exact {} (List.Perm.refl _) ops ha
  generalize (Q.run {} ops).2.2 = q at *
  have hlk : ∀ t s rest, q.lookup = (t, s) :: rest → now < t := by
    intro t s rest hl
    have : (t, s) ∈ q.queue.map key := by rw [← he.mem_iff, hl]; simp
    rw [List.mem_map] at this
    obtain ⟨c, hc, e⟩ := this
    simp only [key, Prod.mk.injEq] at e
    have := hno c hc
    omega
  have heq : q.dequeue now = q.dequeueScheduled now := by
    unfold Q.dequeue
    cases hl : q.lookup with
    | nil => rfl
    | cons e rest =>
      obtain ⟨t, s⟩ := e
      have := hlk t s rest hl
      simp only
      rw [if_neg (by omega)]
  rw [heq] at hc hy
  rcases dequeueScheduled_cases q now with ⟨h1, _⟩ | ⟨c', rest, lk, h1, h2, h3, _⟩
  · rw [h1] at hc; cases hc
  · rw [h3] at hc hy
    injection hc with hc
    subst hc
    rw [h1] at hst
    simp only [List.filter_nil, List.nil_append] at hst
    refine List.Sublist.trans ?_ (hst.trans List.filter_sublist)
    rw [List.filter_cons]
    simp only [beq_self_eq_true, if_true]
    refine List.Sublist.cons_cons _ ?_
    rw [List.singleton_sublist, List.mem_filter]
    exact ⟨hy, by simp [hs]⟩

-- the three commands of time 5 come out in the order they were pushed
example : (Q.run {} [.push ⟨5, 90, 1⟩, .push ⟨9, 90, 4⟩, .push ⟨5, 80, 2⟩, .push ⟨5, 99, 3⟩,
    .get 10, .get 10, .get 10, .get 10]).1.map Cmd.id = [1, 2, 3, 4] := by decide +kernel

/-- C37, limit: abandoning future commands leaves their timeouts behind.  When such a timeout comes
first, a timed out command is not handed out at all in that call. -/
theorem c37_abandon_delays :
    let q := (Q.run {} [.push ⟨100, 5, 1⟩, .push ⟨60, 7, 2⟩, .abandon 90]).2.2
    (q.dequeue 10).1 = none ∧ ((q.dequeue 10).2.dequeue 10).1 = some ⟨60, 7, 2⟩ := by decide +kernel

end Bedrock.CmdQueue.Props
