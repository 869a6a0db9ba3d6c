import Verif.Lemmas.Pool

/-!
# Properties of the handle pool: C40
-/

namespace Bedrock.Pool.Props
open Bedrock.Pool

/-- C40.  No two users have the same handle, at any point of any history with any number of threads. -/
theorem c40_one_user_per_handle (maxDBs threads : Nat) (ops : List Op) (t t' i : Nat)
    (h : ((P.init maxDBs threads).run ops).threads[t]? = some (Th.holding i))
    (h' : ((P.init maxDBs threads).run ops).threads[t']? = some (Th.holding i)) : t = t' :=
  (run_inv ops _ (inv_init maxDBs threads)).1.uniq t t' i h h'

/-- C40.  A handle in use is not available, and the handles of the pool are numbered 0, 1, 2, … without
gaps: each is available or has a user. -/
theorem c40_every_handle_accounted_for (maxDBs threads : Nat) (ops : List Op) (i : Nat) :
    let p := (P.init maxDBs threads).run ops
    (i < p.available.length + p.inUse.length →
      (i ∈ p.available ∧ ∀ t : Nat, p.threads[t]? ≠ some (Th.holding i)) ∨
      (i ∉ p.available ∧ ∃ t : Nat, p.threads[t]? = some (Th.holding i))) ∧
    (∀ t : Nat, p.threads[t]? = some (Th.holding i) → i < p.available.length + p.inUse.length) := by
  have h := (run_inv ops _ (inv_init maxDBs threads)).1
  refine ⟨fun hi => ?_, fun t ht => (h.cover i).mp (.inr ((h.held i).mpr ⟨t, ht⟩))⟩
  rcases (h.cover i).mpr hi with ha | hu
  · exact .inl ⟨ha, fun t ht => h.disj i ha ((h.held i).mpr ⟨t, ht⟩)⟩
  · exact .inr ⟨fun ha => h.disj i ha hu, (h.held i).mp hu⟩

/-- C40.  Including the base handle there are never more database handles than configured. -/
theorem c40_at_most_configured (maxDBs threads : Nat) (ops : List Op) (hm : 1 ≤ maxDBs) :
    let p := (P.init maxDBs threads).run ops
    1 + (p.available.length + p.inUse.length) ≤ maxDBs ∧
    ∀ i ∈ p.objects, i < maxDBs - 1 := by
  obtain ⟨h, _, hx⟩ := run_inv ops _ (inv_init maxDBs threads)
  have hmx : ((P.init maxDBs threads).run ops).maxDBs = maxDBs := by
    rw [hx]; show max maxDBs 1 = _; omega
  have hb := h.bound
  rw [hmx] at hb
  unfold total at hb
  refine ⟨by omega, ?_⟩
  intro i hi
  have := h.objs i hi
  unfold total at this
  omega

/-- C40.  Nobody waits in vain: when a thread waits and no other thread is on its way to take a handle
or to wake someone, every handle the configuration allows has a user. -/
theorem c40_waits_only_while_all_are_used (maxDBs threads : Nat) (ops : List Op) :
    let p := (P.init maxDBs threads).run ops
    Th.waiting ∈ p.threads → Th.trying ∉ p.threads → Th.notifying ∉ p.threads →
    ∀ i, i < max maxDBs 1 - 1 → ∃ t : Nat, p.threads[t]? = some (Th.holding i) := by
  obtain ⟨h, ha, hx⟩ := run_inv ops _ (inv_init maxDBs threads)
  intro p hw ht hn i hi
  have h1 := ha.1 hw
  have h2 := ha.2 hw
  rw [List.count_eq_zero.mpr ht, List.count_eq_zero.mpr hn] at h2
  have h0 : p.available = [] := List.length_eq_zero_iff.mp (Nat.le_zero.mp h2)
  have hmx : p.maxDBs = max maxDBs 1 := hx
  have : i ∈ p.available ∨ i ∈ p.inUse := (h.cover i).mpr (by rw [h1]; show i < p.maxDBs - 1; rw [hmx]; exact hi)
  rw [h0] at this
  simp only [List.not_mem_nil, false_or] at this
  exact (h.held i).mp this

/-- C40.  A thread that looks for a handle while one is available gets the lowest one in that step. -/
theorem c40_available_is_given (p : P) (t : Nat) (ht : p.threads[t]? = some .trying) (i : Nat) (rest : List Nat)
    (ha : p.available = i :: rest) :
    (p.step (.attempt t)).threads[t]? = some (Th.holding i) ∧ (p.step (.attempt t)).available = rest := by
  unfold P.step
  simp only [ht, if_true]
  unfold P.attempt
  rw [ha]
  exact ⟨by rw [get_set _ _ _ _ (lt_of_get ht), if_pos rfl], rfl⟩

-- three threads, two handles: the third waits and gets the handle that comes back
example :
    let p := (P.init 3 3).run [.call 0, .attempt 0, .call 1, .attempt 1, .call 2, .attempt 2]
    p.threads = [.holding 0, .holding 1, .waiting] ∧
    (p.run [.release 0, .notify 0 2, .attempt 2]).threads = [.idle, .holding 1, .holding 0] := by
  decide +kernel

/-- C40, limit: a pool configured for one handle (or none) has only the base handle, which it never
gives out: every user waits for ever. -/
theorem c40_single_handle_never_serves (maxDBs threads : Nat) (hm : maxDBs ≤ 1) (ops : List Op) (t i : Nat) :
    ((P.init maxDBs threads).run ops).threads[t]? ≠ some (Th.holding i) := by
  intro ht
  obtain ⟨h, _, hx⟩ := run_inv ops _ (inv_init maxDBs threads)
  have h1 := (h.cover i).mp (.inr ((h.held i).mpr ⟨t, ht⟩))
  have h2 := h.bound
  have h3 : ((P.init maxDBs threads).run ops).maxDBs = max maxDBs 1 := hx
  omega

example : ((P.init 1 1).run [.call 0, .attempt 0]).threads = [.waiting] := by decide +kernel

theorem ins_mem (x y : Nat) : ∀ l : List Nat, y ∈ ins x l → y = x ∨ y ∈ l := by
  intro l
  induction l with
  | nil => intro h; simpa [ins] using h
  | cons z l ih =>
    intro h
    unfold ins at h
    split at h
    · simpa using h
    · split at h
      · exact Or.inr h
      · rcases List.mem_cons.1 h with e | e
        · exact Or.inr (by simp [e])
        · rcases ih e with e | e
          · exact Or.inl e
          · exact Or.inr (List.mem_cons_of_mem _ e)

theorem ins_sorted (x : Nat) : ∀ l : List Nat, l.Pairwise (· < ·) → (ins x l).Pairwise (· < ·) := by
  intro l
  induction l with
  | nil => intro _; simp [ins]
  | cons z l ih =>
    intro h
    have hp := List.pairwise_cons.1 h
    unfold ins
    split
    · next hlt =>
      refine List.pairwise_cons.2 ⟨?_, h⟩
      intro a ha
      rcases List.mem_cons.1 ha with e | e
      · omega
      · have := hp.1 a e; omega
    · split
      · exact h
      · refine List.pairwise_cons.2 ⟨?_, ih hp.2⟩
        intro a ha
        rcases ins_mem x a l ha with e | e
        · omega
        · exact hp.1 a e

theorem sorted_step (p : P) (op : Op) (h : p.available.Pairwise (· < ·)) : (p.step op).available.Pairwise (· < ·) := by
  cases op <;> unfold P.step <;> dsimp only
  case attempt t =>
    split
    · unfold P.attempt
      split
      · next hc => rw [hc] at h; exact (List.pairwise_cons.1 h).2
      · split <;> exact h
    · exact h
  case release t =>
    split
    · exact ins_sorted _ _ h
    · exact h
  all_goals (repeat' split) <;> exact h

/-- C40.  The handle given to a thread that looks for one is the least of those that are free. -/
theorem c40_least_given (maxDBs threads : Nat) (ops : List Op) (t i : Nat)
    (ht : ((P.init maxDBs threads).run ops).threads[t]? = some .trying)
    (hi : i ∈ ((P.init maxDBs threads).run ops).available) :
    ∃ j, j ≤ i ∧ j ∈ ((P.init maxDBs threads).run ops).available ∧
      (((P.init maxDBs threads).run ops).step (.attempt t)).threads[t]? = some (Th.holding j) := by
  have hs : ∀ (ops : List Op) (p : P), p.available.Pairwise (· < ·) → (p.run ops).available.Pairwise (· < ·) := by
    intro ops
    induction ops with
    | nil => intro p h; exact h
    | cons op ops ih => intro p h; exact ih _ (sorted_step p op h)
  have h0 := hs ops (P.init maxDBs threads) (by simp [P.init])
  generalize (P.init maxDBs threads).run ops = p at *
  cases ha : p.available with
  | nil => rw [ha] at hi; simp at hi
  | cons j rest =>
    refine ⟨j, ?_, by simp, (c40_available_is_given p t ht j rest ha).1⟩
    rw [ha] at hi h0
    rcases List.mem_cons.1 hi with e | e
    · omega
    · exact Nat.le_of_lt ((List.pairwise_cons.1 h0).1 i e)

end Bedrock.Pool.Props
