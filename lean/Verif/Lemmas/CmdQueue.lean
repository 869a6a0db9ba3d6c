import Verif.Model.CmdQueue

namespace Bedrock.CmdQueue

theorem insertBy_perm {A : Type} (key : A → Nat) (x : A) (l : List A) :
    (insertBy key x l).Perm (x :: l) := by
  induction l with
  | nil => exact List.Perm.refl _
  | cons y ys ih =>
    unfold insertBy
    split
    · exact List.Perm.refl _
    · exact (List.Perm.cons y ih).trans (List.Perm.swap x y ys)

/-- Sorted by key. -/
def SortedBy {A : Type} (key : A → Nat) (l : List A) : Prop := l.Pairwise (fun a b => key a ≤ key b)

theorem insertBy_sorted {A : Type} (key : A → Nat) (x : A) (l : List A) (h : SortedBy key l) :
    SortedBy key (insertBy key x l) := by
  induction l with
  | nil => unfold insertBy SortedBy; exact List.pairwise_singleton _ _
  | cons y ys ih =>
    unfold SortedBy at h ih ⊢
    rw [List.pairwise_cons] at h
    unfold insertBy
    split
    · rename_i hlt
      rw [List.pairwise_cons]
      refine ⟨?_, List.pairwise_cons.mpr h⟩
      intro b hb
      rcases List.mem_cons.mp hb with e | hb
      · subst e; omega
      · have := h.1 b hb; omega
    · rename_i hge
      rw [List.pairwise_cons]
      refine ⟨?_, ih h.2⟩
      intro b hb
      rcases List.mem_cons.mp ((insertBy_perm key x ys).mem_iff.mp hb) with e | hb
      · subst e; omega
      · exact h.1 b hb

theorem takeFirst_some {A : Type} {p : A → Bool} {l : List A} {x : A} {r : List A}
    (h : takeFirst p l = some (x, r)) : p x = true ∧ l.Perm (x :: r) ∧ r.Sublist l := by
  induction l generalizing r with
  | nil => cases h
  | cons y ys ih =>
    unfold takeFirst at h
    split at h
    · rename_i hp
      injection h with h; injection h with h1 h2; subst h1; subst h2
      exact ⟨hp, List.Perm.refl _, List.sublist_cons_self _ _⟩
    · cases ht : takeFirst p ys with
      | none => rw [ht] at h; cases h
      | some z =>
        obtain ⟨a, b⟩ := z
        rw [ht] at h
        simp only [Option.map_some, Option.some.injEq, Prod.mk.injEq] at h
        obtain ⟨rfl, rfl⟩ := h
        obtain ⟨h1, h2, h3⟩ := ih ht
        exact ⟨h1, (List.Perm.cons y h2).trans (List.Perm.swap _ _ _), List.Sublist.cons_cons y h3⟩

theorem takeFirst_none {A : Type} {p : A → Bool} {l : List A} (h : takeFirst p l = none) :
    ∀ x ∈ l, p x = false := by
  induction l with
  | nil => simp
  | cons y ys ih =>
    unfold takeFirst at h
    split at h
    · cases h
    · rename_i hp
      cases ht : takeFirst p ys with
      | some z => rw [ht] at h; cases h
      | none =>
        intro x hx
        rcases List.mem_cons.mp hx with e | hx
        · subst e; simpa using hp
        · exact ih ht x hx

/-- Both maps are sorted. -/
structure Sorted (q : Q) : Prop where
  queue : SortedBy Cmd.sched q.queue
  lookup : SortedBy Prod.fst q.lookup

/-- The key under which a command is found by timeout. -/
def key (c : Cmd) : Nat × Nat := (c.timeout, c.sched)

/-- The timeout map has exactly the entries of the commands in the queue. -/
def Exact (q : Q) : Prop := q.lookup.Perm (q.queue.map key)

theorem Sorted.push {q : Q} (h : Sorted q) (c : Cmd) : Sorted (q.push c) :=
  ⟨insertBy_sorted _ _ _ h.queue, insertBy_sorted _ _ _ h.lookup⟩

theorem Exact.push {q : Q} (h : Exact q) (c : Cmd) : Exact (q.push c) := by
  unfold Exact Q.push
  refine (insertBy_perm _ _ _).trans ?_
  refine (List.Perm.cons _ h).trans ?_
  exact ((insertBy_perm Cmd.sched c q.queue).map key).symm

theorem dequeueScheduled_cases (q : Q) (now : Nat) :
    (q.dequeueScheduled now = (none, q) ∧ (q.queue = [] ∨ ∃ c rest, q.queue = c :: rest ∧ now < c.sched)) ∨
    ∃ c rest lk, q.queue = c :: rest ∧ c.sched ≤ now ∧
      q.dequeueScheduled now = (some c, { queue := rest, lookup := lk }) ∧ lk.Sublist q.lookup ∧
      (key c ∈ q.lookup → q.lookup.Perm (key c :: lk)) := by
  unfold Q.dequeueScheduled
  cases hq : q.queue with
  | nil => exact .inl ⟨rfl, .inl rfl⟩
  | cons c rest =>
    simp only
    split
    · rename_i hle
      right
      refine ⟨c, rest, _, rfl, hle, rfl, ?_, ?_⟩
      · cases ht : takeFirst (fun e => e == (c.timeout, c.sched)) q.lookup with
        | none => exact List.Sublist.refl _
        | some z =>
          obtain ⟨a, b⟩ := z
          exact (takeFirst_some ht).2.2
      · intro hm
        cases ht : takeFirst (fun e => e == (c.timeout, c.sched)) q.lookup with
        | none =>
          have := takeFirst_none ht _ hm
          simp [key] at this
        | some z =>
          obtain ⟨a, b⟩ := z
          obtain ⟨h1, h2, _⟩ := takeFirst_some ht
          simp only [beq_iff_eq] at h1
          subst h1
          exact h2
    · rename_i hgt
      exact .inl ⟨rfl, .inr ⟨c, rest, rfl, by omega⟩⟩

/-- What `_dequeue` does, in terms of the two maps. -/
theorem dequeue_perm (q : Q) (now : Nat) :
    q.queue.Perm ((q.dequeue now).1.toList ++ (q.dequeue now).2.queue) ∧
    (q.dequeue now).2.queue.Sublist q.queue ∧ (q.dequeue now).2.lookup.Sublist q.lookup := by
  have hsched : ∀ q : Q, q.queue.Perm ((q.dequeueScheduled now).1.toList ++ (q.dequeueScheduled now).2.queue) ∧
      (q.dequeueScheduled now).2.queue.Sublist q.queue ∧
      (q.dequeueScheduled now).2.lookup.Sublist q.lookup := by
    intro q
    rcases dequeueScheduled_cases q now with ⟨h, _⟩ | ⟨c, rest, lk, h1, _, h2, h3, _⟩
    · rw [h]; exact ⟨List.Perm.refl _, List.Sublist.refl _, List.Sublist.refl _⟩
    · rw [h2, h1]; exact ⟨List.Perm.refl _, List.sublist_cons_self _ _, h3⟩
  unfold Q.dequeue
  cases hl : q.lookup with
  | nil => have := hsched q; rw [hl] at this; exact this
  | cons e rest =>
    obtain ⟨t, s⟩ := e
    simp only
    split
    · cases ht : takeFirst (fun c => c.sched == s && c.timeout == t) q.queue with
      | some z =>
        obtain ⟨c, queue⟩ := z
        obtain ⟨_, h2, h3⟩ := takeFirst_some ht
        exact ⟨h2, h3, List.sublist_cons_self _ _⟩
      | none =>
        have := hsched { q with lookup := rest }
        exact ⟨this.1, this.2.1, this.2.2.trans (List.sublist_cons_self _ _)⟩
    · have := hsched q; rw [hl] at this; exact this

theorem Sorted.of_sublist {q q' : Q} (h : Sorted q) (h1 : q'.queue.Sublist q.queue)
    (h2 : q'.lookup.Sublist q.lookup) : Sorted q' :=
  ⟨List.Pairwise.sublist h1 h.queue, List.Pairwise.sublist h2 h.lookup⟩

theorem Sorted.step {q : Q} (h : Sorted q) (op : Op) : Sorted (q.step op).2.2 := by
  cases op with
  | push c => exact h.push c
  | get now => exact h.of_sublist (dequeue_perm q now).2.1 (dequeue_perm q now).2.2
  | getAll => exact ⟨List.Pairwise.nil, List.Pairwise.nil⟩
  | clear => exact ⟨List.Pairwise.nil, List.Pairwise.nil⟩
  | abandon limit => exact h.of_sublist List.filter_sublist (List.Sublist.refl _)

/-- `_dequeue` when the timeout map is exact. -/
theorem dequeue_exact (q : Q) (now : Nat) (h : Exact q) :
    Exact (q.dequeue now).2 ∧
    (∀ t s rest, q.lookup = (t, s) :: rest → t ≤ now →
      ∃ c ∈ q.queue, (q.dequeue now).1 = some c ∧ c.timeout = t) ∧
    ((∀ t s rest, q.lookup = (t, s) :: rest → now < t) → (q.dequeue now).1 = (q.dequeueScheduled now).1) := by
  have hsched : Exact (q.dequeueScheduled now).2 := by
    rcases dequeueScheduled_cases q now with ⟨h1, _⟩ | ⟨c, rest, lk, h1, _, h2, _, h4⟩
    · rw [h1]; exact h
    · rw [h2]
      have hm : key c ∈ q.lookup := by
        rw [h.mem_iff, h1]; simp
      have hp := h4 hm
      unfold Exact at h ⊢
      rw [h1] at h
      have := hp.symm.trans h
      exact List.Perm.cons_inv this
  unfold Q.dequeue
  cases hl : q.lookup with
  | nil => exact ⟨hsched, by simp, fun _ => rfl⟩
  | cons e rest =>
    obtain ⟨t, s⟩ := e
    simp only
    split
    · rename_i hle
      cases ht : takeFirst (fun c => c.sched == s && c.timeout == t) q.queue with
      | some z =>
        obtain ⟨c, queue⟩ := z
        obtain ⟨h1, h2, h3⟩ := takeFirst_some ht
        simp only [Bool.and_eq_true, beq_iff_eq] at h1
        refine ⟨?_, ?_, ?_⟩
        · unfold Exact at h ⊢
          rw [hl] at h
          have := h.trans (h2.map key)
          simp only [List.map_cons, key, h1.1, h1.2] at this
          exact List.Perm.cons_inv this
        · intro t' s' rest' he hle'
          simp only [List.cons.injEq, Prod.mk.injEq] at he
          refine ⟨c, h2.mem_iff.mpr (by simp), rfl, ?_⟩
          rw [h1.2, he.1.1]
        · intro hx
          have := hx t s rest rfl
          omega
      | none =>
        exfalso
        have hm : (t, s) ∈ q.queue.map key := by
          rw [← h.mem_iff, hl]; simp
        rw [List.mem_map] at hm
        obtain ⟨c, hc, he⟩ := hm
        have := takeFirst_none ht c hc
        simp only [key, Prod.mk.injEq] at he
        simp [he.1, he.2] at this
    · rename_i hgt
      refine ⟨hsched, ?_, fun _ => rfl⟩
      intro t' s' rest' he hle
      simp only [List.cons.injEq, Prod.mk.injEq] at he
      omega

theorem Exact.step {q : Q} (h : Exact q) (op : Op) (hop : ∀ limit, op ≠ .abandon limit) :
    Exact (q.step op).2.2 := by
  cases op with
  | push c => exact h.push c
  | get now => exact (dequeue_exact q now h).1
  | getAll => exact List.Perm.refl _
  | clear => exact List.Perm.refl _
  | abandon limit => exact absurd rfl (hop limit)

end Bedrock.CmdQueue
