import Verif.Model.Pool

namespace Bedrock.Pool

theorem mem_ins (x y : Nat) (l : List Nat) : y ∈ ins x l ↔ y = x ∨ y ∈ l := by
  induction l with
  | nil => simp [ins]
  | cons z l ih =>
    unfold ins
    split
    · simp
    · split
      · subst_vars; simp
      · simp only [List.mem_cons, ih]; grind

theorem length_ins (x : Nat) (l : List Nat) (h : x ∉ l) : (ins x l).length = l.length + 1 := by
  induction l with
  | nil => rfl
  | cons z l ih =>
    unfold ins
    rw [List.mem_cons] at h
    have h1 : x ≠ z := fun e => h (.inl e)
    have h2 : x ∉ l := fun e => h (.inr e)
    split
    · rfl
    · try rw [if_neg h1]
      rw [List.length_cons, ih h2, List.length_cons]

theorem nodup_ins (x : Nat) (l : List Nat) (h : x ∉ l) (hn : l.Nodup) : (ins x l).Nodup := by
  induction l with
  | nil => simp [ins]
  | cons z l ih =>
    unfold ins
    rw [List.mem_cons] at h
    have h1 : x ≠ z := fun e => h (.inl e)
    have h2 : x ∉ l := fun e => h (.inr e)
    split
    · rw [List.nodup_cons]; exact ⟨fun hm => (List.mem_cons.mp hm).elim h1 h2, hn⟩
    · rw [List.nodup_cons] at hn ⊢
      refine ⟨?_, ih h2 hn.2⟩
      rw [mem_ins]
      rintro (e | e)
      · exact h1 e.symm
      · exact hn.1 e

/-- How many handles exist. -/
def total (p : P) : Nat := p.available.length + p.inUse.length

/-- The invariant of the two sets and the handles held. -/
structure Inv (p : P) : Prop where
  maxPos : 1 ≤ p.maxDBs
  nda : p.available.Nodup
  ndu : p.inUse.Nodup
  disj : ∀ i, i ∈ p.available → i ∉ p.inUse
  cover : ∀ i, (i ∈ p.available ∨ i ∈ p.inUse) ↔ i < total p
  bound : total p ≤ p.maxDBs - 1
  held : ∀ i : Nat, i ∈ p.inUse ↔ ∃ t : Nat, p.threads[t]? = some (Th.holding i)
  uniq : ∀ t t' i : Nat, p.threads[t]? = some (Th.holding i) → p.threads[t']? = some (Th.holding i) → t = t'
  objs : ∀ i ∈ p.objects, i < total p

/-- The invariant behind the wake-ups. -/
def Awake (p : P) : Prop :=
  (Th.waiting ∈ p.threads → total p = p.maxDBs - 1) ∧
  (Th.waiting ∈ p.threads → p.available.length ≤ p.threads.count .trying + p.threads.count .notifying)

theorem get_set {A : Type} (l : List A) (i j : Nat) (a : A) (h : i < l.length) :
    (l.set i a)[j]? = if j = i then some a else l[j]? := by
  rw [List.getElem?_set]
  by_cases hj : j = i
  · subst hj; simp [h]
  · simp [hj, Ne.symm hj]

theorem lt_of_get {A : Type} {l : List A} {i : Nat} {a : A} (h : l[i]? = some a) : i < l.length :=
  (List.getElem?_eq_some_iff.mp h).1

theorem count_set_th (l : List Th) (i : Nat) (old a x : Th) (h : l[i]? = some old) :
    (l.set i a).count x + (if old = x then 1 else 0) = l.count x + (if a = x then 1 else 0) := by
  induction l generalizing i with
  | nil => simp at h
  | cons y l ih =>
    cases i with
    | zero =>
      simp only [List.getElem?_cons_zero, Option.some.injEq] at h
      subst h
      simp only [List.set_cons_zero, List.count_cons, beq_iff_eq]
      omega
    | succ i =>
      simp only [List.getElem?_cons_succ] at h
      simp only [List.set_cons_succ, List.count_cons]
      have := ih i h
      omega

theorem mem_set_th (l : List Th) (i : Nat) (a x : Th) (h : x ∈ l.set i a) : x = a ∨ x ∈ l :=
  (List.mem_or_eq_of_mem_set h).symm

theorem count_pos_of_get {l : List Th} {i : Nat} {a : Th} (h : l[i]? = some a) : 1 ≤ l.count a := by
  have : a ∈ l := List.mem_of_getElem? h
  exact List.count_pos_iff.mpr this

theorem inv_init (maxDBs threads : Nat) : Inv (P.init maxDBs threads) ∧ Awake (P.init maxDBs threads) := by
  refine ⟨⟨?_, List.nodup_nil, List.nodup_nil, by simp [P.init], by simp [P.init, total], by simp [P.init, total],
    ?_, ?_, by simp [P.init]⟩, ?_, ?_⟩
  · show 1 ≤ max maxDBs 1; omega
  · intro i
    simp [P.init, List.getElem?_replicate]
  · intro t t' i h
    simp [P.init, List.getElem?_replicate] at h
  · intro h; simp [P.init, List.mem_replicate] at h
  · intro h; simp [P.init, List.mem_replicate] at h

/-- Changing a thread that holds nothing to a state that holds nothing. -/
theorem inv_set {p : P} (h : Inv p) (t : Nat) (old a : Th) (ht : p.threads[t]? = some old)
    (ho : ∀ i, old ≠ .holding i) (ha : ∀ i, a ≠ .holding i) : Inv { p with threads := p.threads.set t a } := by
  have hl := lt_of_get ht
  have key : ∀ s i : Nat, (p.threads.set t a)[s]? = some (Th.holding i) ↔ p.threads[s]? = some (Th.holding i) := by
    intro s i
    rw [get_set _ _ _ _ hl]
    by_cases hs : s = t
    · subst hs
      rw [if_pos rfl, ht]
      simp only [Option.some.injEq]
      exact ⟨fun e => absurd e (ha i), fun e => absurd e (ho i)⟩
    · rw [if_neg hs]
  refine ⟨h.maxPos, h.nda, h.ndu, h.disj, h.cover, h.bound, ?_, ?_, h.objs⟩
  · intro i
    rw [h.held i]
    exact exists_congr fun s => (key s i).symm
  · intro s s' i h1 h2
    exact h.uniq s s' i ((key s i).mp h1) ((key s' i).mp h2)

/-- A handle is given out. -/
theorem inv_take {p : P} (h : Inv p) (t : Nat) (ht : p.threads[t]? = some .trying) (i : Nat) (avail : List Nat)
    (hu : i ∉ p.inUse) (hav : (p.available = i :: avail) ∨ (p.available = [] ∧ avail = [] ∧ i = total p ∧
      total p < p.maxDBs - 1)) :
    Inv { p with available := avail, inUse := ins i p.inUse, threads := p.threads.set t (Th.holding i) } := by
  have hl := lt_of_get ht
  have htot : total { p with available := avail, inUse := ins i p.inUse, threads := p.threads.set t (Th.holding i) } =
      if p.available = [] then total p + 1 else total p := by
    show avail.length + (ins i p.inUse).length = _
    rw [length_ins _ _ hu]
    unfold total
    rcases hav with e | ⟨e, e', _, _⟩
    · rw [e]; simp; omega
    · rw [e, e']; simp
  have key : ∀ s j : Nat, (p.threads.set t (Th.holding i))[s]? = some (Th.holding j) ↔
      (s = t ∧ j = i) ∨ (s ≠ t ∧ p.threads[s]? = some (Th.holding j)) := by
    intro s j
    rw [get_set _ _ _ _ hl]
    by_cases hs : s = t
    · subst hs; simp; exact eq_comm
    · simp [hs]
  refine ⟨h.maxPos, ?_, nodup_ins _ _ hu h.ndu, ?_, ?_, ?_, ?_, ?_, ?_⟩
  · rcases hav with e | ⟨_, e, _⟩
    · have := h.nda; rw [e] at this; exact (List.nodup_cons.mp this).2
    · show avail.Nodup; rw [e]; exact List.nodup_nil
  · intro j hj
    show j ∉ ins i p.inUse
    rw [mem_ins]
    have hj : j ∈ avail := hj
    rcases hav with e | ⟨_, e, _⟩
    · have hn := h.nda
      rw [e, List.nodup_cons] at hn
      rintro (e' | e')
      · subst e'; exact hn.1 hj
      · exact h.disj j (by rw [e]; exact List.mem_cons_of_mem _ hj) e'
    · rw [e] at hj; simp at hj
  · intro j
    rw [htot]
    show (j ∈ avail ∨ j ∈ ins i p.inUse) ↔ _
    rw [mem_ins]
    have hc := h.cover j
    rcases hav with e | ⟨e, e', ei, _⟩
    · rw [e] at hc
      rw [e]
      simp only [List.mem_cons] at hc
      simp only [List.cons_ne_nil, if_false]
      rw [← hc]
      grind
    · rw [e] at hc
      simp only [List.not_mem_nil, false_or] at hc
      rw [e', e]
      simp only [List.not_mem_nil, false_or, if_true]
      rw [hc, ei]
      omega
  · rw [htot]
    show _ ≤ p.maxDBs - 1
    have := h.bound
    rcases hav with e | ⟨e, e', ei, hlt⟩
    · rw [e]; simpa using this
    · rw [if_pos e]; omega
  · intro j
    show j ∈ ins i p.inUse ↔ ∃ s, (p.threads.set t (Th.holding i))[s]? = some (Th.holding j)
    rw [mem_ins, h.held j]
    constructor
    · rintro (e | ⟨s, hs⟩)
      · exact ⟨t, (key t j).mpr (.inl ⟨rfl, e⟩)⟩
      · refine ⟨s, (key s j).mpr (.inr ⟨?_, hs⟩)⟩
        intro e; subst e; rw [ht] at hs; cases hs
    · rintro ⟨s, hs⟩
      rcases (key s j).mp hs with ⟨_, e⟩ | ⟨_, hs⟩
      · exact .inl e
      · exact .inr ⟨s, hs⟩
  · intro s s' j h1 h2
    rcases (key s j).mp h1 with ⟨e1, f1⟩ | ⟨n1, g1⟩ <;> rcases (key s' j).mp h2 with ⟨e2, f2⟩ | ⟨n2, g2⟩
    · rw [e1, e2]
    · exact absurd ((h.held j).mpr ⟨s', g2⟩) (f1 ▸ hu)
    · exact absurd ((h.held j).mpr ⟨s, g1⟩) (f2 ▸ hu)
    · exact h.uniq s s' j g1 g2
  · intro j hj
    rw [htot]
    have := h.objs j hj
    split <;> omega

theorem inv_step {p : P} (h : Inv p) (op : Op) : Inv (p.step op) := by
  cases op with
  | call t =>
    unfold P.step; simp only; split
    · rename_i ht; exact inv_set h t _ _ ht (by simp) (by simp)
    · exact h
  | attempt t =>
    unfold P.step; simp only; split
    · rename_i ht
      unfold P.attempt
      cases ha : p.available with
      | cons i rest =>
        simp only
        exact inv_take h t ht i rest (h.disj i (by rw [ha]; simp)) (.inl ha)
      | nil =>
        simp only
        split
        · rename_i hlt
          have hi : p.inUse.length = total p := by unfold total; rw [ha]; simp
          have hne : total p ∉ p.inUse := by
            intro hm
            have := (h.cover (total p)).mp (.inr hm)
            omega
          have := inv_take h t ht (total p) [] hne (.inr ⟨ha, rfl, rfl, by simp at hlt; omega⟩)
          simp only [List.length_nil, Nat.zero_add, hi]
          exact this
        · have := inv_set h t _ .waiting ht (by simp) (by simp)
          rw [ha] at this
          exact this
    · exact h
  | use t =>
    unfold P.step; simp only; split
    · rename_i i ht
      refine ⟨h.maxPos, h.nda, h.ndu, h.disj, h.cover, h.bound, h.held, h.uniq, ?_⟩
      intro j hj
      rcases (mem_ins _ _ _).mp hj with e | hj
      · subst e
        exact (h.cover j).mp (.inr ((h.held j).mpr ⟨t, ht⟩))
      · exact h.objs j hj
    · exact h
  | release t =>
    unfold P.step; simp only; split
    · rename_i i ht
      have hl := lt_of_get ht
      have hu : i ∈ p.inUse := (h.held i).mpr ⟨t, ht⟩
      have hna : i ∉ p.available := fun hm => h.disj i hm hu
      have hme : ∀ j, j ∈ p.inUse.erase i ↔ j ≠ i ∧ j ∈ p.inUse := fun j => h.ndu.mem_erase_iff
      have htot : total (P.mk p.maxDBs (ins i p.available) (p.inUse.erase i) p.objects (p.threads.set t .notifying)) =
          total p := by
        show (ins i p.available).length + (p.inUse.erase i).length = p.available.length + p.inUse.length
        rw [length_ins _ _ hna, List.length_erase_of_mem hu]
        have := List.length_pos_of_mem hu
        omega
      have key : ∀ s j : Nat, (p.threads.set t Th.notifying)[s]? = some (Th.holding j) ↔
          s ≠ t ∧ p.threads[s]? = some (Th.holding j) := by
        intro s j
        rw [get_set _ _ _ _ hl]
        by_cases hs : s = t
        · subst hs; simp
        · simp [hs]
      refine ⟨h.maxPos, nodup_ins _ _ hna h.nda, h.ndu.erase _, ?_, ?_, ?_, ?_, ?_, ?_⟩
      · intro j hj
        show j ∉ p.inUse.erase i
        rw [hme]
        rintro ⟨hji, hj'⟩
        rcases (mem_ins _ _ _).mp hj with e | hj
        · exact hji e
        · exact h.disj j hj hj'
      · intro j
        rw [htot, ← h.cover j]
        show (j ∈ ins i p.available ∨ j ∈ p.inUse.erase i) ↔ _
        rw [mem_ins, hme]
        by_cases hji : j = i
        · subst hji; simp [hu]
        · simp [hji]
      · rw [htot]; exact h.bound
      · intro j
        show j ∈ p.inUse.erase i ↔ ∃ s, (p.threads.set t Th.notifying)[s]? = some (Th.holding j)
        rw [hme, h.held j]
        constructor
        · rintro ⟨hji, s, hs⟩
          refine ⟨s, (key s j).mpr ⟨?_, hs⟩⟩
          intro e; subst e; rw [ht] at hs
          simp only [Option.some.injEq, Th.holding.injEq] at hs
          exact hji hs.symm
        · rintro ⟨s, hs⟩
          obtain ⟨h1, h2⟩ := (key s j).mp hs
          refine ⟨?_, s, h2⟩
          intro e; subst e
          exact h1 (h.uniq s t j h2 ht)
      · intro s s' j h1 h2
        exact h.uniq s s' j ((key s j).mp h1).2 ((key s' j).mp h2).2
      · intro j hj; rw [htot]; exact h.objs j hj
    · exact h
  | notify t w =>
    unfold P.step; simp only; split
    · rename_i ht
      split
      · rename_i hw
        have h1 := inv_set h t _ .idle ht (by simp) (by simp)
        have hne : w ≠ t := by intro e; subst e; rw [ht] at hw; cases hw
        have hw' : (p.threads.set t Th.idle)[w]? = some .waiting := by
          rw [get_set _ _ _ _ (lt_of_get ht), if_neg hne]; exact hw
        exact inv_set h1 w _ .trying hw' (by simp) (by simp)
      · split
        · exact h
        · exact inv_set h t _ .idle ht (by simp) (by simp)
    · exact h
  | spurious t =>
    unfold P.step; simp only; split
    · rename_i ht; exact inv_set h t _ _ ht (by simp) (by simp)
    · exact h

theorem awake_step {p : P} (h : Inv p) (ha : Awake p) (op : Op) : Awake (p.step op) := by
  obtain ⟨ha1, ha2⟩ := ha
  -- a change of thread states only
  have ths : ∀ ths : List Th, (Th.waiting ∈ ths → Th.waiting ∈ p.threads) →
      p.threads.count .trying + p.threads.count .notifying ≤ ths.count .trying + ths.count .notifying →
      Awake { p with threads := ths } := by
    intro ths h1 h2
    refine ⟨fun hm => ha1 (h1 hm), fun hm => ?_⟩
    exact Nat.le_trans (ha2 (h1 hm)) h2
  cases op with
  | call t =>
    unfold P.step; simp only; split
    · rename_i ht
      refine ths _ (fun hm => ?_) ?_
      · rcases mem_set_th _ _ _ _ hm with e | hm
        · cases e
        · exact hm
      · have c1 := count_set_th _ _ _ .trying .trying ht
        have c2 := count_set_th _ _ _ .trying .notifying ht
        simp at c1 c2
        omega
    · exact ⟨ha1, ha2⟩
  | attempt t =>
    unfold P.step; simp only; split
    · rename_i ht
      unfold P.attempt
      cases hav : p.available with
      | cons i rest =>
        simp only
        have hu : i ∉ p.inUse := h.disj i (by rw [hav]; simp)
        have hm' : ∀ i, Th.waiting ∈ p.threads.set t (Th.holding i) → Th.waiting ∈ p.threads := by
          intro i hm
          rcases mem_set_th _ _ _ _ hm with e | hm
          · cases e
          · exact hm
        refine ⟨fun hm => ?_, fun hm => ?_⟩
        · rw [← ha1 (hm' _ hm)]
          show rest.length + (ins i p.inUse).length = p.available.length + p.inUse.length
          rw [length_ins _ _ hu, hav, List.length_cons]; omega
        · have := ha2 (hm' _ hm)
          have c1 := count_set_th _ _ _ (.holding i) .trying ht
          have c2 := count_set_th _ _ _ (.holding i) .notifying ht
          simp at c1 c2
          rw [hav, List.length_cons] at this
          show rest.length ≤ (p.threads.set t (Th.holding i)).count .trying + (p.threads.set t (Th.holding i)).count .notifying
          omega
      | nil =>
        simp only
        have hi : p.inUse.length = total p := by unfold total; rw [hav]; simp
        split
        · rename_i hlt
          simp only [List.length_nil, Nat.zero_add] at hlt
          refine ⟨fun hm => ?_, fun hm => ?_⟩
          · exfalso
            rcases mem_set_th _ _ _ _ hm with e | hm
            · cases e
            · have := ha1 hm; omega
          · show ([] : List Nat).length ≤ _
            simp
        · rename_i hge
          simp only [List.length_nil, Nat.zero_add] at hge
          refine ⟨fun _ => ?_, fun _ => ?_⟩
          · show ([] : List Nat).length + p.inUse.length = p.maxDBs - 1
            have := h.bound
            simp only [List.length_nil]
            omega
          · show ([] : List Nat).length ≤ _
            simp
    · exact ⟨ha1, ha2⟩
  | use t =>
    unfold P.step; simp only; split
    · exact ⟨ha1, ha2⟩
    · exact ⟨ha1, ha2⟩
  | release t =>
    unfold P.step; simp only; split
    · rename_i i ht
      have hu : i ∈ p.inUse := (h.held i).mpr ⟨t, ht⟩
      have hna : i ∉ p.available := fun hm => h.disj i hm hu
      have hm' : Th.waiting ∈ p.threads.set t .notifying → Th.waiting ∈ p.threads := by
        intro hm
        rcases mem_set_th _ _ _ _ hm with e | hm
        · cases e
        · exact hm
      refine ⟨fun hm => ?_, fun hm => ?_⟩
      · rw [← ha1 (hm' hm)]
        show (ins i p.available).length + (p.inUse.erase i).length = p.available.length + p.inUse.length
        rw [length_ins _ _ hna, List.length_erase_of_mem hu]
        have := List.length_pos_of_mem hu
        omega
      · have := ha2 (hm' hm)
        have c1 := count_set_th _ _ _ .notifying .trying ht
        have c2 := count_set_th _ _ _ .notifying .notifying ht
        simp at c1 c2
        show (ins i p.available).length ≤ (p.threads.set t .notifying).count .trying + (p.threads.set t .notifying).count .notifying
        rw [length_ins _ _ hna]
        omega
    · exact ⟨ha1, ha2⟩
  | notify t w =>
    unfold P.step; simp only; split
    · rename_i ht
      split
      · rename_i hw
        have hne : w ≠ t := by intro e; subst e; rw [ht] at hw; cases hw
        have hw' : (p.threads.set t Th.idle)[w]? = some .waiting := by
          rw [get_set _ _ _ _ (lt_of_get ht), if_neg hne]; exact hw
        refine ths _ (fun hm => ?_) ?_
        · exact List.mem_of_getElem? hw
        · have c1 := count_set_th _ _ _ .idle .trying ht
          have c2 := count_set_th _ _ _ .idle .notifying ht
          have c3 := count_set_th _ _ _ .trying .trying hw'
          have c4 := count_set_th _ _ _ .trying .notifying hw'
          simp at c1 c2 c3 c4
          omega
      · split
        · exact ⟨ha1, ha2⟩
        · rename_i hnw
          have hnw : Th.waiting ∉ p.threads := by
            intro hm; exact hnw (List.contains_iff_mem.mpr hm)
          have hm' : Th.waiting ∉ p.threads.set t .idle := by
            intro hm
            rcases mem_set_th _ _ _ _ hm with e | hm
            · cases e
            · exact hnw hm
          exact ⟨fun hm => absurd hm hm', fun hm => absurd hm hm'⟩
    · exact ⟨ha1, ha2⟩
  | spurious t =>
    unfold P.step; simp only; split
    · rename_i ht
      refine ths _ (fun hm => List.mem_of_getElem? ht) ?_
      have c1 := count_set_th _ _ _ .trying .trying ht
      have c2 := count_set_th _ _ _ .trying .notifying ht
      simp at c1 c2
      omega
    · exact ⟨ha1, ha2⟩

theorem maxDBs_step (p : P) (op : Op) : (p.step op).maxDBs = p.maxDBs := by
  cases op <;> unfold P.step <;> simp only <;> (try unfold P.attempt) <;> repeat' split
  all_goals rfl

theorem run_inv (ops : List Op) : ∀ p : P, Inv p ∧ Awake p → Inv (p.run ops) ∧ Awake (p.run ops) ∧
    (p.run ops).maxDBs = p.maxDBs := by
  induction ops with
  | nil => intro p h; exact ⟨h.1, h.2, rfl⟩
  | cons op ops ih =>
    intro p h
    obtain ⟨a, b, c⟩ := ih (p.step op) ⟨inv_step h.1 op, awake_step h.1 h.2 op⟩
    exact ⟨a, b, c.trans (maxDBs_step p op)⟩

end Bedrock.Pool
