import Verif.Spec.ConflictReport
import Verif.Lemmas.Http

namespace Bedrock.Report
open Bedrock Text Http Spec

variable {V : Type}

theorem lexLt_ne {a b : Bytes} (h : lexLt a b = true) : a ≠ b := by
  intro e; rw [e, lexLt_irrefl] at h; exact absurd h (by decide)

theorem entry_cons (k : Bytes) (e : Bytes × V) (l : List (Bytes × V)) :
    entry k (e :: l) = if e.1 = k then some e.2 else entry k l := by
  unfold entry
  by_cases h : e.1 = k
  · rw [List.find?_cons_of_pos (by simpa using h), if_pos h]; rfl
  · rw [List.find?_cons_of_neg (by simpa using h), if_neg h]

theorem entry_none {k : Bytes} {l : List (Bytes × V)} (h : ∀ e ∈ l, e.1 ≠ k) : entry k l = none := by
  induction l with
  | nil => rfl
  | cons e l ih =>
    rw [entry_cons, if_neg (h e (by simp)), ih (fun e he => h e (List.mem_cons_of_mem _ he))]

theorem entry_small {k : Bytes} {e : Bytes × V} {l : List (Bytes × V)} (h : Ordered (e :: l)) (hk : lexLt k e.1 = true) :
    entry k (e :: l) = none := by
  refine entry_none ?_
  intro x hx
  rcases List.mem_cons.1 hx with rfl | hx
  · exact (lexLt_ne hk).symm
  · exact (lexLt_ne (lexLt_trans hk ((List.pairwise_cons.1 h).1 x hx))).symm

theorem update_fst (k : Bytes) (f : Option V → V) (l : List (Bytes × V)) : ∀ e ∈ update k f l, e.1 = k ∨ ∃ e' ∈ l, e'.1 = e.1 := by
  induction l with
  | nil => intro e he; simp only [update, List.mem_singleton] at he; exact Or.inl (by rw [he])
  | cons x l ih =>
    intro e he
    obtain ⟨k', v⟩ := x
    simp only [update] at he
    split at he
    · rcases List.mem_cons.1 he with rfl | he
      · exact Or.inr ⟨_, List.mem_cons_self, rfl⟩
      · exact Or.inr ⟨e, List.mem_cons_of_mem _ he, rfl⟩
    · split at he
      · rcases List.mem_cons.1 he with rfl | he
        · exact Or.inl rfl
        · exact Or.inr ⟨e, he, rfl⟩
      · rcases List.mem_cons.1 he with rfl | he
        · exact Or.inr ⟨_, List.mem_cons_self, rfl⟩
        · rcases ih e he with h | ⟨e', h1, h2⟩
          · exact Or.inl h
          · exact Or.inr ⟨e', List.mem_cons_of_mem _ h1, h2⟩

theorem update_ordered (k : Bytes) (f : Option V → V) (l : List (Bytes × V)) (h : Ordered l) : Ordered (update k f l) := by
  induction l with
  | nil => simp [update, Ordered]
  | cons x l ih =>
    obtain ⟨k', v⟩ := x
    have hp := List.pairwise_cons.1 h
    simp only [update]
    split
    · exact List.pairwise_cons.2 ⟨hp.1, hp.2⟩
    · next hne =>
      split
      · next hlt =>
        refine List.pairwise_cons.2 ⟨?_, h⟩
        intro e he
        rcases List.mem_cons.1 he with rfl | he
        · exact hlt
        · exact lexLt_trans hlt (hp.1 e he)
      · next hnl =>
        refine List.pairwise_cons.2 ⟨?_, ih hp.2⟩
        intro e he
        rcases update_fst k f l e he with h1 | ⟨e', h1, h2⟩
        · show lexLt k' e.1 = true
          rw [h1]
          cases hc : lexLt k' k with
          | true => rfl
          | false => exact absurd (lexLt_total (by simpa using hnl) hc) hne
        · show lexLt k' e.1 = true
          rw [← h2]; exact hp.1 e' h1

theorem entry_update (k : Bytes) (f : Option V → V) (l : List (Bytes × V)) (h : Ordered l) (x : Bytes) :
    entry x (update k f l) = if x = k then some (f (entry k l)) else entry x l := by
  induction l with
  | nil =>
    simp only [update]
    rw [entry_cons]
    by_cases e : x = k
    · rw [if_pos e.symm, if_pos e]; rfl
    · rw [if_neg (fun c => e c.symm), if_neg e]
  | cons y l ih =>
    obtain ⟨k', v⟩ := y
    have hp := List.pairwise_cons.1 h
    simp only [update]
    split
    · next e =>
      subst e
      rw [entry_cons, entry_cons, if_pos rfl, entry_cons]
      by_cases e : x = k
      · rw [if_pos e.symm, if_pos e]
      · rw [if_neg (fun c => e c.symm), if_neg e, if_neg (fun c => e c.symm)]
    · next hne =>
      split
      · next hlt =>
        rw [entry_small h hlt, entry_cons]
        by_cases e : x = k
        · rw [if_pos e.symm, if_pos e]
        · rw [if_neg (fun c => e c.symm), if_neg e]
      · rw [entry_cons, ih hp.2, entry_cons, entry_cons]
        simp only
        by_cases e : x = k
        · subst e
          have : ¬ k' = x := fun c => hne c.symm
          simp [this]
        · simp [e]

/-- Ordered tables with the same entries are the same. -/
theorem ordered_ext : ∀ (l l' : List (Bytes × V)), Ordered l → Ordered l' → (∀ k, entry k l = entry k l') → l = l' := by
  intro l
  induction l with
  | nil =>
    intro l' _ _ he
    cases l' with
    | nil => rfl
    | cons e l' => have := he e.1; rw [entry_cons, if_pos rfl] at this; simp [entry] at this
  | cons a l ih =>
    intro l' ho ho' he
    cases l' with
    | nil => have := he a.1; rw [entry_cons, if_pos rfl] at this; simp [entry] at this
    | cons b l' =>
      have hab : a.1 = b.1 := by
        refine lexLt_total ?_ ?_
        · cases hc : lexLt a.1 b.1 with
          | false => rfl
          | true => have := he a.1; rw [entry_small ho' hc, entry_cons, if_pos rfl] at this; simp at this
        · cases hc : lexLt b.1 a.1 with
          | false => rfl
          | true => have := he b.1; rw [entry_small ho hc, entry_cons, if_pos rfl] at this; simp at this
      have h2 : a.2 = b.2 := by
        have := he a.1
        rw [entry_cons, entry_cons, if_pos rfl, if_pos hab.symm] at this
        injection this
      have e : a = b := Prod.ext hab h2
      subst e
      rw [ih l' (List.pairwise_cons.1 ho).2 (List.pairwise_cons.1 ho').2 ?_]
      intro k
      by_cases hk : a.1 = k
      · rw [entry_none, entry_none]
        · intro x hx; rw [← hk]; exact (lexLt_ne ((List.pairwise_cons.1 ho').1 x hx)).symm
        · intro x hx; rw [← hk]; exact (lexLt_ne ((List.pairwise_cons.1 ho).1 x hx)).symm
      · have := he k
        rwa [entry_cons, entry_cons, if_neg hk, if_neg hk] at this

theorem insertSet_mem (x y : Bytes) : ∀ l, y ∈ insertSet x l ↔ y = x ∨ y ∈ l := by
  intro l
  induction l with
  | nil => simp [insertSet]
  | cons z l ih =>
    unfold insertSet
    split
    · next e => subst e; simp
    · split
      · simp
      · simp only [List.mem_cons, ih]
        constructor
        · rintro (h | h | h) <;> simp [h]
        · rintro (h | h | h) <;> simp [h]

theorem insertSet_sorted (x : Bytes) : ∀ l : List Bytes, l.Pairwise (fun a b => lexLt a b = true) →
    (insertSet x l).Pairwise (fun a b => lexLt a b = true) := by
  intro l
  induction l with
  | nil => intro _; simp [insertSet]
  | cons z l ih =>
    intro h
    have hp := List.pairwise_cons.1 h
    unfold insertSet
    split
    · exact h
    · next hne =>
      split
      · next hlt =>
        refine List.pairwise_cons.2 ⟨?_, h⟩
        intro e he
        rcases List.mem_cons.1 he with rfl | he
        · exact hlt
        · exact lexLt_trans hlt (hp.1 e he)
      · next hnl =>
        refine List.pairwise_cons.2 ⟨?_, ih hp.2⟩
        intro e he
        rcases (insertSet_mem x e l).1 he with rfl | h1
        · cases hc : lexLt z e with
          | true => rfl
          | false => exact absurd (lexLt_total (by simpa using hnl) hc) hne
        · exact hp.1 e h1

theorem skipped_iff (t : Bytes) : skipped t = true ↔ Hidden t := by
  unfold skipped Hidden
  rw [Bool.or_eq_true, beq_iff_eq, List.isPrefixOf_iff_prefix]
  constructor
  · rintro (⟨r, h⟩ | h)
    · exact Or.inl ⟨r, h.symm⟩
    · exact Or.inr h
  · rintro (⟨r, h⟩ | h)
    · exact Or.inl ⟨r, h.symm⟩
    · exact Or.inr h

theorem recordTable_ordered (c : List (Bytes × Nat)) (t : Bytes) (h : Ordered c) : Ordered (recordTable c t) := by
  unfold recordTable
  split
  · exact h
  · exact update_ordered _ _ _ h

theorem record_fold (tables : List Bytes) : ∀ (c : List (Bytes × Nat)), Ordered c →
    Ordered (tables.foldl recordTable c) ∧
    (tables.Pairwise (fun a b => lexLt a b = true) → ∀ t,
      entry t (tables.foldl recordTable c) =
        if t ∈ tables ∧ skipped t = false then some ((entry t c).getD 0 + 1) else entry t c) := by
  induction tables with
  | nil => intro c h; exact ⟨h, by intro _ t; simp⟩
  | cons a tables ih =>
    intro c h
    simp only [List.foldl_cons]
    have hi := ih (recordTable c a) (recordTable_ordered c a h)
    refine ⟨hi.1, ?_⟩
    intro hs t
    have hp := List.pairwise_cons.1 hs
    rw [hi.2 hp.2 t]
    have hr : entry t (recordTable c a) = if t = a ∧ skipped a = false then some ((entry t c).getD 0 + 1) else entry t c := by
      unfold recordTable
      cases hk : skipped a with
      | true => simp
      | false =>
        simp only [Bool.false_eq_true, if_false, and_true]
        rw [entry_update _ _ _ h]
        by_cases e : t = a
        · rw [if_pos e, if_pos e, e]
        · rw [if_neg e, if_neg e]
    rw [hr]
    by_cases e : t = a
    · subst e
      have : t ∉ tables := fun hm => lexLt_ne (hp.1 t hm) rfl
      simp [this]
    · simp [e]

/-- What holds after every history: the handles have the tables touched, and the manager the numbers. -/
structure Inv (l : List Op) (s : S) : Prop where
  sorted : ∀ w, (s.used w).Pairwise (fun a b => lexLt a b = true)
  used : ∀ w t, t ∈ s.used w ↔ Touched w t l
  ordered : Ordered s.mgr
  inner : ∀ n i, entry n s.mgr = some i → Ordered i.tableUseCounts
  counts : ∀ n, (entry n s.mgr).map Info.count = if total n l = 0 then none else some (total n l)
  tables : ∀ n t, Hidden t ∨ (((entry n s.mgr).bind fun i => entry t i.tableUseCounts) =
    if uses n t l = 0 then none else some (uses n t l))
  hidden : ∀ n i t, entry n s.mgr = some i → Hidden t → entry t i.tableUseCounts = none

theorem inv_init : Inv [] {} where
  sorted := by intro w; simp
  used := by intro w t; simp; intro h; cases h
  ordered := by simp [Ordered]
  inner := by intro n i h; simp [entry] at h
  counts := by intro n; simp [entry, total]
  tables := by intro n t; right; simp [entry, uses]
  hidden := by intro n i t h; simp [entry] at h

theorem touched_step (w : Nat) (t : Bytes) (op : Op) (l : List Op) :
    Touched w t (op :: l) ↔ (∃ a d, a ≠ .other ∧ op = .authorize w a t false d) ∨ (op ≠ .begin w ∧ Touched w t l) := by
  constructor
  · intro h
    cases h with
    | now a d _ ha => exact Or.inl ⟨a, d, ha, rfl⟩
    | later _ _ h1 h2 => exact Or.inr ⟨h1, h2⟩
  · rintro (⟨a, d, ha, rfl⟩ | ⟨h1, h2⟩)
    · exact .now a d l ha
    · exact .later op l h1 h2

theorem act_table (a : Act) : a.table = true ↔ a ≠ .other := by cases a <;> simp [Act.table]

theorem inv_step (l : List Op) (s : S) (op : Op) (h : Inv l s) : Inv (op :: l) (step s op) := by
  have keep : ∀ s' : S, s'.mgr = s.mgr → (∀ n, total n (op :: l) = total n l) → (∀ n t, uses n t (op :: l) = uses n t l) →
      (∀ w, (s'.used w).Pairwise (fun a b => lexLt a b = true)) → (∀ w t, t ∈ s'.used w ↔ Touched w t (op :: l)) →
      Inv (op :: l) s' := by
    intro s' h1 h2 h3 h4 h5
    exact ⟨h4, h5, h1 ▸ h.ordered, h1 ▸ h.inner, by intro n; rw [h1, h2]; exact h.counts n,
      by intro n t; rw [h1, h3]; exact h.tables n t, h1 ▸ h.hidden⟩
  cases op with
  | begin w =>
    refine keep _ rfl (fun _ => rfl) (fun _ _ => rfl) ?_ ?_
    · intro v
      show (set s.used w [] v).Pairwise _
      unfold set; split
      · simp
      · exact h.sorted v
    · intro v t
      show t ∈ set s.used w [] v ↔ _
      rw [touched_step]
      unfold set; split
      · next e => subst e; simp
      · next e =>
        rw [h.used]
        have : w ≠ v := fun c => e c.symm
        simp [this]
  | authorize w a table rw' d =>
    dsimp only [step]
    cases rw' with
    | true =>
      refine keep _ rfl (fun _ => rfl) (fun _ _ => rfl) h.sorted ?_
      intro v t; rw [touched_step, if_pos rfl, h.used]; simp
    | false =>
      rw [if_neg (by decide)]
      by_cases ha : a.table = true
      · rw [if_pos ha]
        refine keep _ rfl (fun _ => rfl) (fun _ _ => rfl) ?_ ?_
        · intro v
          show (set s.used w _ v).Pairwise _
          unfold set; split
          · exact insertSet_sorted _ _ (h.sorted w)
          · exact h.sorted v
        · intro v t
          show t ∈ set s.used w _ v ↔ _
          rw [touched_step]
          unfold set; split
          · next e =>
            subst e
            rw [insertSet_mem, h.used]
            constructor
            · rintro (rfl | hx)
              · exact Or.inl ⟨a, d, (act_table a).1 ha, rfl⟩
              · exact Or.inr ⟨by simp, hx⟩
            · rintro (⟨a', d', _, he⟩ | ⟨_, hx⟩)
              · injection he with _ _ e3; exact Or.inl e3.symm
              · exact Or.inr hx
          · next e =>
            rw [h.used]
            constructor
            · intro hx; exact Or.inr ⟨by simp, hx⟩
            · rintro (⟨a', d', _, he⟩ | ⟨_, hx⟩)
              · injection he with e1; exact absurd e1.symm e
              · exact hx
      · rw [if_neg ha]
        refine keep _ rfl (fun _ => rfl) (fun _ _ => rfl) h.sorted ?_
        intro v t
        rw [touched_step, h.used]
        constructor
        · intro hx; exact Or.inr ⟨by simp, hx⟩
        · rintro (⟨a', d', h1, he⟩ | ⟨_, hx⟩)
          · injection he with _ e2; subst e2; exact absurd ((act_table a).2 h1) ha
          · exact hx
  | rollback w =>
    refine keep _ rfl (fun _ => rfl) (fun _ _ => rfl) h.sorted ?_
    intro v t; rw [touched_step]; show t ∈ s.used v ↔ _; simpa using h.used v t
  | syncCommit w n =>
    refine keep _ rfl (fun _ => rfl) (fun _ _ => rfl) h.sorted ?_
    intro v t; rw [touched_step]; show t ∈ s.used v ↔ _; simpa using h.used v t
  | commit w name ok =>
    cases ok with
    | false =>
      refine keep _ rfl (fun _ => rfl) (fun _ _ => rfl) h.sorted ?_
      intro v t; rw [touched_step]; show t ∈ s.used v ↔ _; simpa using h.used v t
    | true =>
      have hst : step s (.commit w name true) = { s with mgr := recordTables s.mgr name (s.used w) } := rfl
      rw [hst]
      have ho : Ordered ((entry name s.mgr).getD {}).tableUseCounts := by
        cases hc : entry name s.mgr with
        | none => simp [Ordered]
        | some i => exact h.inner name i hc
      have hf := record_fold (s.used w) _ ho
      have hen : ∀ n, entry n (recordTables s.mgr name (s.used w)) = if n = name then
          some { count := ((entry name s.mgr).getD {}).count + 1
                 tableUseCounts := (s.used w).foldl recordTable ((entry name s.mgr).getD {}).tableUseCounts }
          else entry n s.mgr := by
        intro n
        unfold recordTables
        exact entry_update name _ _ h.ordered n
      refine ⟨h.sorted, ?_, ?_, ?_, ?_, ?_, ?_⟩
      · intro v t; rw [touched_step]; simpa using h.used v t
      · exact update_ordered _ _ _ h.ordered
      · intro n i hi
        rw [hen] at hi
        split at hi
        · injection hi with hi; subst hi; exact hf.1
        · exact h.inner n i hi
      · intro n
        rw [hen]
        have ht : total n (.commit w name true :: l) = total n l + (if name = n then 1 else 0) := rfl
        rw [ht]
        by_cases e : n = name
        · subst e
          rw [if_pos rfl, if_pos rfl, if_neg (by omega)]
          have hc := h.counts n
          cases hx : entry n s.mgr with
          | none =>
            rw [hx] at hc
            by_cases h0 : total n l = 0
            · simp [h0]
            · rw [if_neg h0] at hc; simp at hc
          | some i =>
            rw [hx] at hc
            by_cases h0 : total n l = 0
            · rw [if_pos h0] at hc; simp at hc
            · rw [if_neg h0] at hc; simpa using hc
        · have e' : ¬ name = n := fun c => e c.symm
          simp only [if_neg e, if_neg e', Nat.add_zero]
          exact h.counts n
      · intro n t
        by_cases hh : Hidden t
        · exact Or.inl hh
        · right
          have hsk : skipped t = false := by
            cases hc : skipped t with
            | false => rfl
            | true => exact absurd ((skipped_iff t).1 hc) hh
          rw [hen]
          rw [uses]
          by_cases e : n = name
          · subst e
            rw [if_pos rfl]
            simp only [Option.bind_some]
            rw [hf.2 (h.sorted w) t]
            have ht := (h.tables n t).resolve_left hh
            have hx : entry t ((entry n s.mgr).getD {}).tableUseCounts =
                if uses n t l = 0 then none else some (uses n t l) := by
              rw [← ht]
              cases entry n s.mgr with
              | none => rfl
              | some i => rfl
            rw [hx]
            by_cases hm : t ∈ s.used w
            · have hto := (h.used w t).1 hm
              have hb : n = n ∧ Touched w t l := ⟨rfl, hto⟩
              simp only [if_pos hb]
              rw [if_pos ⟨hm, hsk⟩, if_neg (show ¬ uses n t l + 1 = 0 by omega)]
              by_cases h0 : uses n t l = 0
              · rw [if_pos h0, h0]; rfl
              · rw [if_neg h0]; rfl
            · have hto : ¬ Touched w t l := fun c => hm ((h.used w t).2 c)
              have hb : ¬ (n = n ∧ Touched w t l) := fun c => hto c.2
              simp only [if_neg hb, Nat.add_zero]
              rw [if_neg (fun c => hm c.1)]
          · have hb : ¬ (name = n ∧ Touched w t l) := fun c => e c.1.symm
            simp only [if_neg hb, Nat.add_zero, if_neg e]
            exact (h.tables n t).resolve_left hh
      · intro n i t hi hh
        rw [hen] at hi
        split at hi
        · injection hi with hi
          subst hi
          show entry t _ = none
          have hsk := (skipped_iff t).2 hh
          rw [hf.2 (h.sorted w) t, if_neg (by simp [hsk])]
          cases hc : entry name s.mgr with
          | none => rfl
          | some i => exact h.hidden name i t hc hh
        · exact h.hidden n i t hi hh

theorem reach (ops : List Op) : Inv ops.reverse (run ops) := by
  have g : ∀ (ops : List Op) (l : List Op) (s : S), Inv l s → Inv (ops.reverse ++ l) (ops.foldl step s) := by
    intro ops
    induction ops with
    | nil => intro l s h; exact h
    | cons op ops ih =>
      intro l s h
      have := ih (op :: l) (step s op) (inv_step l s op h)
      simpa using this
  simpa [run] using g ops [] {} inv_init

end Bedrock.Report
