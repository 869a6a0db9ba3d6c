import Verif.Model.MethodLine
import Verif.Spec.MethodLine

namespace Bedrock.MethodLine
open Bedrock Text Http Spec

theorem blank_all {a : Bytes} : a.all (· == 32) = true ↔ Blank a := by
  rw [List.all_eq_true]
  exact ⟨fun h c hc => by simpa using h c hc, fun h c hc => by simpa using h c hc⟩

theorem takeWhile_blank {a t : Bytes} (ha : Blank a) (ht : t.head? ≠ some 32) : (a ++ t).takeWhile (· == 32) = a := by
  induction a with
  | nil =>
    cases t with
    | nil => rfl
    | cons c t => rw [List.nil_append, List.takeWhile_cons_of_neg]; intro h; exact ht (by simpa using h)
  | cons c a ih =>
    have hc : c = 32 := ha c List.mem_cons_self
    subst hc
    rw [List.cons_append, List.takeWhile_cons_of_pos rfl, ih fun c h => ha c (List.mem_cons_of_mem _ h)]

theorem takeWhile_word {w t : Bytes} (hw : (32 : UInt8) ∉ w) (ht : t = [] ∨ t.head? = some 32) :
    (w ++ t).takeWhile (· != 32) = w := by
  induction w with
  | nil =>
    cases t with
    | nil => rfl
    | cons c t =>
      rcases ht with h | h
      · cases h
      · simp only [List.head?_cons, Option.some.injEq] at h
        subst h
        rfl
  | cons c w ih =>
    have hc : c ≠ 32 := fun h => hw (by simp [h])
    rw [List.cons_append, List.takeWhile_cons_of_pos (by simpa using hc), ih fun h => hw (List.mem_cons_of_mem _ h)]

theorem trimEnd_blank {p b : Bytes} (hb : Blank b) : trimEndSp (p ++ b) = trimEndSp p := by
  unfold trimEndSp
  rw [List.reverse_append]
  congr 1
  have : ∀ c ∈ b.reverse, c = 32 := fun c hc => hb c (List.mem_reverse.mp hc)
  generalize b.reverse = r at this
  induction r with
  | nil => rfl
  | cons c r ih =>
    have hc : c = 32 := this c List.mem_cons_self
    subst hc
    rw [List.cons_append, List.dropWhile_cons_of_pos rfl, ih fun c h => this c (List.mem_cons_of_mem _ h)]

theorem trimEnd_id {s : Bytes} (h : s.getLast? ≠ some 32) : trimEndSp s = s := by
  unfold trimEndSp
  cases hr : s.reverse with
  | nil => rw [List.reverse_eq_nil_iff] at hr; subst hr; rfl
  | cons c r =>
    have : s.getLast? = some c := by rw [← List.head?_reverse, hr]; rfl
    rw [List.dropWhile_cons_of_neg (by intro hc; exact h (by rw [this]; simpa using hc)), ← hr, List.reverse_reverse]

theorem trimEnd_len (s : Bytes) : (trimEndSp s).length ≤ s.length := by
  unfold trimEndSp
  rw [List.length_reverse, ← List.length_reverse (as := s)]
  exact (List.dropWhile_sublist _).length_le

/-- Every text is one that ends in no blank, and blanks. -/
theorem end_split (s : Bytes) : ∃ t b, s = t ++ b ∧ Blank b ∧ t.getLast? ≠ some 32 := by
  refine ⟨trimEndSp s, (s.reverse.takeWhile (· == 32)).reverse, ?_, ?_, ?_⟩
  · unfold trimEndSp
    rw [← List.reverse_append, List.takeWhile_append_dropWhile, List.reverse_reverse]
  · intro c hc
    have := List.all_takeWhile (p := (· == (32 : UInt8))) (l := s.reverse)
    rw [List.all_eq_true] at this
    simpa using this c (List.mem_reverse.mp hc)
  · unfold trimEndSp
    rw [List.getLast?_reverse]
    cases h : s.reverse.dropWhile (· == 32) with
    | nil => simp
    | cons c r =>
      have := List.head?_dropWhile_not (· == (32 : UInt8)) s.reverse
      rw [h] at this
      intro hc
      simp at this hc
      exact this hc

/-- Every text is blanks, and one that begins with no blank. -/
theorem start_split (s : Bytes) : ∃ a t, s = a ++ t ∧ Blank a ∧ t.head? ≠ some 32 := by
  refine ⟨s.takeWhile (· == 32), s.dropWhile (· == 32), (List.takeWhile_append_dropWhile).symm, ?_, ?_⟩
  · intro c hc
    have := List.all_takeWhile (p := (· == (32 : UInt8))) (l := s)
    rw [List.all_eq_true] at this
    simpa using this c hc
  · have := List.head?_dropWhile_not (· == (32 : UInt8)) s
    intro hc
    rw [hc] at this
    simp at this

/-- Every text is a word or nothing, and the end or a blank. -/
theorem word_split (s : Bytes) : ∃ w t, s = w ++ t ∧ (32 : UInt8) ∉ w ∧ (t = [] ∨ t.head? = some 32) := by
  refine ⟨s.takeWhile (· != 32), s.dropWhile (· != 32), (List.takeWhile_append_dropWhile).symm, ?_, ?_⟩
  · intro hc
    have := List.all_takeWhile (p := (· != (32 : UInt8))) (l := s)
    rw [List.all_eq_true] at this
    simpa using this 32 hc
  · have := List.head?_dropWhile_not (· != (32 : UInt8)) s
    cases h : s.dropWhile (· != 32) with
    | nil => exact Or.inl rfl
    | cons c r => rw [h] at this; simp at this; exact Or.inr (by simp [this])

theorem skip_eq (pre a t : Bytes) (ha : Blank a) (ht : t.head? ≠ some 32) :
    skipBlanks (pre ++ (a ++ t)) pre.length = some (pre.length + a.length) := by
  unfold skipBlanks
  rw [if_neg (by simp), List.drop_left, takeWhile_blank ha ht]

theorem word_last {w : Bytes} (hw : Word w) : w.getLast? ≠ some 32 :=
  fun h => hw.2 (List.mem_of_getLast? h)

theorem last_append {p w : Bytes} (hw : w ≠ []) : (p ++ w).getLast? = w.getLast? := by
  rw [List.getLast?_append]
  cases h : w.getLast? with
  | none => exact absurd (List.getLast?_eq_none_iff.mp h) hw
  | some c => rfl

/-- Blanks and a word. -/
theorem next_word (pre a w t out : Bytes) (ha : Blank a) (hw : Word w) (ht : t = [] ∨ t.head? = some 32) :
    upToNext (pre ++ (a ++ (w ++ t))) pre.length 32 out = some ((pre ++ a ++ w).length, w) := by
  have hhead : (w ++ t).head? ≠ some 32 := by
    cases w with
    | nil => exact absurd rfl hw.1
    | cons c w => intro h; simp at h; exact hw.2 (by simp [h])
  have e1 : pre ++ (a ++ (w ++ t)) = (pre ++ a) ++ (w ++ t) := by simp
  have e2 : pre ++ (a ++ (w ++ t)) = (pre ++ a ++ w) ++ t := by simp
  have l2 : pre.length + a.length + w.length = (pre ++ a ++ w).length := by simp [Nat.add_assoc]
  have d : (pre ++ (a ++ (w ++ t))).drop (pre.length + a.length) = w ++ t := by
    rw [e1, ← List.length_append, List.drop_left]
  have tk : (pre ++ (a ++ (w ++ t))).take (pre.length + a.length + w.length) = pre ++ a ++ w := by
    rw [e2, l2, List.take_left]
  have hb : backBlanks (pre ++ (a ++ (w ++ t))) (pre.length + a.length + w.length) = some (pre ++ a ++ w).length := by
    unfold backBlanks
    rw [tk, if_neg, trimEnd_id]
    · rw [last_append hw.1]; exact word_last hw
    · rw [blank_all]
      intro h
      cases w with
      | nil => exact hw.1 rfl
      | cons c w => exact hw.2 (by rw [h c (by simp)]; simp)
  unfold upToNext
  rw [skip_eq pre a (w ++ t) ha hhead]
  simp only [Option.bind_eq_bind, Option.bind_some]
  rw [d, takeWhile_word hw.2 ht, hb]
  simp only [Option.bind_some, slice]
  have hlt : pre.length + a.length < (pre ++ a ++ w).length := by
    have := List.length_pos_iff.mpr hw.1
    rw [← l2]; omega
  rw [if_pos hlt, ← l2, tk, ← List.length_append, List.drop_left]

/-- Blanks and the end. -/
theorem next_end (pre a out : Bytes) (ha : Blank a) :
    upToNext (pre ++ a) pre.length 32 out = if Blank pre then none else some ((pre ++ a).length, out) := by
  have sk : skipBlanks (pre ++ a) pre.length = some (pre ++ a).length := by
    have := skip_eq pre a [] ha (by simp)
    rw [List.append_nil] at this
    rw [this, List.length_append]
  unfold upToNext
  rw [sk]
  simp only [Option.bind_eq_bind, Option.bind_some]
  rw [List.drop_length, List.takeWhile_nil, List.length_nil, Nat.add_zero]
  unfold backBlanks
  rw [List.take_length]
  by_cases hp : Blank pre
  · rw [if_pos (blank_all.mpr fun c hc => (List.mem_append.mp hc).elim (hp c) (ha c)), if_pos hp]
    rfl
  · rw [if_neg (fun h => hp fun c hc => blank_all.mp h c (List.mem_append_left _ hc)), if_neg hp]
    simp only [Option.bind_some, slice]
    rw [if_neg (by have := trimEnd_len (pre ++ a); omega)]

/-- Behind the zero. -/
theorem next_behind (s out : Bytes) : upToNext s (s.length + 1) 32 out = none := by
  unfold upToNext skipBlanks
  rw [if_pos (by omega)]
  rfl

theorem end_behind (s out : Bytes) : upToEnd s (s.length + 1) out = none := by
  unfold upToEnd skipBlanks
  rw [if_pos (by omega)]
  rfl

/-- The rest of a line. -/
theorem rest_eq (pre r t : Bytes) (hp : ¬ Blank pre) (hs : Stripped r t) : upToEnd (pre ++ r) pre.length [] = some t := by
  obtain ⟨⟨a, b, ha, hb, rfl⟩, h1, h2⟩ := hs
  have hall : ¬ (pre ++ (a ++ t ++ b)).all (· == 32) = true :=
    fun h => hp fun c hc => blank_all.mp h c (List.mem_append_left _ hc)
  cases ht : t with
  | nil =>
    have hab : Blank (a ++ b) := fun c hc => (List.mem_append.mp hc).elim (ha c) (hb c)
    have sk := skip_eq pre (a ++ b) [] hab (by simp)
    rw [List.append_nil] at sk
    subst ht
    unfold upToEnd
    rw [List.append_nil, sk]
    simp only [Option.bind_eq_bind, Option.bind_some]
    unfold backBlanks
    rw [List.append_nil] at hall
    rw [List.take_length, if_neg hall]
    simp only [Option.bind_some, slice]
    rw [if_neg (by have := trimEnd_len (pre ++ (a ++ b)); simp at this ⊢; omega)]
  | cons c t' =>
    rw [← ht]
    have hne : t ≠ [] := by rw [ht]; simp
    have hh : (t ++ b).head? ≠ some 32 := by rw [ht] at h1 ⊢; exact h1
    have sk := skip_eq pre a (t ++ b) ha hh
    have e : pre ++ (a ++ t ++ b) = pre ++ (a ++ (t ++ b)) := by simp
    have e2 : pre ++ (a ++ (t ++ b)) = (pre ++ a ++ t) ++ b := by simp
    have bk : backBlanks (pre ++ (a ++ (t ++ b))) (pre ++ (a ++ (t ++ b))).length = some (pre ++ a ++ t).length := by
      unfold backBlanks
      rw [List.take_length, if_neg (by rw [← e]; exact hall), e2, trimEnd_blank hb, trimEnd_id]
      rw [last_append hne]; exact h2
    unfold upToEnd
    rw [e, sk]
    simp only [Option.bind_eq_bind, Option.bind_some]
    rw [bk]
    simp only [Option.bind_some, slice]
    have hlt : pre.length + a.length < (pre ++ a ++ t).length := by
      have := List.length_pos_iff.mpr hne
      simp; omega
    rw [if_pos hlt, e2, List.take_left, ← List.length_append, List.drop_left]

theorem stripped_exists (r : Bytes) : ∃ t, Stripped r t := by
  obtain ⟨a, x, rfl, ha, hx⟩ := start_split r
  obtain ⟨t, b, rfl, hb, ht⟩ := end_split x
  refine ⟨t, ⟨a, b, ha, hb, by simp⟩, ?_, ht⟩
  cases t with
  | nil => simp
  | cons c t => simpa using hx

end Bedrock.MethodLine
