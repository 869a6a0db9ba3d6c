import Verif.Model.ValueEq
import Verif.Props.Param

/-! # C136: comparing the values of a result -/

namespace Bedrock.ValueEq.Props
open Bedrock Text Rows

/-- The number of a column of integers fits in 64 bits. -/
def Fits : Value Dbl → Prop
  | .int i => -2 ^ 63 ≤ i ∧ i < 2 ^ 63
  | _ => True

def Infinite : Value Dbl → Prop
  | .real (.inf _) => True
  | _ => False

def Real : Value Dbl → Prop
  | .real _ => True
  | _ => False

theorem intDec_inj {a b : Int} (ha : -2 ^ 63 ≤ a ∧ a < 2 ^ 63) (hb : -2 ^ 63 ≤ b ∧ b < 2 ^ 63) (h : intDec a = intDec b) : a = b := by
  have h1 := Param.Props.strtoll_intDec ha.1 ha.2
  have h2 := Param.Props.strtoll_intDec hb.1 hb.2
  rw [h, h2] at h1
  exact h1.symm

/-- **C136** A value compares equal to a text exactly if it would be written as that text; null is the empty text, and so is the
null pointer. -/
theorem c136_text (fmt : Dbl → Bytes) (v : Value Dbl) (s : Bytes) :
    (eqString fmt v s = true ↔ v.str fmt = s) ∧ (0 ∉ s → eqChars fmt v (some s) = eqString fmt v s) ∧
      eqChars fmt v none = eqString fmt v [] := by
  refine ⟨by unfold eqString; exact beq_iff_eq, fun h => ?_, rfl⟩
  unfold eqChars eqString
  rw [Option.getD_some, cstr_eq h]

/-- **C136** Which of two values is on the left does not matter. -/
theorem c136_symmetric (a b : Value Dbl) : eqValue a b = eqValue b a ∧ neValue a b = !eqValue a b := by
  refine ⟨?_, rfl⟩
  have hc : ∀ x y, close x y = close y x := by
    intro x y
    cases x <;> cases y
    · rename_i x y
      have h1 : (x - y).natAbs = (y - x).natAbs := by omega
      simp only [close]
      rw [h1, Nat.max_comm]
    · rfl
    · rfl
    · rename_i s t; cases s <;> cases t <;> rfl
  have hb : ∀ x y : Bytes, (x == y) = (y == x) := fun x y => by
    by_cases h : x = y
    · rw [h]
    · rw [beq_false_of_ne h, beq_false_of_ne fun h' => h h'.symm]
  have hi : ∀ x y : Int, (x == y) = (y == x) := fun x y => by
    by_cases h : x = y
    · rw [h]
    · rw [beq_false_of_ne h, beq_false_of_ne fun h' => h h'.symm]
  cases a <;> cases b <;> first | rfl | exact hc _ _ | exact hb _ _ | exact hi _ _

/-- **C136** A value equals itself, unless it is an infinity. -/
theorem c136_reflexive_partial (v : Value Dbl) : eqValue v v = true ↔ ¬ Infinite v := by
  cases v with
  | none => simp [eqValue, Infinite]
  | int i => simp [eqValue, Infinite]
  | text s => simp [eqValue, Infinite]
  | blob s => simp [eqValue, Infinite]
  | real x =>
    cases x with
    | fin k => simp [eqValue, close, Infinite]
    | inf s => cases s <;> simp [eqValue, close, Infinite]

/-- **C136** Values that are not both real numbers are equal exactly if they are the same: a number never equals a text, a text
never a blob, null only null. -/
theorem c136_same (a b : Value Dbl) (h : ¬ (Real a ∧ Real b)) : eqValue a b = true ↔ a = b := by
  cases a <;> cases b <;> simp [eqValue]
  exact absurd ⟨trivial, trivial⟩ h

/-- **C136** so two values of one kind that is not that of the real numbers are equal exactly if their texts are. -/
theorem c136_by_text (fmt : Dbl → Bytes) (a b : Value Dbl) (ha : Fits a) (hb : Fits b) (hr : ¬ Real a)
    (hk : (∃ i j, a = .int i ∧ b = .int j) ∨ (∃ s t, a = .text s ∧ b = .text t) ∨ (∃ s t, a = .blob s ∧ b = .blob t)) :
    eqValue a b = true ↔ a.str fmt = b.str fmt := by
  rw [c136_same a b fun h => hr h.1]
  rcases hk with ⟨i, j, rfl, rfl⟩ | ⟨s, t, rfl, rfl⟩ | ⟨s, t, rfl, rfl⟩
  · constructor
    · intro h; rw [h]
    · intro h; rw [intDec_inj ha hb h]
  · simp [Value.str]
  · simp [Value.str]

/-- **C136** Real numbers are equal exactly if they differ by no more than 1e-12 and a billionth of the greater. -/
theorem c136_real (a b : Int) : eqValue (.real (.fin a)) (.real (.fin b)) = true ↔
    (a - b).natAbs * 10 ^ 12 ≤ 2 ^ 1074 + 1000 * max a.natAbs b.natAbs := by
  show close (.fin a) (.fin b) = true ↔ _
  unfold close
  rw [decide_eq_true_iff]
  have : one.natAbs = 2 ^ 1074 := by decide +kernel
  rw [this]

/-- **C136** Different whole numbers of less than 999999999 are told apart. -/
theorem c136_whole (n m : Int) (hn : n.natAbs < 999999999) (hm : m.natAbs < 999999999) (h : n ≠ m) :
    eqValue (.real (.fin (n * 2 ^ 1074))) (.real (.fin (m * 2 ^ 1074))) = false := by
  rw [← Bool.not_eq_true, c136_real]
  have hu : (2 ^ 1074 : Nat) > 0 := Nat.pow_pos (by decide)
  have e : ((2 : Int) ^ 1074) = ((2 ^ 1074 : Nat) : Int) := (Int.natCast_pow 2 1074).symm
  rw [e]
  generalize (2 ^ 1074 : Nat) = u at hu ⊢
  have h1 : (n * (u : Int) - m * (u : Int)).natAbs = (n - m).natAbs * u := by
    rw [← Int.sub_mul, Int.natAbs_mul, Int.natAbs_natCast]
  rw [h1, Int.natAbs_mul, Int.natAbs_mul, Int.natAbs_natCast]
  have hd : 1 ≤ (n - m).natAbs := by omega
  have hmax : max (n.natAbs * u) (m.natAbs * u) ≤ 999999998 * u := by
    apply Nat.max_le.mpr
    exact ⟨Nat.mul_le_mul_right _ (by omega), Nat.mul_le_mul_right _ (by omega)⟩
  have hge : u ≤ (n - m).natAbs * u := Nat.le_mul_of_pos_left _ hd
  omega

/-- **C136** fails for large whole numbers kept as real: 1000000000 equals 1000000001. -/
theorem c136_large_partial : eqValue (.real (.fin (1000000000 * one))) (.real (.fin (1000000001 * one))) = true := by
  decide +kernel

/-- **C136** fails for real numbers: equality is not transitive. -/
theorem c136_not_transitive_partial : ∃ a b c : Value Dbl, eqValue a b = true ∧ eqValue b c = true ∧ eqValue a c = false :=
  ⟨.real (.fin (1000000000 * one)), .real (.fin (1000000001 * one)), .real (.fin (1000000002 * one)),
    by decide +kernel, by decide +kernel, by decide +kernel⟩

/-- **C136** fails for infinities: each equals every finite number and the other infinity, and not itself. -/
theorem c136_infinity_partial (s : Bool) (x : Dbl) : eqValue (.real (.inf s)) (.real x) = true ↔ x ≠ .inf s := by
  cases x with
  | fin k => simp [eqValue, close]
  | inf t => cases s <;> cases t <;> simp [eqValue, close]

/-- **C136** A value is empty exactly if its text is. -/
theorem c136_empty (fmt : Dbl → Bytes) (hf : ∀ x, fmt x ≠ []) (v : Value Dbl) :
    (empty v = true ↔ size fmt v = 0) ∧ (empty v = true ↔ eqString fmt v [] = true) := by
  have hi : ∀ i : Int, intDec i ≠ [] := by
    intro i
    unfold intDec
    split
    · simp
    · exact natDec_ne_nil _
  constructor
  · cases v with
    | none => simp [empty, size, Value.str]
    | int i => simp [empty, size, Value.str, hi]
    | real x => simp [empty, size, Value.str, hf]
    | text s => simp [empty, size, Value.str]
    | blob s => simp [empty, size, Value.str]
  · rw [(c136_text fmt v []).1]
    cases v with
    | none => simp [empty, Value.str]
    | int i => simp [empty, Value.str, hi]
    | real x => simp [empty, Value.str, hf]
    | text s => simp [empty, Value.str]
    | blob s => simp [empty, Value.str]

/-- **C136** Texts made of values have the length of both, and null adds nothing. -/
theorem c136_concat (fmt : Dbl → Bytes) (a b : Value Dbl) :
    (concat fmt a b).length = size fmt a + size fmt b ∧ concat fmt .none b = b.str fmt ∧ concat fmt a .none = a.str fmt := by
  refine ⟨by unfold concat size; exact List.length_append, rfl, ?_⟩
  unfold concat Value.str
  rw [List.append_nil]

/-- **C136** The text does not say the kind: a number and a text may both equal one text and not each other. -/
theorem c136_kinds (fmt : Dbl → Bytes) : ∃ (a b : Value Dbl) (s : Bytes), eqString fmt a s = true ∧ eqString fmt b s = true ∧
    eqValue a b = false :=
  ⟨.int 5, .text [53], [53], beq_iff_eq.mpr (by show intDec 5 = [53]; decide +kernel), beq_iff_eq.mpr rfl, rfl⟩

example : eqValue (.real (.fin one)) (.real (.fin (one + one / 10 ^ 10))) = true ∧
    eqValue (.real (.fin one)) (.real (.fin (one + one / 10 ^ 8))) = false := by decide +kernel
example : eqValue (.text [49]) (.blob [49]) = false ∧ eqValue .none (.text []) = false := by decide +kernel

end Bedrock.ValueEq.Props
