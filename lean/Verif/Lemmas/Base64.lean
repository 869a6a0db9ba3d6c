import Verif.Model.Base64
import Verif.Lemmas.Text

/-! # Lemmas about Base64 -/

namespace Bedrock.Base64
open Bedrock Bedrock.Text

theorem digitVal_digit {i : Nat} (h : i < 64) : digitVal (digit i) = some i := by
  have : ∀ i : Fin 64, digitVal (digit i.1) = some i.1 := by decide +kernel
  exact this ⟨i, h⟩

theorem digit_ne_pad {i : Nat} (h : i < 64) : digit i ≠ 61 := by
  have : ∀ i : Fin 64, digit i.1 ≠ 61 := by decide +kernel
  exact this ⟨i, h⟩

theorem digit_plain {i : Nat} (h : i < 64) : (65 ≤ digit i ∧ digit i ≤ 90) ∨ (97 ≤ digit i ∧ digit i ≤ 122) ∨
    (48 ≤ digit i ∧ digit i ≤ 57) ∨ digit i = 43 ∨ digit i = 47 := by
  have : ∀ i : Fin 64, (65 ≤ digit i.1 ∧ digit i.1 ≤ 90) ∨ (97 ≤ digit i.1 ∧ digit i.1 ≤ 122) ∨
    (48 ≤ digit i.1 ∧ digit i.1 ≤ 57) ∨ digit i.1 = 43 ∨ digit i.1 = 47 := by decide +kernel
  exact this ⟨i, h⟩

theorem ofNat_eq {n : Nat} {a : UInt8} (h : n = a.toNat) : UInt8.ofNat n = a := by
  rw [h]; exact UInt8.ofNat_toNat

/-- Decoding gives back what was encoded. -/
theorem bytes_chars : ∀ s : Bytes, bytes (chars s) = some s
  | [] => rfl
  | [a] => by
    have ha := a.toNat_lt
    simp only [chars, bytes, digitVal_digit (show a.toNat / 4 < 64 by omega),
      digitVal_digit (show a.toNat % 4 * 16 < 64 by omega)]
    simp only [Option.bind_eq_bind, Option.bind_some, Bool.and_self, decide_true, if_true]
    rw [ofNat_eq (show a.toNat / 4 * 4 + a.toNat % 4 * 16 / 16 = a.toNat by omega)]
  | [a, b] => by
    have ha := a.toNat_lt
    have hb := b.toNat_lt
    simp only [chars, bytes, digitVal_digit (show a.toNat / 4 < 64 by omega),
      digitVal_digit (show a.toNat % 4 * 16 + b.toNat / 16 < 64 by omega),
      digitVal_digit (show b.toNat % 16 * 4 < 64 by omega)]
    have hp := digit_ne_pad (show b.toNat % 16 * 4 < 64 by omega)
    simp only [Option.bind_eq_bind, Option.bind_some, hp, decide_false, Bool.false_and, Bool.false_eq_true, if_false,
      if_true]
    rw [ofNat_eq (show a.toNat / 4 * 4 + (a.toNat % 4 * 16 + b.toNat / 16) / 16 = a.toNat by omega),
      ofNat_eq (show (a.toNat % 4 * 16 + b.toNat / 16) % 16 * 16 + b.toNat % 16 * 4 / 4 = b.toNat by omega)]
  | a :: b :: c :: t => by
    have ha := a.toNat_lt
    have hb := b.toNat_lt
    have hc := c.toNat_lt
    have ih := bytes_chars t
    simp only [chars, bytes, digitVal_digit (show a.toNat / 4 < 64 by omega),
      digitVal_digit (show a.toNat % 4 * 16 + b.toNat / 16 < 64 by omega),
      digitVal_digit (show b.toNat % 16 * 4 + c.toNat / 64 < 64 by omega),
      digitVal_digit (show c.toNat % 64 < 64 by omega), ih]
    have hp := digit_ne_pad (show b.toNat % 16 * 4 + c.toNat / 64 < 64 by omega)
    have hq := digit_ne_pad (show c.toNat % 64 < 64 by omega)
    simp only [Option.bind_eq_bind, Option.bind_some, hp, hq, decide_false, Bool.false_and, Bool.false_eq_true, if_false]
    rw [ofNat_eq (show a.toNat / 4 * 4 + (a.toNat % 4 * 16 + b.toNat / 16) / 16 = a.toNat by omega),
      ofNat_eq (show (a.toNat % 4 * 16 + b.toNat / 16) % 16 * 16 + (b.toNat % 16 * 4 + c.toNat / 64) / 4 = b.toNat
        by omega),
      ofNat_eq (show (b.toNat % 16 * 4 + c.toNat / 64) % 4 * 64 + c.toNat % 64 = c.toNat by omega)]

/-- The characters are letters, digits, `+`, `/` and `=`. -/
def Plain (c : UInt8) : Prop :=
  (65 ≤ c ∧ c ≤ 90) ∨ (97 ≤ c ∧ c ≤ 122) ∨ (48 ≤ c ∧ c ≤ 57) ∨ c = 43 ∨ c = 47 ∨ c = 61

theorem plain_digit {i : Nat} (h : i < 64) : Plain (digit i) := by
  rcases digit_plain h with h | h | h | h | h
  · exact .inl h
  · exact .inr (.inl h)
  · exact .inr (.inr (.inl h))
  · exact .inr (.inr (.inr (.inl h)))
  · exact .inr (.inr (.inr (.inr (.inl h))))

theorem plain_pad : Plain 61 := .inr (.inr (.inr (.inr (.inr rfl))))

theorem chars_plain : ∀ s : Bytes, ∀ c ∈ chars s, Plain c
  | [], _, h => nomatch h
  | [a], c, h => by
    have ha := a.toNat_lt
    simp only [chars, List.mem_cons, List.not_mem_nil, or_false] at h
    rcases h with rfl | rfl | rfl | rfl
    · exact plain_digit (by omega)
    · exact plain_digit (by omega)
    · exact plain_pad
    · exact plain_pad
  | [a, b], c, h => by
    have ha := a.toNat_lt
    have hb := b.toNat_lt
    simp only [chars, List.mem_cons, List.not_mem_nil, or_false] at h
    rcases h with rfl | rfl | rfl | rfl
    · exact plain_digit (by omega)
    · exact plain_digit (by omega)
    · exact plain_digit (by omega)
    · exact plain_pad
  | a :: b :: c :: t, d, h => by
    have ha := a.toNat_lt
    have hb := b.toNat_lt
    have hc := c.toNat_lt
    simp only [chars, List.mem_cons] at h
    rcases h with rfl | rfl | rfl | rfl | h
    · exact plain_digit (by omega)
    · exact plain_digit (by omega)
    · exact plain_digit (by omega)
    · exact plain_digit (by omega)
    · exact chars_plain t d h

theorem chars_length : ∀ s : Bytes, (chars s).length = (s.length + 2) / 3 * 4
  | [] => rfl
  | [a] => by simp [chars]
  | [a, b] => by simp [chars]
  | a :: b :: c :: t => by
    have := chars_length t
    simp only [chars, List.length_cons, this]
    omega

theorem decode_chars (s : Bytes) : decode (chars s) = s := by
  unfold decode; rw [bytes_chars]; rfl

theorem encode_some {s x : Bytes} (h : encode s = some x) : x = chars s ∧ s ≠ [] := by
  unfold encode at h
  split at h
  · cases h
  · rename_i hs; injection h with h; exact ⟨h.symm, hs⟩

end Bedrock.Base64
