import Verif.Model.Text

/-!
# Searching in strings

libstuff: `SStartsWith`, `SEndsWith`, `SContains`, `SToUpper`.
-/

namespace Bedrock.Text
open Bedrock

/-- `toupper` in the "C" locale. -/
def toUpper (c : UInt8) : UInt8 := if 97 ≤ c && c ≤ 122 then c - 32 else c

/-- `SToUpper`, libstuff.cpp. -/
def sToUpper (s : Bytes) : Bytes := s.map toUpper

/-- `std::string::find`: the first position where the needle stands. -/
def findSub (needle : Bytes) : Bytes → Option Nat
  | [] => if needle = [] then some 0 else none
  | c :: s => if needle.isPrefixOf (c :: s) then some 0 else (findSub needle s).map (· + 1)

/-- `SContains` of two strings. -/
def sContains (hay needle : Bytes) : Bool := (findSub needle hay).isSome

theorem findSub_some {needle hay : Bytes} {i : Nat} (h : findSub needle hay = some i) :
    i + needle.length ≤ hay.length ∧ (hay.drop i).take needle.length = needle ∧
      ∀ j < i, ¬ needle.isPrefixOf (hay.drop j) = true := by
  induction hay generalizing i with
  | nil =>
    rw [findSub] at h
    split at h
    · rename_i hn
      injection h with h
      subst h
      subst hn
      exact ⟨by simp, by simp, fun j hj => absurd hj (Nat.not_lt_zero j)⟩
    · cases h
  | cons c s ih =>
    rw [findSub] at h
    split at h
    · rename_i hp
      injection h with h
      subst h
      obtain ⟨r, hr⟩ := List.isPrefixOf_iff_prefix.mp hp
      refine ⟨?_, ?_, fun j hj => absurd hj (Nat.not_lt_zero j)⟩
      · have := congrArg List.length hr
        rw [List.length_append] at this
        omega
      · rw [List.drop_zero, ← hr, List.take_left]
    · rename_i hp
      rw [Option.map_eq_some_iff] at h
      obtain ⟨k, hk, rfl⟩ := h
      obtain ⟨h1, h2, h3⟩ := ih hk
      refine ⟨by simp only [List.length_cons]; omega, by simpa using h2, ?_⟩
      intro j hj
      cases j with
      | zero => simpa using hp
      | succ j => simpa using h3 j (by omega)

theorem findSub_none {needle hay : Bytes} : findSub needle hay = none ↔ ¬ needle <:+: hay := by
  induction hay with
  | nil =>
    rw [findSub]
    split
    · rename_i h; subst h; simp
    · rename_i h; simp [h]
  | cons c s ih =>
    rw [findSub]
    split
    · rename_i hp
      simp only [reduceCtorEq, false_iff, Classical.not_not]
      exact (List.isPrefixOf_iff_prefix.mp hp).isInfix
    · rename_i hp
      rw [Option.map_eq_none_iff, ih, List.infix_cons_iff]
      rw [List.isPrefixOf_iff_prefix] at hp
      simp [hp]

/-- `SContains` says whether the needle stands somewhere. -/
theorem sContains_iff {hay needle : Bytes} : sContains hay needle = true ↔ needle <:+: hay := by
  unfold sContains
  cases h : findSub needle hay with
  | none => simpa using findSub_none.mp h
  | some i =>
    simp only [Option.isSome_some, true_iff]
    apply Classical.byContradiction
    intro hn
    rw [findSub_none.mpr hn] at h
    cases h

end Bedrock.Text
