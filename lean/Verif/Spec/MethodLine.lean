import Verif.Model.Http

/-! # What the parts of a line are -/

namespace Bedrock.MethodLine.Spec
open Bedrock

/-- Nothing but blanks. -/
def Blank (s : Bytes) : Prop := ∀ c ∈ s, c = 32
instance (s : Bytes) : Decidable (Blank s) := inferInstanceAs (Decidable (∀ c ∈ s, c = 32))

/-- Something without a blank. -/
def Word (s : Bytes) : Prop := s ≠ [] ∧ (32 : UInt8) ∉ s
instance (s : Bytes) : Decidable (Word s) := inferInstanceAs (Decidable (_ ∧ _))

/-- `t` is `s` without the blanks at its ends. -/
def Stripped (s t : Bytes) : Prop :=
  (∃ a b, Blank a ∧ Blank b ∧ s = a ++ t ++ b) ∧ t.head? ≠ some 32 ∧ t.getLast? ≠ some 32

end Bedrock.MethodLine.Spec
