import Verif.Model.Buffer

/-!
# Specification of socket buffers, independent of `SFastBuffer`'s representation
-/

namespace Bedrock.Buffer.Spec

/-- What an operation does to a plain queue of bytes. -/
def step (q : Bytes) : Op → Option Bytes
  | .append _ bytes => some (q ++ bytes)
  | .consume n => if n ≤ q.length then some (q.drop n) else none
  | .clear => some []
  | .assign bytes => some bytes
  | .query => some q

/-- What a history does to a plain queue of bytes. -/
def run (q : Bytes) : List Op → Option Bytes
  | [] => some q
  | op :: ops => (step q op).bind (run · ops)

/-- The bytes begin with a complete request head: something, then an empty line (written with line
feeds or with carriage returns and line feeds). -/
def Complete (b : Bytes) : Prop :=
  4 ≤ b.length ∧ ∃ head rest, head ≠ [] ∧ (b = head ++ [10, 10] ++ rest ∨ b = head ++ [13, 10, 13, 10] ++ rest)

end Bedrock.Buffer.Spec
