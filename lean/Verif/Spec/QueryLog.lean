import Verif.Model.Text

/-! # How a query log is read: rows of a quoted name, a quoted query and a number -/

namespace Bedrock.QueryLog.Spec
open Bedrock Bedrock.Text

/-- The rest of a quoted field, in which a quote is doubled, and what is after its closing quote. -/
def quoted : Bytes → Option (Bytes × Bytes)
  | [] => none
  | [c] => if c = 34 then some ([], []) else none
  | c :: d :: r =>
    if c = 34 then
      if d = 34 then (quoted r).map (fun p => (34 :: p.1, p.2)) else some ([], d :: r)
    else (quoted (d :: r)).map (fun p => (c :: p.1, p.2))

def expect : Bytes → Bytes → Option Bytes
  | [], s => some s
  | _ :: _, [] => none
  | c :: p, d :: s => if c = d then expect p s else none

/-- The digits of a number up to the end of the line. -/
def number : Nat → Bytes → Option (Nat × Bytes)
  | _, [] => none
  | n, c :: s => if c = 10 then some (n, s) else if 48 ≤ c ∧ c ≤ 57 then number (n * 10 + (c.toNat - 48)) s else none

def row (s : Bytes) : Option ((Bytes × Bytes × Nat) × Bytes) :=
  (expect [34] s).bind fun s => (quoted s).bind fun f => (expect [44, 32, 34] f.2).bind fun s => (quoted s).bind fun q =>
    (expect [44, 32] q.2).bind fun s => (number 0 s).map fun n => ((f.1, q.1, n.1), n.2)

/-- `fuel`: more than the number of rows. -/
def rows : Nat → Bytes → Option (List (Bytes × Bytes × Nat))
  | 0, _ => none
  | fuel + 1, s => if s = [] then some [] else (row s).bind fun p => (rows fuel p.2).map (p.1 :: ·)

/-- The records of a log. -/
def read (file : Bytes) : Option (List (Bytes × Bytes × Nat)) :=
  (expect (str "filename, query, elapsed\n") file).bind fun s => rows (s.length + 1) s

end Bedrock.QueryLog.Spec
