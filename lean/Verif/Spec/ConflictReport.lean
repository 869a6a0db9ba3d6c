import Verif.Model.ConflictReport

/-! # What the report should say, from the history alone

Histories are given newest step first. -/

namespace Bedrock.Report.Spec
open Bedrock Report

/-- `w` came across this table since it last began a transaction. -/
inductive Touched (w : Nat) (t : Bytes) : List Op → Prop
  | now (a : Act) (d : Bool) (l : List Op) : a ≠ .other → Touched w t (.authorize w a t false d :: l)
  | later (op : Op) (l : List Op) : op ≠ .begin w → Touched w t l → Touched w t (op :: l)

/-- How often worker threads committed for this method line. -/
def total (name : Bytes) : List Op → Nat
  | .commit _ n true :: l => total name l + (if n = name then 1 else 0)
  | _ :: l => total name l
  | [] => 0

open Classical in
/-- How many of those transactions came across the table. -/
noncomputable def uses (name t : Bytes) : List Op → Nat
  | .commit w n true :: l => uses name t l + (if n = name ∧ Touched w t l then 1 else 0)
  | _ :: l => uses name t l
  | [] => 0

/-- What the report leaves out. -/
def Hidden (t : Bytes) : Prop := (∃ r, t = Text.str "journal" ++ r) ∨ t = Text.str "json_each"

/-- What stands for `k` in a table of entries. -/
def entry {V : Type} (k : Bytes) (l : List (Bytes × V)) : Option V := (l.find? (fun e => e.1 == k)).map Prod.snd

/-- In the order of the names, each once. -/
def Ordered {V : Type} (l : List (Bytes × V)) : Prop := l.Pairwise (fun a b => Http.lexLt a.1 b.1 = true)

end Bedrock.Report.Spec
