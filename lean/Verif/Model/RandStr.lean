import Verif.Model.Literal

/-! # Random texts: `SRandom::randStr` (libstuff/SRandom.cpp:23-33)

`rand`: the values `rand64` returns, one after the other. -/

namespace Bedrock.RandStr
open Bedrock Text

/-- SRandom.cpp:25 -/
def alphabet : Bytes := str "0123456789ABCDEFGHIJKLMNOPQRSTUVWXYZabcdefghijklmnopqrstuvwxyz"

/-- `str.substr(pos, 1)`, where `pos` is an `int`; none: `out_of_range` is thrown. -/
def substr1 (pos : Nat) : Option Bytes := if pos ≤ alphabet.length then some ((alphabet.drop pos).take 1) else none

/-- SRandom.cpp:28-31: `fuel` turns of the loop, from the text so far; none: the loop is not left, or throws. -/
def loop (rand : Nat → UInt64) (length : Nat) : Nat → Nat → Bytes → Option Bytes
  | 0, _, s => if s.length = length then some s else none
  | fuel + 1, i, s =>
    if s.length = length then some s
    else match substr1 ((rand i).toNat % (alphabet.length - 1)) with
      | none => none
      | some c => loop rand length fuel (i + 1) (s ++ c)

/-- `randStr`, with a number of turns of its loop. -/
def randStr (rand : Nat → UInt64) (length fuel : Nat) : Option Bytes := loop rand length fuel 0 []

end Bedrock.RandStr
