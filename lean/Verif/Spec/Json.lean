import Verif.Model.Text

/-!
# The JSON grammar

RFC 8259 as a relation between a text and the strings that the library is supposed to report for it.  An element of
an array or a member of an object is reported as a string: a string literal unescaped, `null` as `nv`, everything else
as the text it was written with.  Blanks are the six of the C locale, and in a string literal any byte except NUL may
stand unescaped and any may be escaped: every text of the RFC is covered.
-/

namespace Bedrock.Json.Spec
open Bedrock Bedrock.Text

def Blank (w : Bytes) : Prop := ∀ c ∈ w, isSpace c = true

def Digits (d : Bytes) : Prop := d ≠ [] ∧ ∀ c ∈ d, 48 ≤ c ∧ c ≤ 57

def Fraction (f : Bytes) : Prop := f = [] ∨ ∃ d, Digits d ∧ f = 46 :: d

def Exponent (e : Bytes) : Prop :=
  e = [] ∨ ∃ m s d, (m = 101 ∨ m = 69) ∧ (s = [] ∨ s = [45] ∨ s = [43]) ∧ Digits d ∧ e = m :: (s ++ d)

def Number (x : Bytes) : Prop :=
  ∃ sign int frac exp, (sign = [] ∨ sign = [45]) ∧ Digits int ∧ Fraction frac ∧ Exponent exp ∧
    x = sign ++ (int ++ (frac ++ exp))

/-- What may stand between the quotes of a string literal. -/
inductive Body : Bytes → Prop
  | nil : Body []
  | plain {c : UInt8} {b : Bytes} : c ≠ 0 → c ≠ 34 → c ≠ 92 → Body b → Body (c :: b)
  | escaped {c : UInt8} {b : Bytes} : Body b → Body (92 :: c :: b)

mutual
/-- `Val nv x v`: the text `x` is a value, reported as `v`. -/
inductive Val (nv : Bytes) : Bytes → Bytes → Prop
  | tru : Val nv (str "true") (str "true")
  | fls : Val nv (str "false") (str "false")
  | nul : Val nv (str "null") nv
  | num {x : Bytes} : Number x → Val nv x x
  | lit {b : Bytes} : Body b → Val nv (34 :: (b ++ [34])) (unescape b 92)
  | arr {x : Bytes} {vs : List Bytes} : Arr nv x vs → Val nv x x
  | obj {x : Bytes} {ms : List (Bytes × Bytes)} : Obj nv x ms → Val nv x x

/-- `Arr nv x vs`: the text `x` is an array of `vs`. -/
inductive Arr (nv : Bytes) : Bytes → List Bytes → Prop
  | empty {w : Bytes} : Blank w → Arr nv (91 :: (w ++ [93])) []
  | some {x : Bytes} {vs : List Bytes} : Elems nv x vs → Arr nv (91 :: (x ++ [93])) vs

inductive Elems (nv : Bytes) : Bytes → List Bytes → Prop
  | one {w x w' v : Bytes} : Blank w → Val nv x v → Blank w' → Elems nv (w ++ (x ++ w')) [v]
  | more {w x w' v y : Bytes} {vs : List Bytes} : Blank w → Val nv x v → Blank w' → Elems nv y vs →
      Elems nv (w ++ (x ++ (w' ++ 44 :: y))) (v :: vs)

/-- `Obj nv x ms`: the text `x` is an object with the members `ms`, in order. -/
inductive Obj (nv : Bytes) : Bytes → List (Bytes × Bytes) → Prop
  | empty {w : Bytes} : Blank w → Obj nv (123 :: (w ++ [125])) []
  | some {x : Bytes} {ms : List (Bytes × Bytes)} : Mems nv x ms → Obj nv (123 :: (x ++ [125])) ms

inductive Mems (nv : Bytes) : Bytes → List (Bytes × Bytes) → Prop
  | one {w b w1 w2 x w3 v : Bytes} : Blank w → Body b → Blank w1 → Blank w2 → Val nv x v → Blank w3 →
      Mems nv (w ++ 34 :: (b ++ 34 :: (w1 ++ 58 :: (w2 ++ (x ++ w3))))) [(unescape b 92, v)]
  | more {w b w1 w2 x w3 v y : Bytes} {ms : List (Bytes × Bytes)} : Blank w → Body b → Blank w1 → Blank w2 →
      Val nv x v → Blank w3 → Mems nv y ms →
      Mems nv (w ++ 34 :: (b ++ 34 :: (w1 ++ 58 :: (w2 ++ (x ++ (w3 ++ 44 :: y)))))) ((unescape b 92, v) :: ms)
end

end Bedrock.Json.Spec
