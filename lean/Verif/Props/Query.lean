import Verif.Model.Query
import Verif.Props.Text
import Verif.Props.Attr

/-!
# Properties of the Query command (C94)
-/

namespace Bedrock.Query.Props
open Bedrock Bedrock.Text Bedrock.Http Bedrock.Query

/-! ## Arguments are split as they were written -/

/-- A part of an argument: a character as it is, one behind a backslash, or a text in quotes. -/
inductive Piece where
  | plain (c : UInt8)
  | esc (c : UInt8)
  | quoted (q : UInt8) (s : Bytes)

def Piece.text : Piece → Bytes
  | .plain c => [c]
  | .esc c => [92, c]
  | .quoted q s => q :: s ++ [q]

def Piece.value : Piece → Bytes
  | .plain c => [c]
  | .esc c => [c]
  | .quoted _ s => s

def Piece.Ok : Piece → Prop
  | .plain c => isSpace c = false ∧ c ≠ 39 ∧ c ≠ 34 ∧ c ≠ 92
  | .esc _ => True
  | .quoted q s => (q = 39 ∨ q = 34) ∧ q ∉ s

theorem quoted_run (q : UInt8) : ∀ (s cur : Bytes) (out : List Bytes), q ∉ s →
    s.foldl Tok.step { quote := some q, cur, out } = { quote := some q, cur := cur ++ s, out }
  | [], _, _, _ => by simp
  | c :: s, cur, out, h => by
    have hc : c ≠ q := fun e => h (by simp [e])
    have : Tok.step { quote := some q, cur, out } c = { quote := some q, cur := cur ++ [c], out } := by simp [Tok.step, hc]
    rw [List.foldl_cons, this, quoted_run q s _ out (fun hm => h (by simp [hm]))]
    simp

theorem piece_run (p : Piece) (hp : p.Ok) (cur : Bytes) (out : List Bytes) :
    p.text.foldl Tok.step { cur, out } = { cur := cur ++ p.value, out } := by
  cases p with
  | plain c =>
    obtain ⟨h1, h2, h3, h4⟩ := hp
    simp [Piece.text, Piece.value, Tok.step, h1, h2, h3, h4]
  | esc c => simp [Piece.text, Piece.value, Tok.step, show isSpace 92 = false by decide]
  | quoted q s =>
    obtain ⟨h1, h2⟩ := hp
    simp only [Piece.text, Piece.value, List.cons_append, List.foldl_cons, List.foldl_append, List.foldl_nil]
    have : Tok.step { cur, out } q = { quote := some q, cur, out } := by
      rcases h1 with rfl | rfl
      · simp [Tok.step, show isSpace 39 = false by decide]
      · simp [Tok.step, show isSpace 34 = false by decide]
    rw [this, quoted_run q s _ _ h2]
    simp [Tok.step]

def text (a : List Piece) : Bytes := a.flatMap Piece.text
def value (a : List Piece) : Bytes := a.flatMap Piece.value

theorem arg_run : ∀ (a : List Piece) (_ : ∀ p ∈ a, p.Ok) (cur : Bytes) (out : List Bytes),
    (text a).foldl Tok.step { cur, out } = { cur := cur ++ value a, out }
  | [], _, _, _ => by simp [text, value]
  | p :: a, h, cur, out => by
    simp only [text, value, List.flatMap_cons, List.foldl_append]
    rw [piece_run p (h p (by simp))]
    have := arg_run a (fun x hx => h x (by simp [hx])) (cur ++ p.value) out
    simp only [text, value] at this
    rw [this]
    simp

/-- White space ends an argument, if there is one. -/
theorem gap_run : ∀ (g : Bytes) (_ : ∀ c ∈ g, isSpace c = true) (cur : Bytes) (out : List Bytes), g ≠ [] →
    g.foldl Tok.step { cur, out } = { cur := [], out := out ++ [cur].filter (· ≠ []) }
  | [], _, _, _, h => absurd rfl h
  | c :: g, h, cur, out, _ => by
    have hc := h c (by simp)
    have : Tok.step { cur, out } c = { cur := [], out := out ++ [cur].filter (· ≠ []) } := by
      by_cases hx : cur = []
      · subst hx; simp [Tok.step, hc]
      · simp [Tok.step, hc, hx]
    rw [List.foldl_cons, this]
    by_cases hg : g = []
    · subst hg; rfl
    · rw [gap_run g (fun x hx => h x (by simp [hx])) _ _ hg]
      simp

/-- C94.  Arguments can be written with backslashes and quotes, in pieces, with any white space between them: they are
read as the texts written, without those that are empty. -/
theorem c94_args (lead : Bytes) (args : List (List Piece × Bytes)) (last : List Piece) (hl : ∀ c ∈ lead, isSpace c = true)
    (ha : ∀ a ∈ args, (∀ p ∈ a.1, p.Ok) ∧ a.2 ≠ [] ∧ ∀ c ∈ a.2, isSpace c = true) (hz : ∀ p ∈ last, p.Ok) :
    split (lead ++ args.flatMap (fun a => text a.1 ++ a.2) ++ text last) =
      (args.map (fun a => value a.1) ++ [value last]).filter (· ≠ []) := by
  have key : ∀ (args : List (List Piece × Bytes)) (out : List Bytes),
      (∀ a ∈ args, (∀ p ∈ a.1, p.Ok) ∧ a.2 ≠ [] ∧ ∀ c ∈ a.2, isSpace c = true) →
      (args.flatMap (fun a => text a.1 ++ a.2)).foldl Tok.step { out } =
        { out := out ++ (args.map (fun a => value a.1)).filter (· ≠ []) } := by
    intro args
    induction args with
    | nil => intro out _; simp
    | cons a args ih =>
      intro out h
      obtain ⟨h1, h2, h3⟩ := h a (by simp)
      rw [List.flatMap_cons, List.foldl_append, List.foldl_append, arg_run a.1 h1, gap_run a.2 h3 _ _ h2,
        ih _ (fun x hx => h x (by simp [hx]))]
      simp only [List.nil_append, List.map_cons]
      rw [show value a.1 :: List.map (fun a => value a.1) args = [value a.1] ++ List.map (fun a => value a.1) args from rfl,
        List.filter_append]
      simp
  have e : lead.foldl Tok.step {} = {} := by
    by_cases h : lead = []
    · subst h; rfl
    · exact gap_run lead hl [] [] h
  unfold split
  dsimp only
  rw [List.foldl_append, List.foldl_append, e, key args [] ha, arg_run last hz]
  simp only [List.nil_append, List.filter_append]
  by_cases h : value last = []
  · simp [h]
  · simp [h]

/-- C94.  So any list of non-empty texts can be passed, for instance with a backslash before each character. -/
theorem c94_any_args (args : List Bytes) (h : ∀ a ∈ args, a ≠ []) :
    split (args.flatMap (fun a => a.flatMap (fun c => [92, c]) ++ [32])) = args := by
  have := c94_args [] (args.map (fun a => (a.map Piece.esc, [32]))) [] (by simp)
    (by
      intro a ha
      obtain ⟨b, _, rfl⟩ := List.mem_map.mp ha
      refine ⟨?_, by simp, by simp; decide⟩
      intro p hp
      obtain ⟨c, _, rfl⟩ := List.mem_map.mp hp
      trivial) (by simp)
  have e1 : ∀ a : Bytes, text (a.map Piece.esc) = a.flatMap (fun c => [92, c]) := by
    intro a; simp [text, List.flatMap_map, Piece.text]
  have e2 : ∀ a : Bytes, value (a.map Piece.esc) = a := by
    intro a; simp [value, List.flatMap_map, Piece.value]
  simp only [List.nil_append, List.flatMap_map, text, List.flatMap_nil, List.append_nil, List.map_map, value] at this
  have e3 : ((fun a : List Piece × Bytes => a.1.flatMap Piece.value) ∘ fun a : Bytes => (a.map Piece.esc, [32])) = id := by
    funext a; exact e2 a
  rw [e3] at this
  simp only [Piece.text] at this
  rw [this]
  simp
  exact h

example : split (str "  -nullvalue 'a b'c\\ d  --csv ") = [str "-nullvalue", str "a bc d", str "--csv"] := by decide +kernel

/-- C94, limits: a backslash in quotes is no escape, against the comment at DB.cpp:212-213, and an empty argument in quotes
is lost. -/
theorem c94_args_limits :
    split (str "\"a\\\"b c\"d e") = [str "a\\b", str "cd e"] ∧
    split (str "-nullvalue '' -csv") = [str "-nullvalue", str "-csv"] := by decide +kernel

/-! ## What the arguments ask for -/

/-- The styles as documented for the command line of SQLite. -/
def styles : List (String × Style) :=
  [("box", .box), ("column", .column), ("csv", .csv), ("html", .html), ("explain", .explain), ("eqp", .eqp),
   ("explainqueryplan", .eqp), ("json", .json), ("line", .line), ("list", .list), ("markdown", .markdown), ("quote", .quote),
   ("table", .table)]

def named (n : String) (a : Bytes) : Bool := a = str "-" ++ str n ∨ a = str "--" ++ str n

def styleOf (a : Bytes) : Option Style := (styles.find? (fun e => named e.1 a)).map (·.2)
def titlesOf (a : Bytes) : Option Switch := if named "header" a then some .on else if named "noheader" a then some .off else none
def takesValue (a : Bytes) : Bool := named "nullvalue" a || named "separator" a

/-- Each argument is a name, or the value of the name before it. -/
def pairs : List Bytes → List (Bytes × Option Bytes)
  | [] => []
  | [a] => if takesValue a then [] else [(a, none)]
  | a :: v :: rest => if takesValue a then (a, some v) :: pairs rest else (a, none) :: pairs (v :: rest)

def names : List String := ["ascii", "header", "noheader", "nullvalue", "separator"] ++ styles.map (·.1)

def known : List Bytes := names.flatMap (fun n => [45 :: str n, 45 :: 45 :: str n])

/-- What a wish is, by the documentation. -/
def wishOf (a : Bytes) : Wish :=
  match styleOf a with
  | some s => .style s
  | none => match titlesOf a with
    | some w => .titles w
    | none => if takesValue a then .value else .nothing

theorem wish_eq (a : Bytes) : wish a = wishOf a := by
  by_cases h : a ∈ known
  · revert a
    decide +kernel
  · have hn : ∀ n ∈ names, opt n a = false := by
      intro n hn
      cases ho : opt n a with
      | false => rfl
      | true =>
        exfalso
        refine h (List.mem_flatMap.mpr ⟨n, hn, ?_⟩)
        simp only [opt, Bool.or_eq_true, beq_iff_eq] at ho
        simp only [List.mem_cons, List.not_mem_nil, or_false]
        exact ho
    have hm : ∀ n ∈ names, named n a = false := by
      intro n hx
      have := hn n hx
      simp only [opt, Bool.or_eq_false_iff, beq_eq_false_iff_ne] at this
      simp only [named, decide_eq_false_iff_not, not_or]
      exact ⟨fun e => this.1 e, fun e => this.2 e⟩
    have h1 : styleOf a = none := by
      unfold styleOf
      rw [List.find?_eq_none.mpr, Option.map_none]
      intro e he
      rw [hm e.1 (by unfold names; exact List.mem_append.mpr (.inr (List.mem_map.mpr ⟨e, he, rfl⟩)))]
      simp
    have m : ∀ n, n ∈ names → opt n a = false := hn
    unfold wishOf
    rw [h1]
    unfold titlesOf takesValue
    rw [hm "header" (by simp [names]), hm "noheader" (by simp [names]), hm "nullvalue" (by simp [names]),
      hm "separator" (by simp [names])]
    unfold wish
    rw [m "ascii" (by simp [names]), m "box" (by simp [names, styles]), m "column" (by simp [names, styles]),
      m "csv" (by simp [names, styles]), m "header" (by simp [names]), m "noheader" (by simp [names]),
      m "html" (by simp [names, styles]), m "explain" (by simp [names, styles]), m "eqp" (by simp [names, styles]),
      m "explainqueryplan" (by simp [names, styles]), m "json" (by simp [names, styles]), m "line" (by simp [names, styles]),
      m "list" (by simp [names, styles]), m "markdown" (by simp [names, styles]), m "nullvalue" (by simp [names]),
      m "quote" (by simp [names, styles]), m "separator" (by simp [names]), m "table" (by simp [names, styles])]
    rfl

/-- The value of the last of the names that has one. -/
def lastOf {α : Type} (f : Bytes × Option Bytes → Option α) (l : List Bytes) (dflt : α) : α :=
  ((pairs l).reverse.findSome? f).getD dflt

theorem last_cons {α : Type} (f : Bytes × Option Bytes → Option α) (x : Bytes × Option Bytes) (l : List (Bytes × Option Bytes)) (d : α) :
    ((x :: l).reverse.findSome? f).getD d = (l.reverse.findSome? f).getD ((f x).getD d) := by
  rw [List.reverse_cons, List.findSome?_append]
  cases l.reverse.findSome? f with
  | none => cases hx : f x <;> simp [hx]
  | some v => rfl

def valueFor (n : String) (x : Bytes × Option Bytes) : Option (Option Bytes) :=
  if named n x.1 && x.2.isSome then some x.2 else none

theorem opt_named (n : String) (a : Bytes) : opt n a = named n a := by
  unfold opt named
  rw [show str "-" = [45] from rfl, show str "--" = [45, 45] from rfl]
  rw [Bool.eq_iff_iff]
  simp only [List.cons_append, List.nil_append, Bool.or_eq_true, beq_iff_eq, decide_eq_true_eq]

theorem styleOf_not_value {a : Bytes} (h : takesValue a = true) : styleOf a = none ∧ titlesOf a = none ∧ a ≠ [] := by
  have : a ∈ ["nullvalue", "separator"].flatMap (fun n => [45 :: str n, 45 :: 45 :: str n]) := by
    unfold takesValue at h
    rw [← opt_named, ← opt_named] at h
    simp only [opt, Bool.or_eq_true, beq_iff_eq] at h
    rcases h with (h | h) | (h | h) <;> rw [h] <;> decide +kernel
  revert a
  have : ∀ a ∈ ["nullvalue", "separator"].flatMap (fun n => [45 :: str n, 45 :: 45 :: str n]),
      styleOf a = none ∧ titlesOf a = none ∧ a ≠ [] := by decide +kernel
  intro a _ h
  exact this a h

theorem style_titles {a : Bytes} {st : Style} (h : styleOf a = some st) : titlesOf a = none := by
  by_cases hk : a ∈ known
  · revert st
    have : ∀ a ∈ known, styleOf a ≠ none → titlesOf a = none := by decide +kernel
    intro st h
    exact this a hk (by rw [h]; simp)
  · exfalso
    unfold styleOf at h
    cases hf : styles.find? (fun e => named e.1 a) with
    | none => rw [hf] at h; cases h
    | some e =>
      have h1 := List.mem_of_find?_eq_some hf
      have h2 := List.find?_some hf
      rw [← opt_named] at h2
      refine hk (List.mem_flatMap.mpr ⟨e.1, List.mem_append.mpr (.inr (List.mem_map.mpr ⟨e, h1, rfl⟩)), ?_⟩)
      simp only [opt, Bool.or_eq_true, beq_iff_eq] at h2
      simp only [List.mem_cons, List.not_mem_nil, or_false]
      exact h2

/-- What a list of arguments means. -/
def meaning (l : List Bytes) (k : Look) : Look :=
  { style := lastOf (fun x => styleOf x.1) l k.style
    titles := lastOf (fun x => titlesOf x.1) l k.titles
    sep := lastOf (valueFor "separator") l k.sep
    null := lastOf (valueFor "nullvalue") l k.null }

/-- An argument that takes no value. -/
theorem name_run {a : Bytes} (hv : takesValue a = false) (k : Look) :
    Look.arg (k, []) a = ({ k with style := (styleOf a).getD k.style, titles := (titlesOf a).getD k.titles }, []) := by
  unfold Look.arg
  simp only [ne_eq, not_true_eq_false, if_false]
  unfold Look.name
  rw [wish_eq]
  unfold wishOf
  cases hs : styleOf a with
  | some st => simp [style_titles hs]
  | none => cases ht : titlesOf a <;> simp [hv]

theorem value_run {a v : Bytes} (hv : takesValue a = true) (k : Look) :
    Look.arg (Look.arg (k, []) a) v =
      ({ k with sep := (valueFor "separator" (a, some v)).getD k.sep, null := (valueFor "nullvalue" (a, some v)).getD k.null }, []) := by
  obtain ⟨h1, h2, h3⟩ := styleOf_not_value hv
  have e : Look.arg (k, []) a = (k, a) := by
    unfold Look.arg
    simp only [ne_eq, not_true_eq_false, if_false]
    unfold Look.name
    rw [wish_eq]
    unfold wishOf
    rw [h1, h2]
    simp [hv]
  rw [e]
  unfold Look.arg
  simp only [ne_eq, h3, not_false_eq_true, if_true]
  rw [opt_named, opt_named]
  have hx : named "nullvalue" a = true → named "separator" a = false := by
    intro h
    have : a ∈ [str "-nullvalue", str "--nullvalue"] := by
      simp only [named, decide_eq_true_eq] at h
      rcases h with h | h <;> rw [h] <;> decide +kernel
    revert h
    have k : ∀ a ∈ [str "-nullvalue", str "--nullvalue"], named "separator" a = false := by decide +kernel
    intro _
    exact k a this
  unfold takesValue at hv
  unfold valueFor
  cases hn : named "nullvalue" a with
  | true => simp [hx hn]
  | false =>
    rw [hn] at hv
    simp only [Bool.false_or] at hv
    simp [hv]

theorem look_fold : ∀ (l : List Bytes) (k : Look), (l.foldl Look.arg (k, [])).1 = meaning l k
  | [], k => by simp [meaning, lastOf, pairs]
  | [a], k => by
    rw [List.foldl_cons, List.foldl_nil]
    unfold meaning lastOf pairs
    cases hv : takesValue a with
    | true =>
      obtain ⟨h1, h2, _⟩ := styleOf_not_value hv
      unfold Look.arg
      simp only [ne_eq, not_true_eq_false, if_false]
      unfold Look.name
      rw [wish_eq]
      unfold wishOf
      rw [h1, h2]
      simp [hv]
    | false =>
      rw [name_run hv]
      simp only [Bool.false_eq_true, if_false, last_cons]
      simp [valueFor]
  | a :: v :: rest, k => by
    cases hv : takesValue a with
    | true =>
      rw [List.foldl_cons, List.foldl_cons, value_run hv, look_fold rest]
      obtain ⟨h1, h2, _⟩ := styleOf_not_value hv
      unfold meaning lastOf
      rw [show pairs (a :: v :: rest) = (a, some v) :: pairs rest by rw [pairs, hv]; rfl]
      simp only [last_cons, h1, h2, Option.getD_none]
    | false =>
      rw [List.foldl_cons, name_run hv, look_fold (v :: rest)]
      unfold meaning lastOf
      rw [show pairs (a :: v :: rest) = (a, none) :: pairs (v :: rest) by rw [pairs, hv]; rfl]
      simp only [last_cons]
      simp [valueFor]

/-- C94.  The last style asked for is used, the last of `-header` and `-noheader`, and the last values given for the
separator and for NULL; a value is taken as it is, also if it looks like a name; everything else is ignored. -/
theorem c94_look (s : Bytes) :
    (parseArgs s).style = lastOf (fun x => styleOf x.1) (split s) .list ∧
    (parseArgs s).titles = lastOf (fun x => titlesOf x.1) (split s) .on ∧
    (parseArgs s).sep = lastOf (valueFor "separator") (split s) none ∧
    (parseArgs s).null = lastOf (valueFor "nullvalue") (split s) none := by
  unfold parseArgs
  rw [look_fold]
  exact ⟨rfl, rfl, rfl, rfl⟩

example : parseArgs (str "-csv -separator -json --whatever -noheader -nullvalue 'N A' --box") =
    { style := .box, titles := .off, sep := some (str "-json"), null := some (str "N A") } := by decide +kernel

end Bedrock.Query.Props
