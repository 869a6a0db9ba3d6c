import Verif.Model.Basic

/-!
# Readers for the text forms of a query result

Written from RFC 4180 (CSV) and the SQL syntax of numbers and string literals; nothing of the model
is used.  Lines end with a line feed.  An empty line is a record without fields.
-/

namespace Bedrock.Results.Spec

/-- Where a CSV reader stands: at the start of a record, at the start of a later field, in a bare
field, in a quoted field, after a quote inside a quoted field. -/
inductive Csv where
  | record
  | field
  | bare
  | quoted
  | quote

/-- Read CSV.  `fs` are the finished fields of the current record and `f` the current field.  A quote
inside a bare field, and anything but a quote, comma or line feed after a closing quote, is refused, as
is a text that ends inside a record. -/
def csv : Csv → List Bytes → Bytes → Bytes → Option (List (List Bytes))
  | .record, _, _, [] => some []
  | _, _, _, [] => none
  | .record, fs, f, c :: s =>
    if c = 10 then (csv .record [] [] s).map ([] :: ·)
    else if c = 34 then csv .quoted fs f s
    else if c = 44 then csv .field (fs ++ [[]]) [] s
    else csv .bare fs (f ++ [c]) s
  | .field, fs, f, c :: s =>
    if c = 10 then (csv .record [] [] s).map ((fs ++ [[]]) :: ·)
    else if c = 34 then csv .quoted fs f s
    else if c = 44 then csv .field (fs ++ [[]]) [] s
    else csv .bare fs (f ++ [c]) s
  | .bare, fs, f, c :: s =>
    if c = 10 then (csv .record [] [] s).map ((fs ++ [f]) :: ·)
    else if c = 34 then none
    else if c = 44 then csv .field (fs ++ [f]) [] s
    else csv .bare fs (f ++ [c]) s
  | .quoted, fs, f, c :: s =>
    if c = 34 then csv .quote fs f s else csv .quoted fs (f ++ [c]) s
  | .quote, fs, f, c :: s =>
    if c = 34 then csv .quoted fs (f ++ [34]) s
    else if c = 10 then (csv .record [] [] s).map ((fs ++ [f]) :: ·)
    else if c = 44 then csv .field (fs ++ [f]) [] s
    else none

/-- The records of a CSV text. -/
def readCSV (s : Bytes) : Option (List (List Bytes)) := csv .record [] [] s

/-! ## SQL -/

def Digit (c : UInt8) : Prop := 48 ≤ c ∧ c ≤ 57

/-- A number: sign, digits with an optional point among them, exponent. -/
def Number (s : Bytes) : Prop :=
  ∃ sign int frac exp, s = sign ++ (int ++ (frac ++ exp)) ∧
    (sign = [] ∨ sign = [43] ∨ sign = [45]) ∧
    (∀ c ∈ int, Digit c) ∧
    (frac = [] ∧ int ≠ [] ∨ ∃ d, frac = 46 :: d ∧ (∀ c ∈ d, Digit c) ∧ (int ≠ [] ∨ d ≠ [])) ∧
    (exp = [] ∨ ∃ e g d, exp = e :: (g ++ d) ∧ (e = 101 ∨ e = 69) ∧ (g = [] ∨ g = [43] ∨ g = [45]) ∧
      d ≠ [] ∧ ∀ c ∈ d, Digit c)

/-- A value of an SQL list: a bare word or a string literal. -/
inductive Sql where
  | word (s : Bytes)
  | string (s : Bytes)
  deriving DecidableEq, Repr

/-- Read lines of SQL values between commas. -/
def sql : Csv → List Sql → Bytes → Bytes → Option (List (List Sql))
  | .record, _, _, [] => some []
  | _, _, _, [] => none
  | .record, fs, f, c :: s =>
    if c = 10 then (sql .record [] [] s).map ([] :: ·)
    else if c = 39 then sql .quoted fs f s
    else if c = 44 then none
    else sql .bare fs (f ++ [c]) s
  | .field, fs, f, c :: s =>
    if c = 10 then none
    else if c = 39 then sql .quoted fs f s
    else if c = 44 then none
    else sql .bare fs (f ++ [c]) s
  | .bare, fs, f, c :: s =>
    if c = 10 then (sql .record [] [] s).map ((fs ++ [.word f]) :: ·)
    else if c = 39 then none
    else if c = 44 then sql .field (fs ++ [.word f]) [] s
    else sql .bare fs (f ++ [c]) s
  | .quoted, fs, f, c :: s =>
    if c = 39 then sql .quote fs f s else sql .quoted fs (f ++ [c]) s
  | .quote, fs, f, c :: s =>
    if c = 39 then sql .quoted fs (f ++ [39]) s
    else if c = 10 then (sql .record [] [] s).map ((fs ++ [.string f]) :: ·)
    else if c = 44 then sql .field (fs ++ [.string f]) [] s
    else none

/-- The lines of values of an SQL text. -/
def readSQL (s : Bytes) : Option (List (List Sql)) := sql .record [] [] s

/-! ## Plain lines -/

/-- Read lines of fields with `d` between them and nothing quoted.  `fs`: the finished fields of the
line, `f`: the current one. -/
def lines (d : UInt8) : List Bytes → Bytes → Bytes → List (List Bytes)
  | _, _, [] => []
  | fs, f, c :: s =>
    if c = 10 then (fs ++ [f]) :: lines d [] [] s
    else if c = d then lines d (fs ++ [f]) [] s
    else lines d fs (f ++ [c]) s

def readLines (d : UInt8) (s : Bytes) : List (List Bytes) := lines d [] [] s

/-- A row as wide as the column names: cut, or filled up with empty cells.  Without column names, the
row itself. -/
def fit (headers row : List Bytes) : List Bytes :=
  if headers = [] then row
  else row.take headers.length ++ List.replicate (headers.length - row.length) []

/-- Fill a line up to `n` fields. -/
def pad (n : Nat) (l : List Bytes) : List Bytes := l ++ List.replicate (n - l.length) []

end Bedrock.Results.Spec
