import Verif.Model.Json

/-!
# Model of query results: their text forms and reading them back

`/repo/libstuff/SQResult.cpp`, `SQResultFormatter.cpp` and `SQValue.cpp`.  A result is its column
names and its rows; a cell is the string that `SQValue::operator string` gives, which is all the
formatters see.
-/

namespace Bedrock.Results
open Bedrock.Text Bedrock.Json

/-- `SQValue`, SQValue.h:9-17,60-67.  A real number is kept as the text that
`sqlite3_snprintf("%!.15g")` prints for it; the number itself is not modelled. -/
inductive Value where
  | none
  | integer (i : Int)
  | real (printed : Bytes)
  | text (s : Bytes)
  | blob (s : Bytes)
  deriving DecidableEq, Repr

/-- `SQValue::operator string`, SQValue.cpp:30-50. -/
def Value.asString : Value → Bytes
  | .none => []
  | .integer i => intDec i
  | .real p => p
  | .text s => s
  | .blob s => s

/-- `SQResult`: column names and rows. -/
structure Result where
  headers : List Bytes
  rows : List (List Bytes)
  deriving DecidableEq, Repr

/-- The loops of the formatters: the fields with `d` before each but the first. -/
def sepBy (d : UInt8) : List Bytes → Bytes
  | [] => []
  | [x] => x
  | x :: y :: xs => x ++ d :: sepBy d (y :: xs)

/-- The fields of a row that the comma, tab and quote formats write, SQResultFormatter.cpp:371-376,
459-464, 496, 510: as many as there are column names, missing ones empty; all if there are no names. -/
def fields (headers row : List Bytes) : List Bytes :=
  if headers = [] then row else (List.range headers.length).map (fun j => row.getD j [])

/-- One output line for each row, after a line of column names if asked for. -/
def table (header : Bool) (r : Result) (head body : List Bytes → Bytes) : Bytes :=
  (if header then head r.headers ++ [10] else []) ++ r.rows.flatMap (fun row => body row ++ [10])

/-! ## CSV -/

/-- Doubling a quote, SQResultFormatter.cpp:344-352, 430-437. -/
def doubled (q : UInt8) (s : Bytes) : Bytes := s.flatMap (fun c => if c = q then [q, q] else [c])

/-- `needsQuoting`, SQResultFormatter.cpp:402-418. -/
def needsQuoting (s : Bytes) : Bool :=
  s.isEmpty || s.any (fun c => c == 44 || c == 34 || c == 10 || c == 13 || c ≤ 32 || 0x80 ≤ c)

/-- `quoteCSV`, SQResultFormatter.cpp:420-440. -/
def quoteCSV (s : Bytes) : Bytes :=
  if s = [] then [34, 34] else if !needsQuoting s then s else 34 :: (doubled 34 s ++ [34])

/-- `formatCSV`, SQResultFormatter.cpp:393-471. -/
def formatCSV (header : Bool) (r : Result) : Bytes :=
  table header r (fun h => sepBy 44 (h.map quoteCSV)) (fun row => sepBy 44 ((fields r.headers row).map quoteCSV))

/-! ## Quote -/

def isDigitChar (c : UInt8) : Bool := 48 ≤ c && c ≤ 57

/-- The exponent part, SQResultFormatter.cpp:322-337, and the end of the text. -/
def exponentEnd : Bytes → Bool
  | [] => true
  | c :: t =>
    if c = 101 ∨ c = 69 then
      let t := match t with
        | 43 :: t => t
        | 45 :: t => t
        | t => t
      !(t.takeWhile isDigitChar).isEmpty && (t.dropWhile isDigitChar).isEmpty
    else false

/-- `isNumeric`, SQResultFormatter.cpp:293-338. -/
def isNumeric (s : Bytes) : Bool :=
  let t := match s with
    | 43 :: t => t
    | 45 :: t => t
    | t => t
  let int := t.takeWhile isDigitChar
  let rest := t.dropWhile isDigitChar
  match rest with
  | 46 :: u =>
    (!int.isEmpty || !(u.takeWhile isDigitChar).isEmpty) && exponentEnd (u.dropWhile isDigitChar)
  | rest => !int.isEmpty && exponentEnd rest

/-- `quoteSQL`, SQResultFormatter.cpp:340-355. -/
def quoteSQL (s : Bytes) : Bytes := 39 :: (doubled 39 s ++ [39])

/-- `formatQuote`, SQResultFormatter.cpp:291-391. -/
def formatQuote (header : Bool) (r : Result) : Bytes :=
  table header r (fun h => sepBy 44 (h.map quoteSQL))
    (fun row => sepBy 44 ((fields r.headers row).map (fun c => if isNumeric c then c else quoteSQL c)))

/-! ## Tabs and list -/

/-- Trailing empty fields are not written, SQResultFormatter.cpp:497-505. -/
def trimEmpty (l : List Bytes) : List Bytes := (l.reverse.dropWhile List.isEmpty).reverse

/-- `formatTabs`, SQResultFormatter.cpp:473-517. -/
def formatTabs (header : Bool) (r : Result) : Bytes :=
  table header r (sepBy 9) (fun row => sepBy 9 (trimEmpty (fields r.headers row)))

/-- `formatList`, SQResultFormatter.cpp:519-552. -/
def formatList (header : Bool) (r : Result) : Bytes :=
  table header r (sepBy 124) (sepBy 124)

/-! ## Columns -/

/-- The continuation bytes after a lead byte, SQResultFormatter.cpp:76-84. -/
def trail : Nat → Nat → Bytes → Nat × Bytes × Bytes
  | 0, cp, s => (cp, [], s)
  | _ + 1, cp, [] => (cp, [], [])
  | k + 1, cp, b :: s =>
    if 0x80 ≤ b ∧ b < 0xC0 then
      let r := trail k (cp * 64 + b.toNat % 64) s
      (r.1, b :: r.2.1, r.2.2)
    else (cp, [], b :: s)

/-- `utf8Next`, SQResultFormatter.cpp:52-87: the code point, its bytes after the first, the rest. -/
def next (b : UInt8) (s : Bytes) : Nat × Bytes × Bytes :=
  if b < 0x80 then (b.toNat, [], s)
  else if 0xC0 ≤ b ∧ b < 0xE0 then trail 1 (b.toNat % 32) s
  else if 0xE0 ≤ b ∧ b < 0xF0 then trail 2 (b.toNat % 16) s
  else if 0xF0 ≤ b ∧ b < 0xF8 then trail 3 (b.toNat % 8) s
  else (0xFFFD, [], s)

/-- The loop `while (byteIndex < input.size()) utf8Next(…)` that `displayWidth` and `expandTabs` share:
the code points with their bytes.  The first argument bounds the rounds; each takes a byte. -/
def decodeF : Nat → Bytes → List (Nat × Bytes)
  | 0, _ => []
  | _ + 1, [] => []
  | f + 1, b :: s => ((next b s).1, b :: (next b s).2.1) :: decodeF f (next b s).2.2

def decode (s : Bytes) : List (Nat × Bytes) := decodeF s.length s

/-- `isCombining`, SQResultFormatter.cpp:89-101. -/
def isCombining (cp : Nat) : Bool :=
  (0x0300 ≤ cp && cp ≤ 0x036F) || (0x1AB0 ≤ cp && cp ≤ 0x1AFF) || (0x1DC0 ≤ cp && cp ≤ 0x1DFF) ||
  (0x20D0 ≤ cp && cp ≤ 0x20FF) || (0xFE20 ≤ cp && cp ≤ 0xFE2F) || cp == 0x200D || cp == 0x200C ||
  (0xFE00 ≤ cp && cp ≤ 0xFE0F)

/-- `isWide`, SQResultFormatter.cpp:103-122. -/
def isWide (cp : Nat) : Bool :=
  (0x1100 ≤ cp && cp ≤ 0x115F) || (0x2329 ≤ cp && cp ≤ 0x232A) || (0x2E80 ≤ cp && cp ≤ 0xA4CF) ||
  (0xAC00 ≤ cp && cp ≤ 0xD7A3) || (0xF900 ≤ cp && cp ≤ 0xFAFF) || (0xFE10 ≤ cp && cp ≤ 0xFE19) ||
  (0xFE30 ≤ cp && cp ≤ 0xFE6F) || (0xFF00 ≤ cp && cp ≤ 0xFF60) || (0xFFE0 ≤ cp && cp ≤ 0xFFE6) ||
  (0x1F300 ≤ cp && cp ≤ 0x1FAFF) || (0x1F900 ≤ cp && cp ≤ 0x1F9FF) || (0x2600 ≤ cp && cp ≤ 0x26FF) ||
  (0x2700 ≤ cp && cp ≤ 0x27BF)

/-- What a code point adds to the width, SQResultFormatter.cpp:129-142, 168-174. -/
def cpWidth (cp : Nat) : Nat :=
  if cp < 0x20 ∨ cp = 0x7F then 0 else if isCombining cp then 0 else if isWide cp then 2 else 1

/-- `displayWidth`, SQResultFormatter.cpp:124-145. -/
def displayWidth (s : Bytes) : Nat := ((decode s).map (fun x => cpWidth x.1)).sum

/-- `padToWidth`, SQResultFormatter.cpp:147-152. -/
def padToWidth (s : Bytes) (w : Nat) : Bytes := s ++ List.replicate (w - displayWidth s) 32

/-- `expandTabs`, SQResultFormatter.cpp:154-178; the first argument is `visualColumn`. -/
def expandGo : Nat → List (Nat × Bytes) → Bytes
  | _, [] => []
  | col, (cp, raw) :: l =>
    if cp = 9 then List.replicate (8 - col % 8) 32 ++ expandGo (col + (8 - col % 8)) l
    else raw ++ expandGo (col + cpWidth cp) l

def expandTabs (s : Bytes) : Bytes := expandGo 0 (decode s)

/-- A carriage return at the end of a line is dropped, SQResultFormatter.cpp:186-188. -/
def dropCR (s : Bytes) : Bytes := if s.getLast? = some 13 then s.dropLast else s

/-- The pieces of a text between line feeds. -/
def splitOn10 : Bytes → List Bytes
  | [] => [[]]
  | c :: s =>
    if c = 10 then [] :: splitOn10 s
    else match splitOn10 s with
      | [] => [[c]]
      | l :: ls => (c :: l) :: ls

/-- `splitLines`, SQResultFormatter.cpp:180-197. -/
def splitLines (s : Bytes) : List Bytes := (splitOn10 s).map dropCR

/-- The widest line of a cell, SQResultFormatter.cpp:206-213. -/
def cellWidth (c : Bytes) : Nat :=
  ((splitLines c).map (fun l => displayWidth (expandTabs l))).foldl max 0

/-- The cells of one row widen their columns, SQResultFormatter.cpp:205-214.  `none`: the row has more
cells than there are columns, and `maxColumnDisplayWidths[j]` is out of bounds (undefined behaviour). -/
def widen : List Nat → List Bytes → Option (List Nat)
  | ws, [] => some ws
  | [], _ :: _ => none
  | w :: ws, c :: cs => (widen ws cs).map (max w (cellWidth c) :: ·)

/-- `maxColumnDisplayWidths`, SQResultFormatter.cpp:199-215. -/
def widths (r : Result) : Option (List Nat) :=
  r.rows.foldlM widen (r.headers.map (fun h => displayWidth (expandTabs h)))

/-- Blanks at the end of a line are dropped, SQResultFormatter.cpp:233-235, 248-250, 280-282. -/
def rtrim (s : Bytes) : Bytes := (s.reverse.dropWhile (· = 32)).reverse

/-- One line of cells: all but the last padded, two blanks between, SQResultFormatter.cpp:223-232,
269-279. -/
def columnLine : List Nat → List Bytes → Bytes
  | _, [] => []
  | _, [c] => c
  | ws, c :: d :: cs => padToWidth c (ws.headD 0) ++ [32, 32] ++ columnLine ws.tail (d :: cs)

/-- The separator line, SQResultFormatter.cpp:240-247. -/
def dashes : List Nat → Bytes
  | [] => []
  | [w] => List.replicate w 45
  | w :: v :: ws => List.replicate w 45 ++ [32, 32] ++ dashes (v :: ws)

/-- The cells of physical line `k` of a row, SQResultFormatter.cpp:270-271. -/
def lineCells (row : List Bytes) (k : Nat) : List Bytes :=
  row.map (fun c => expandTabs ((splitLines c).getD k []))

/-- How many physical lines a row needs, SQResultFormatter.cpp:259-265. -/
def rowHeight (row : List Bytes) : Nat := (row.map (fun c => (splitLines c).length)).foldl max 1

/-- `formatColumn`, SQResultFormatter.cpp:45-289. -/
def formatColumn (header : Bool) (r : Result) : Option Bytes :=
  (widths r).map fun ws =>
    (if header then rtrim (columnLine ws (r.headers.map expandTabs)) ++ [10] ++ rtrim (dashes ws) ++ [10]
     else []) ++
    r.rows.flatMap (fun row =>
      (List.range (rowHeight row)).flatMap (fun k => rtrim (columnLine ws (lineCells row k)) ++ [10]))

/-! ## JSON -/

/-- `formatJSON`, SQResultFormatter.cpp:29-43; `SComposeJSONObject` is called without forcing strings. -/
def formatJSON (isFloat : Bytes → Bool) (header : Bool) (r : Result) : Option Bytes := do
  let h ← if header then (composeArray isFloat r.headers).map some else some none
  let rows ← r.rows.mapM (composeArray isFloat)
  let t ← composeArray isFloat rows
  composeObject isFloat false ((match h with
    | some h => [(str "headers", h)]
    | none => []) ++ [(str "rows", t)])

/-- What reading a result gives. -/
inductive Read where
  /-- `true`, with the result -/
  | done (r : Result)
  /-- `false`, with an empty result -/
  | refused
  /-- the process ends: `SASSERT(*ptr)` in the parser -/
  | abort
  /-- a row object is malformed: the columns seen before the error are kept; not modelled further -/
  | unclear
  deriving DecidableEq, Repr

/-- The names and values passed to the callback of `SParseJSONObject`, libstuff.cpp:1799-1828, in the
order of the text.  `none`: parse error. -/
def members (nv s : Bytes) : Parsed (Option (List (Bytes × Bytes))) :=
  if s.length < 2 then .ok (some [])
  else if s.headD 0 = 0 then .abort
  else
    match (match ws s with
      | [] => P.ok [] []
      | 123 :: t => object nv (fuel t) t
      | _ => .fail) with
    | .ok _ out => .ok (some out)
    | .fail => .ok none
    | .abort => .abort
    | .stuck => .abort

/-- The rows of the object form, SQResult.cpp:184-197: each must have as many values as there are
column names. -/
def readRows (n : Nat) : List Bytes → Read
  | [] => .done ⟨[], []⟩
  | x :: xs =>
    match parseArray (str "null") x with
    | .abort => .abort
    | .ok row =>
      if row.length = n then
        match readRows n xs with
        | .done r => .done { r with rows := row :: r.rows }
        | o => o
      else .refused

/-- The rows of the array form, SQResult.cpp:216-232: the values of each object in the order of its
text. -/
def readObjects : List Bytes → Read
  | [] => .done ⟨[], []⟩
  | x :: xs =>
    match members [] x with
    | .abort => .abort
    | .ok none => .unclear
    | .ok (some ms) =>
      match readObjects xs with
      | .done r => .done { r with rows := ms.map Prod.snd :: r.rows }
      | o => o

/-- `SQResult::deserialize`, SQResult.cpp:149-243. -/
def deserialize (json : Bytes) : Read :=
  match json.find? (fun c => c = 91 ∨ c = 123) with
  | none => .refused
  | some c =>
    if c = 123 then
      match parseObject (str "null") json with
      | .abort => .abort
      | .ok t =>
        match t.find (str "headers"), t.find (str "rows") with
        | some h, some rs =>
          match parseArray (str "null") h, parseArray (str "null") rs with
          | .ok headers, .ok rows =>
            match readRows headers.length rows with
            | .done r => .done { r with headers := headers }
            | o => o
          | _, _ => .abort
        | _, _ => .refused
    else
      match parseArray (str "null") json with
      | .abort => .abort
      | .ok [] => .done ⟨[], []⟩
      | .ok (x :: xs) =>
        match members [] x with
        | .abort => .abort
        | .ok none => .unclear
        | .ok (some ms) =>
          match readObjects (x :: xs) with
          | .done r => .done { r with headers := ms.map Prod.fst }
          | o => o

end Bedrock.Results
