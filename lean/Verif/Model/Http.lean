import Verif.Model.Text

/-!
# Model of the message format: `SComposeHTTP`, `SParseHTTP`, `SData`

`/repo/libstuff/libstuff.cpp:893-1154` (parser), `1337-1386` (composer), `libstuff/SData.cpp`.

Buffers are shorter than 2^31 bytes: lengths and return values are `int` in the code.
Reads one byte past a line (`libstuff.cpp:1103-1106`) land on the terminating NUL of the
`std::string` all callers parse from.
-/

namespace Bedrock.Http
open Bedrock.Text

/-! ## `STable`: a `std::map` with case-insensitive keys (libstuff.cpp:3685-3693) -/

/-- `lexicographical_compare` of byte strings. -/
def lexLt : Bytes → Bytes → Bool
  | _, [] => false
  | [], _ :: _ => true
  | a :: s, b :: t => if a < b then true else if b < a then false else lexLt s t

/-- `STableComp::operator()`, libstuff.cpp:3685-3693: `tolower` on both sides. -/
def keyLt (a b : Bytes) : Bool := lexLt (sToLower a) (sToLower b)

/-- The entries of a table in iteration order. -/
abbrev Table := List (Bytes × Bytes)

/-- `table[name] = value`: an existing key keeps its spelling. -/
def Table.set (n v : Bytes) : Table → Table
  | [] => [(n, v)]
  | (m, w) :: t =>
    if keyLt n m then (n, v) :: (m, w) :: t
    else if keyLt m n then (m, w) :: Table.set n v t
    else (m, v) :: t

/-- `table.find(name)`. -/
def Table.find (n : Bytes) : Table → Option Bytes
  | [] => none
  | (m, w) :: t => if keyLt n m || keyLt m n then Table.find n t else some w

/-- `table.erase(name)`. -/
def Table.erase (n : Bytes) : Table → Table
  | [] => []
  | (m, w) :: t => if keyLt n m || keyLt m n then (m, w) :: Table.erase n t else t

/-- `SData`: method line, headers, content (SData.h:11-17). -/
structure Msg where
  methodLine : Bytes := []
  table : Table := []
  content : Bytes := []
  deriving DecidableEq, Repr

/-! ## Composing: libstuff.cpp:1337-1386 -/

/-- `S_COOKIE_SEPARATOR`, libstuff.cpp:89. -/
def cookieSep : UInt8 := 255

def crlf : Bytes := [13, 10]

def sContentLength : Bytes := str "Content-Length"
def sSetCookie : Bytes := str "Set-Cookie"
def sContentEncoding : Bytes := str "Content-Encoding"
def sTransferEncoding : Bytes := str "Transfer-Encoding"
def sGzip : Bytes := str "gzip"
def sChunked : Bytes := str "chunked"
def sColon : Bytes := str ": "

/-- The characters `SComposeHTTP` refuses in a method line, libstuff.cpp:1345-1349. -/
def badMethodChar (c : UInt8) : Bool := c != 9 && (c < 32 || c == 127)

/-- The lines written for one table entry, libstuff.cpp:1352-1371. -/
def composeEntry (e : Bytes × Bytes) : Bytes :=
  if sIEquals sSetCookie e.1 then
    (parseList e.2 cookieSep).1.flatMap fun cookie => sSetCookie ++ sColon ++ cookie ++ crlf
  else if sIEquals sContentLength e.1 then []
  else if sIEquals sContentEncoding e.1 ∧ sIEquals sGzip e.2 then []
  else e.1 ++ sColon ++ escape e.2 (str "\r\n\t") 92 ++ crlf

/-- Does the table ask for compression?  libstuff.cpp:1366-1367. -/
def wantsGzip (e : Bytes × Bytes) : Bool :=
  !sIEquals sSetCookie e.1 && !sIEquals sContentLength e.1 &&
    sIEquals sContentEncoding e.1 && sIEquals sGzip e.2

/-- `SComposeHTTP`, libstuff.cpp:1337-1386; `none` is the exception for a bad method line.  `gz` is
`SGZip` (see `Model/Gzip.lean`); it returns an empty string on failure. -/
def compose (gz : Bytes → Bytes) (m : Msg) : Option Bytes :=
  if m.methodLine.any badMethodChar then none else
    let tryGzip := m.table.any wantsGzip && !m.content.isEmpty
    let gzipContent := if tryGzip then gz m.content else []
    let finalContent := if gzipContent ≠ [] then gzipContent else m.content
    some (m.methodLine ++ crlf ++ m.table.flatMap composeEntry ++
      (if gzipContent ≠ [] then sContentEncoding ++ sColon ++ sGzip ++ crlf else []) ++
      sContentLength ++ sColon ++ natDec finalContent.length ++ crlf ++
      crlf ++ finalContent)

/-! ## Parsing: libstuff.cpp:893-1154 -/

/-- The result of `SParseHTTP`. -/
inductive Parsed where
  /-- returned 0: nothing consumed, no message -/
  | incomplete
  /-- returned the number of bytes consumed, with the message -/
  | ok (consumed : Nat) (msg : Msg)
  /-- an exception leaves the function (`stoll`, `string::resize`) -/
  | throws
  /-- undefined behaviour: a read or a copy outside the buffer -/
  | ub
  deriving DecidableEq, Repr

def isEol (c : UInt8) : Bool := c == 13 || c == 10

/-- Trimming of blanks (not other white space) on both sides: `_SParseHTTP_GetUpToEnd`
(libstuff.cpp:928-942) and the value of a header (1103-1115).  A range that becomes negative while
trimming yields no text. -/
def trimEndSp (s : Bytes) : Bytes := (s.reverse.dropWhile (· == 32)).reverse
def trimSp (s : Bytes) : Bytes := trimEndSp (s.dropWhile (· == 32))

/-- The parse state kept across lines, libstuff.cpp:947-957. -/
structure St where
  methodLine : Bytes := []
  table : Table := []
  content : Bytes := []
  name : Bytes := []
  chunked : Bool := false
  deriving DecidableEq, Repr

/-- `nameValueMap[name]` as a value: an absent key reads as empty (and is created). -/
def Table.get (n : Bytes) (t : Table) : Bytes := (t.find n).getD []

/-- A header or footer line, libstuff.cpp:1086-1132.  `name` keeps its previous value when the
line has no name (`_SParseHTTP_GetUpToNext` leaves `out` alone, 913-919). -/
def headerLine (st : St) (line : Bytes) : St :=
  if isSpace (line.headD 0) then
    if st.name ≠ [] then { st with table := st.table.set st.name (st.table.get st.name ++ line) }
    else { st with methodLine := st.methodLine ++ line }
  else
    let raw := trimEndSp (line.takeWhile (· ≠ 58))
    let name := if raw ≠ [] then raw else st.name
    if name ≠ [] then
      let value := trimSp ((line.dropWhile (· ≠ 58)).drop 1)
      let table := match st.table.find name with
        | some old =>
          if sIEquals name sSetCookie then st.table.set name (old ++ [cookieSep] ++ value)
          else st.table.set name (unescape value 92)
        | none => st.table.set name (unescape value 92)
      { st with name := name, table := table }
    else { st with name := name }

/-- `hexChunkLength`, libstuff.cpp:1051-1053: the text before a semicolon, if there is one. -/
def chunkSize (line : Bytes) : Bytes := (trimSp line).takeWhile (· ≠ 59)

/-- `SREMatch("^[a-fA-F0-9]{1,8}$", …)`, libstuff.cpp:1056. -/
def isChunkSize (s : Bytes) : Bool := 1 ≤ s.length && s.length ≤ 8 && s.all (fun c => (hexVal c).isSome)

/-- Consume the end of a line, libstuff.cpp:1137-1148. -/
def eatEol : Bytes → Bytes
  | 13 :: 10 :: r => r
  | 10 :: 13 :: r => r
  | 10 :: r => r
  | 13 :: r => r
  | r => r

/-- Consume up to two end-of-line characters, libstuff.cpp:984-988, 1005-1009. -/
def eatTwo : Bytes → Bytes
  | a :: b :: r => if isEol a then (if isEol b then r else b :: r) else a :: b :: r
  | [a] => if isEol a then [] else [a]
  | [] => []

/-- The blank line after the headers of a message that is not chunked, libstuff.cpp:1002-1036. -/
def finish (total : Nat) (st : St) (rest : Bytes) : Parsed :=
  let body := eatTwo rest
  match st.table.find sContentLength with
  | none => .ok total { methodLine := st.methodLine, table := st.table, content := body }
  | some l =>
    match stoll l with
    | none => .throws
    | some v =>
      let n := toInt32 v
      if (body.length : Int) < n then .incomplete
      else if n < 0 then .throws            -- content.resize of a huge size
      else .ok (total - body.length + n.toNat)
        { methodLine := st.methodLine, table := st.table, content := body.take n.toNat }

/-- The blank line that ends a chunked body, libstuff.cpp:979-998. -/
def finishChunked (total : Nat) (st : St) (rest : Bytes) : Parsed :=
  .ok (total - (eatTwo rest).length)
    { methodLine := st.methodLine
      table := (st.table.erase sTransferEncoding).set sContentLength (natDec st.content.length)
      content := st.content }

/-- What to do after a line: go on with a state and the remaining input, or stop. -/
inductive Next where
  | go (st : St) (rest : Bytes)
  | stop (r : Parsed)

/-- A chunk of `n ≠ 0` bytes announced by the line that ended before `eol`, libstuff.cpp:1060-1078.
`n` is an `int`: sizes from 80000000 up are negative, `resize` then throws or the `memcpy` has a
huge length. -/
def takeChunk (st : St) (n : Int) (eol : Bytes) : Next :=
  if n < 0 then
    if (st.content.length : Int) + n < 0 then .stop .throws else .stop .ub
  else if (eol.length : Int) ≤ 2 + n then .stop .incomplete
  else .go { st with content := st.content ++ (eol.drop 2).take n.toNat }
        (eatEol (eol.drop (2 + n.toNat)))

/-- One line of the main loop: `line` is not blank, `eol` the input from its end on.
`first`: the line starts at the first byte of the buffer, where trimming an all-blank line reads
before the buffer (libstuff.cpp:934). -/
def onLine (st : St) (line eol : Bytes) (first : Bool) : Next :=
  if st.methodLine = [] then
    if first && line.all (· == 32) then .stop .ub
    else .go { st with methodLine := trimSp line } (eatEol eol)
  else if st.chunked && isChunkSize (chunkSize line) then
    let n := toInt32 (fromHex (chunkSize line)).toNat
    if n = 0 then .go st (eatEol eol) else takeChunk st n eol
  else .go (headerLine st line) (eatEol eol)

/-- A blank line, libstuff.cpp:971-1041. -/
def onBlank (total : Nat) (st : St) (rest : Bytes) : Next :=
  if st.methodLine = [] then .go st (eatEol rest)
  else if st.chunked then .stop (finishChunked total st rest)
  else match st.table.find sTransferEncoding with
    | some v =>
      if sIEquals v sChunked then .go { st with chunked := true } (eatEol rest)
      else .stop (finish total st rest)
    | none => .stop (finish total st rest)

/-- One iteration of the main loop on non-empty input, libstuff.cpp:958-1148. -/
def onInput (total : Nat) (st : St) (input : Bytes) : Next :=
  let line := input.takeWhile (fun c => !isEol c)
  let eol := input.dropWhile (fun c => !isEol c)
  if eol = [] then .stop .incomplete
  else if line = [] then onBlank total st eol
  else onLine st line eol (input.length == total)

theorem eatEol_length (s : Bytes) : (eatEol s).length ≤ s.length := by
  unfold eatEol; split <;> simp <;> omega

theorem eatEol_lt (s : Bytes) (c : UInt8) (r : Bytes) (h : s = c :: r) (hc : isEol c = true) :
    (eatEol s).length < s.length := by
  subst h
  simp only [isEol, Bool.or_eq_true, beq_iff_eq] at hc
  cases hc with
  | inl e =>
    subst e
    cases r with
    | nil => simp [eatEol]
    | cons d r =>
      by_cases hd : d = 10
      · subst hd; simp [eatEol]; omega
      · unfold eatEol; split <;> simp_all <;> omega
  | inr e =>
    subst e
    cases r with
    | nil => simp [eatEol]
    | cons d r =>
      by_cases hd : d = 13
      · subst hd; simp [eatEol]; omega
      · unfold eatEol; split <;> simp_all <;> omega

/-- Every iteration consumes input. -/
theorem onInput_lt {total : Nat} {st st' : St} {input rest : Bytes}
    (h : onInput total st input = .go st' rest) : rest.length < input.length := by
  have hsum : (input.takeWhile (fun c => !isEol c)).length +
      (input.dropWhile (fun c => !isEol c)).length = input.length := by
    rw [← List.length_append, List.takeWhile_append_dropWhile]
  unfold onInput at h
  simp only at h
  split at h
  · cases h
  · rename_i hne
    generalize hl : input.takeWhile (fun c => !isEol c) = line at h hsum
    generalize he : input.dropWhile (fun c => !isEol c) = eol at h hsum hne
    obtain ⟨c, r, hcr⟩ : ∃ c r, eol = c :: r := by
      cases eol with
      | nil => exact absurd rfl hne
      | cons c r => exact ⟨c, r, rfl⟩
    have hc : isEol c = true := by
      have := List.head_dropWhile_not (l := input) (fun c => !isEol c) (by rw [he]; exact hne)
      simp only [he, hcr, List.head_cons] at this
      simpa using this
    have heat := eatEol_lt eol c r hcr hc
    split at h
    · unfold onBlank at h
      repeat' split at h
      all_goals first
        | (cases h; done)
        | (injection h with h1 h2; subst h2; omega)
    · unfold onLine at h
      split at h
      · split at h
        · cases h
        · injection h with h1 h2; subst h2; omega
      · split at h
        · simp only at h
          split at h
          · injection h with h1 h2; subst h2; omega
          · unfold takeChunk at h
            repeat' split at h
            all_goals first
              | (cases h; done)
              | (injection h with h1 h2; subst h2
                 have := eatEol_length (eol.drop (2 + (toInt32 ↑(fromHex (chunkSize line)).toNat).toNat))
                 rw [List.length_drop] at this
                 rename_i h0 h1 h2
                 omega)
        · injection h with h1 h2; subst h2; omega

/-- The main loop, libstuff.cpp:958-1154. -/
def run (total : Nat) (st : St) (input : Bytes) : Parsed :=
  if input = [] then .incomplete
  else
    match h : onInput total st input with
    | .stop r => r
    | .go st' rest => run total st' rest
  termination_by input.length
  decreasing_by exact onInput_lt h

/-- `SParseHTTP` / `SData::deserialize`, libstuff.cpp:945-1154, SData.cpp:122-157. -/
def parse (buffer : Bytes) : Parsed := run buffer.length {} buffer

/-- `SData::SData(const string&)`, SData.cpp:14-19: text that is not a message becomes the method
line. -/
def fromString (s : Bytes) : Option Msg :=
  match parse s with
  | .ok 0 _ | .incomplete => some { methodLine := s }
  | .ok _ m => some m
  | _ => none

/-- The receive loop of a connection: parse messages off the front of the buffer until no complete
message is left (SQLiteNode.cpp:2184-2190, SQLitePeer.cpp:196-203).
The messages and the buffer left over. -/
def drain : Nat → Bytes → List Msg × Bytes
  | 0, buf => ([], buf)
  | n + 1, buf =>
    match parse buf with
    | .ok (k + 1) m => let r := drain n (buf.drop (k + 1)); (m :: r.1, r.2)
    | _ => ([], buf)

/-- A connection: what it has delivered and what is still in its receive buffer. -/
structure Conn where
  delivered : List Msg := []
  buffer : Bytes := []

/-- Some bytes arrive and the receive loop runs. -/
def Conn.receive (c : Conn) (bytes : Bytes) : Conn :=
  let r := drain (c.buffer ++ bytes).length (c.buffer ++ bytes)
  { delivered := c.delivered ++ r.1, buffer := r.2 }

end Bedrock.Http
