import Verif.Model.Text

/-!
# The compression plugin

plugins/Compression.cpp: the SQL functions `compress` and `decompress`, and their C++ counterparts.  The zstd library is
a parameter; what is assumed of it is `Zstd.Sound`.  Failures to allocate a context or a buffer are not modelled.
-/

namespace Bedrock.Compression
open Bedrock Bedrock.Text

/-- What the plugin calls of zstd.  `Dict` is a dictionary as it is stored in a row. -/
structure Zstd (Dict : Type) where
  /-- the ID inside the dictionary's own header; 0 for a dictionary of raw content -/
  ownId : Dict → Nat
  /-- `ZSTD_isFrame` -/
  isFrame : Bytes → Bool
  /-- `ZSTD_getDictID_fromFrame` -/
  frameId : Bytes → Nat
  /-- `ZSTD_getFrameContentSize`; `none`: unknown or error -/
  contentSize : Bytes → Option Nat
  /-- `ZSTD_compress_usingCDict`, with the dictionary ID in the frame; `none`: error -/
  comp : Dict → Bytes → Option Bytes
  /-- `ZSTD_decompress_usingDDict`; `none`: error -/
  decomp : Option Dict → Bytes → Option Bytes

/-- Assumed of zstd: what is compressed is a frame that names the dictionary's own ID and the length, and the same
dictionary gives the data back.  Nothing is assumed about frames and dictionaries that do not belong together. -/
structure Zstd.Sound {Dict : Type} (z : Zstd Dict) : Prop where
  frame : ∀ d x y, z.comp d x = some y → z.isFrame y = true ∧ z.frameId y = z.ownId d ∧ z.contentSize y = some x.length ∧ y ≠ []
  back : ∀ d x y, z.comp d x = some y → z.decomp (some d) y = some x

/-- A value in SQL. -/
inductive Val where
  | null
  | int (v : Int)
  | text (s : Bytes)
  | blob (s : Bytes)
  deriving DecidableEq, Repr

/-- `sqlite3_value_blob`, `sqlite3_value_bytes`. -/
def Val.bytes : Val → Bytes
  | .null => []
  | .int v => intDec v
  | .text s => s
  | .blob s => s

/-- `sqlite3_value_int64`. -/
def Val.int64 : Val → Int
  | .null => 0
  | .int v => v
  | .text s => strtoll s
  | .blob s => strtoll s

/-- The result of an SQL function. -/
inductive SqlResult where
  | value (v : Val)
  | error
  deriving DecidableEq, Repr

/-- The dictionaries that were loaded, `_dictionaries`: by the ID of the row, Compression.cpp:84-103. -/
abbrev Dicts (Dict : Type) := Nat → Option Dict

/-- `sqliteCompress`, Compression.cpp:110-176. -/
def sqlCompress {Dict : Type} (z : Zstd Dict) (dicts : Dicts Dict) (data id : Val) : SqlResult :=
  if data = .null then .value .null
  else if id = .null then .value data
  else if id.int64 % 2 ^ 64 = 0 then .value data
  else match dicts (id.int64 % 2 ^ 64).toNat with
    | none => .error
    | some d =>
      if data.bytes = [] then .value data
      else match z.comp d data.bytes with
        | none => .error
        | some y => .value (.blob y)

/-- `sqliteDecompress`, Compression.cpp:178-246. -/
def sqlDecompress {Dict : Type} (z : Zstd Dict) (dicts : Dicts Dict) (data : Val) : SqlResult :=
  if data = .null then .value .null
  else if data.bytes = [] ∨ z.isFrame data.bytes = false then .value data
  else if z.frameId data.bytes ≠ 0 ∧ dicts (z.frameId data.bytes) = none then .error
  else match z.contentSize data.bytes with
    | none => .error
    | some _ =>
      match z.decomp (if z.frameId data.bytes ≠ 0 then dicts (z.frameId data.bytes) else none) data.bytes with
      | none => .error
      | some x => .value (.text x)

/-- The result of the C++ functions: `SERROR` ends the process. -/
inductive Outcome where
  | ok (s : Bytes)
  | abort
  deriving DecidableEq, Repr

/-- `compress`, Compression.cpp:261-298. -/
def compress {Dict : Type} (z : Zstd Dict) (dicts : Dicts Dict) (input : Bytes) (id : Nat) : Outcome :=
  if id = 0 ∨ input = [] then .ok input
  else match dicts id with
    | none => .abort
    | some d => match z.comp d input with
      | none => .abort
      | some y => .ok y

/-- `decompress`, Compression.cpp:300-350: every failure returns the input. -/
def decompress {Dict : Type} (z : Zstd Dict) (dicts : Dicts Dict) (input : Bytes) : Bytes :=
  if input = [] then input
  else if z.isFrame input = false then input
  else if z.frameId input ≠ 0 ∧ dicts (z.frameId input) = none then input
  else match z.contentSize input with
    | none => input
    | some _ =>
      match z.decomp (if z.frameId input ≠ 0 then dicts (z.frameId input) else none) input with
      | none => input
      | some x => x

end Bedrock.Compression
