import Verif.Model.Compression
import Verif.Model.Https

/-!
# Model of the loading of dictionaries

`/repo/plugins/Compression.cpp:38-41` (`initializeFromDB`), `56-72` (the two searches), `76-111` (`loadDictionariesFromDB`), and the
call, `/repo/BedrockServer.cpp:118-121`.

`compile` stands for `ZSTD_createCDict` and `ZSTD_createDDict`: `none` if one of them fails.  The bytes of the memory that is then lost
are not here.  Nothing between `BedrockServer::sync` and the start of its thread catches the exception: the process ends.
-/

namespace Bedrock.DictLoad
open Bedrock Bedrock.Text Bedrock.Compression

/-- A row of `zstdDictionaries`: the ID, a 64-bit number, and the dictionary. -/
abbrev Row := Int × Bytes

/-- The key a row is found by, Compression.cpp:85: the text of the number, read as an unsigned one. -/
def rowKey (id : Int) : Nat := (Https.toUInt64 (intDec id)).toNat

/-- The loop, Compression.cpp:84-108: the dictionaries then, and the text of the exception, if there is one. -/
def loadRows {Dict : Type} (compile : Bytes → Option Dict) (dicts : Dicts Dict) : List Row → Dicts Dict × Option String
  | [] => (dicts, none)
  | (id, data) :: rest =>
    if data = [] then (dicts, some "Empty dictionary data")
    else match compile data with
      | none => (dicts, some "Failed to compile dictionary")
      | some d => loadRows compile (fun k => if k = rowKey id then some d else dicts k) rest

/-- `loadDictionariesFromDB`, Compression.cpp:76-111; `none`: the table cannot be read. -/
def load {Dict : Type} (compile : Bytes → Option Dict) (dicts : Dicts Dict) (rows : Option (List Row)) : Dicts Dict × Option String :=
  match rows with
  | none => (dicts, none)
  | some rows => loadRows compile dicts rows

/-- A start of the process, BedrockServer.cpp:118-121: no dictionary is there before.  `none`: the process ended. -/
def start {Dict : Type} (compile : Bytes → Option Dict) (rows : Option (List Row)) : Option (Dicts Dict) :=
  match load compile (fun _ => none) rows with
  | (d, none) => some d
  | (_, some _) => none

end Bedrock.DictLoad
