import Verif.Model.Http
import Verif.Model.Https
import Verif.Model.Attr

/-!
# Model of the fields of a message

`/repo/libstuff/SData.cpp:5-105` and `/repo/libstuff/SData.h:30-75`: how plugins and the server write the fields of a request or an
answer, and read them.  Numbers are integers: `to_string` of a floating-point number is not here.
-/

namespace Bedrock.Fields
open Bedrock Text Http

/-- What is done to a message. -/
inductive Op where
  /-- `data[name]` is read, and `data` is not const: SData.cpp:23-26 -/
  | touch (n : Bytes)
  /-- `data[name] = value` or `data.set(name, value)` with a text: SData.cpp:23-26, SData.h:53-57 -/
  | put (n v : Bytes)
  /-- `data.set(name, value)` with an integer: SData.h:47-51 -/
  | setInt (n : Bytes) (i : Int)
  /-- `data.set(name, value)` with a bool: SData.cpp:38-41 -/
  | setBool (n : Bytes) (b : Bool)
  /-- `data[name] = value` with an integer: the reference is to a `string`, which takes the number as a character -/
  | assignInt (n : Bytes) (i : Int)
  /-- SData.cpp:50-53 -/
  | erase (n : Bytes)
  /-- SData.cpp:43-48 -/
  | clear
  /-- SData.cpp:55-65 -/
  | merge (t : Table)
  /-- SData.h:30-35 -/
  | emplace (n v : Bytes)

/-- `map::emplace` and one round of `map::insert`: an entry that is there stays. -/
def keep (t : Table) (e : Bytes × Bytes) : Table := if (t.find e.1).isSome then t else t.set e.1 e.2

/-- The text of a bool, SData.cpp:40. -/
def boolText (b : Bool) : Bytes := if b then str "true" else str "false"

/-- The message after the operation. -/
def step (m : Msg) : Op → Msg
  | .touch n => { m with table := keep m.table (n, []) }
  | .put n v => { m with table := m.table.set n v }
  | .setInt n i => { m with table := m.table.set n (intDec i) }
  | .setBool n b => { m with table := m.table.set n (boolText b) }
  | .assignInt n i => { m with table := m.table.set n [UInt8.ofInt i] }
  | .erase n => { m with table := m.table.erase n }
  | .clear => { methodLine := [], table := [], content := [] }
  | .merge t => { m with table := t.foldl keep m.table }
  | .emplace n v => { m with table := keep m.table (n, v) }

def run (m : Msg) (ops : List Op) : Msg := ops.foldl step m

/-- `empty`, SData.cpp:67-70. -/
def isEmpty (m : Msg) : Bool := m.methodLine.isEmpty && m.table.isEmpty && m.content.isEmpty

/-- `isSet`, SData.cpp:71-74. -/
def isSet (m : Msg) (n : Bytes) : Bool := (m.table.find n).isSome

/-- `operator[]` of a const message, SData.cpp:28-36. -/
def value (m : Msg) (n : Bytes) : Bytes :=
  match m.table.find n with
  | none => []
  | some v => v

/-- `calc64`, SData.cpp:81-89. -/
def calc64 (m : Msg) (n : Bytes) : Int :=
  match m.table.find n with
  | none => 0
  | some v => strtoll v

/-- `calc`, SData.cpp:76-79: the minimum of two `long`s, narrowed to `int`. -/
def calcInt (m : Msg) (n : Bytes) : Int := toInt32 (min (calc64 m n) 0x7fffffff)

/-- `calcU64`, SData.cpp:91-99. -/
def calcU64 (m : Msg) (n : Bytes) : UInt64 :=
  match m.table.find n with
  | none => 0
  | some v => Https.toUInt64 v

/-- `test`, SData.cpp:101-105. -/
def test (m : Msg) (n : Bytes) : Bool := sIEquals (value m n) (str "true") || calcInt m n != 0

end Bedrock.Fields
