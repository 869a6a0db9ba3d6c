import Verif.Model.Text

/-!
# Socket buffers: `libstuff/SFastBuffer.cpp`, `SFastBuffer.h`
-/

namespace Bedrock.Buffer

abbrev Bytes := List UInt8

/-- `SFastBuffer`, SFastBuffer.h:8-30.  `size_t` is an unbounded natural number, except that the
subtraction that can wrap is modelled as it wraps.  `contentLength` is never read and is left out. -/
structure Buf where
  front : Nat := 0
  data : Bytes := []
  nextToCheck : Nat := 0
  headerLength : Nat := 0
deriving Repr, DecidableEq

/-- `size`, SFastBuffer.cpp:72-75. -/
def Buf.size (b : Buf) : Nat := b.data.length - b.front

/-- `empty`, SFastBuffer.cpp:67-70. -/
def Buf.empty (b : Buf) : Bool := b.size == 0

/-- The bytes at `c_str()` up to `size()`, SFastBuffer.cpp:77-80. -/
def Buf.view (b : Buf) : Bytes := b.data.drop b.front

/-- `clear`, SFastBuffer.cpp:82-89. -/
def Buf.clear (_ : Buf) : Buf := {}

/-- `consumeFront`, SFastBuffer.cpp:91-103.  Asking for more than there is moves `front` past the
end: `none`. -/
def Buf.consumeFront (b : Buf) (n : Nat) : Option Buf :=
  if b.data.length < b.front + n then none
  else if b.front + n = b.data.length then some b.clear
  else some { front := b.front + n, data := b.data, nextToCheck := b.front + n, headerLength := 0 }

/-- `append`, SFastBuffer.cpp:105-130.  `full` says whether the spare capacity of the string is less
than the number of bytes; it is up to the C++ library, so every history of answers is allowed.
Giving memory back (`shrink_to_fit`) does not change the contents. -/
def Buf.append (b : Buf) (full : Bool) (bytes : Bytes) : Buf :=
  if b.front ≠ 0 ∧ full = true then { front := 0, data := b.view ++ bytes, nextToCheck := 0, headerLength := 0 }
  else { b with data := b.data ++ bytes }

/-- `operator=`, SFastBuffer.cpp:138-146. -/
def Buf.assign (_ : Buf) (bytes : Bytes) : Buf := { data := bytes }

/-- The header length found for the `\n` at position `next`, SFastBuffer.cpp:33-49; 0 if it is not
part of a separator.  The second assignment overwrites the first.  `next - front - 1` wraps around
when `next = front`. -/
def headerAt (data : Bytes) (front next : Nat) : Nat :=
  let h := if next < data.length - 1 ∧ data[next + 1]? = some 10 then next - front else 0
  if next ≠ 0 ∧ next < data.length - 2 ∧ data[next - 1]? = some 13 ∧ data[next + 1]? = some 13 ∧
      data[next + 2]? = some 10 then
    if next ≤ front then 2 ^ 64 - 1 else next - front - 1
  else h

/-- The search loop, SFastBuffer.cpp:23-53: `data.find('\n', next)` and the checks, over the bytes
from `next` on. -/
def search (data : Bytes) (front : Nat) : Nat → Bytes → Nat
  | _, [] => 0
  | next, c :: rest =>
    if c = 10 ∧ headerAt data front next ≠ 0 then headerAt data front next
    else search data front (next + 1) rest

/-- `startsWithHTTPRequest`, SFastBuffer.cpp:12-65: the answer and the buffer afterwards. -/
def Buf.startsWithRequest (b : Buf) : Bool × Buf :=
  if b.size < 4 then (false, b)
  else
    let h := if b.headerLength = 0 then search b.data b.front b.nextToCheck (b.data.drop b.nextToCheck)
             else b.headerLength
    if h = 0 then (false, { b with nextToCheck := b.data.length - 4 })
    else (true, { b with headerLength := h })

/-- The operations a caller can perform. -/
inductive Op where
  | append (full : Bool) (bytes : Bytes)
  | consume (n : Nat)
  | clear
  | assign (bytes : Bytes)
  | query
deriving Repr, DecidableEq

/-- One operation; `none` if more bytes are consumed than there are. -/
def Buf.step (b : Buf) : Op → Option Buf
  | .append full bytes => some (b.append full bytes)
  | .consume n => b.consumeFront n
  | .clear => some b.clear
  | .assign bytes => some (b.assign bytes)
  | .query => some b.startsWithRequest.2

/-- A history. -/
def Buf.run (b : Buf) : List Op → Option Buf
  | [] => some b
  | op :: ops => (b.step op).bind (·.run ops)

end Bedrock.Buffer
