import Verif.Model.Basic

/-!
# A MySQL client's reading of the protocol

Written from the protocol's description (Protocol::LengthEncodedInteger, Protocol::Packet, text resultsets), not from
the server's code.
-/

namespace Bedrock.MySQL.Spec
open Bedrock

/-- An integer in little-endian byte order. -/
def le : Bytes → Nat
  | [] => 0
  | b :: bs => b.toNat + 256 * le bs

/-- The first `n` bytes and the rest, if there are so many. -/
def cut (n : Nat) (s : Bytes) : Option (Bytes × Bytes) := if s.length < n then none else some (s.take n, s.drop n)

/-- A length-encoded integer.  `0xFB` is NULL and `0xFF` an error packet; neither is an integer. -/
def readInt : Bytes → Option (Nat × Bytes)
  | [] => none
  | b :: s =>
    if b.toNat < 0xFB then some (b.toNat, s)
    else if b.toNat = 0xFC then (cut 2 s).map fun r => (le r.1, r.2)
    else if b.toNat = 0xFD then (cut 3 s).map fun r => (le r.1, r.2)
    else if b.toNat = 0xFE then (cut 8 s).map fun r => (le r.1, r.2)
    else none

/-- A length-encoded string. -/
def readStr (s : Bytes) : Option (Bytes × Bytes) := (readInt s).bind fun r => cut r.1 r.2

/-- `n` length-encoded strings; what follows them is left. -/
def readStrs : Nat → Bytes → Option (List Bytes × Bytes)
  | 0, s => some ([], s)
  | n + 1, s => (readStr s).bind fun r => (readStrs n r.2).map fun q => (r.1 :: q.1, q.2)

/-- One packet: three bytes of length, the sequence number, the payload. -/
def readPacket (s : Bytes) : Option ((Nat × Bytes) × Bytes) :=
  (cut 3 s).bind fun r => (cut 1 r.2).bind fun q => (cut (le r.1) q.2).map fun p => ((le q.1, p.1), p.2)

/-- `n` packets that carry the sequence numbers after `seq`, counted modulo 256: their payloads. -/
def readPackets : Nat → Nat → Bytes → Option (List Bytes × Bytes)
  | _, 0, s => some ([], s)
  | seq, n + 1, s => (readPacket s).bind fun r =>
    if r.1.1 = (seq + 1) % 256 then (readPackets (seq + 1) n r.2).map fun q => (r.1.2 :: q.1, q.2) else none

/-- An EOF packet: `0xFE` and fewer than nine bytes. -/
def isEof (p : Bytes) : Bool := p.head? == some 0xFE && decide (p.length < 9)

/-- The name of a column from its definition: the fifth string. -/
def columnName (p : Bytes) : Option Bytes := (readStrs 5 p).bind fun r => r.1[4]?

/-- Rows up to the EOF packet; `fuel` bounds the number of packets. -/
def readRows (cols : Nat) : Nat → Nat → Bytes → Option (List (List Bytes) × Bytes)
  | 0, _, _ => none
  | fuel + 1, seq, s => (readPacket s).bind fun r =>
    if r.1.1 = (seq + 1) % 256 then
      if isEof r.1.2 then some ([], r.2)
      else (readStrs cols r.1.2).bind fun row =>
        (readRows cols fuel (seq + 1) r.2).map fun q => (row.1 :: q.1, q.2)
    else none

/-- A whole text resultset: names of columns, rows, and what follows in the stream. -/
def readResult (fuel seq : Nat) (s : Bytes) : Option ((List Bytes × List (List Bytes)) × Bytes) :=
  (readPackets seq 1 s).bind fun r => match r.1 with
    | [p] => (readInt p).bind fun n =>
      (readPackets (seq + 1) (n.1 + 1) r.2).bind fun q =>
        if (q.1.getLast?.map isEof) = some true then
          ((q.1.take n.1).mapM columnName).bind fun names =>
            (readRows n.1 fuel (seq + 1 + (n.1 + 1)) q.2).map fun rows => ((names, rows.1), rows.2)
        else none
    | _ => none

end Bedrock.MySQL.Spec
