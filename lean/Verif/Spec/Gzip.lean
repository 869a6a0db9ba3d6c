import Verif.Model.Gzip

/-!
# What a gzip library does, and one that does it

`Lawful` says what the format promises (RFC 1952): a complete member is read back whatever follows
it, and a member that is cut short is recognised as such.  `stored` is a library that never
compresses: it writes the "stored" blocks of RFC 1951, as zlib itself does for a text it cannot
compress.
-/

namespace Bedrock.Gzip.Spec
open Bedrock.Text

/-- The promises of the format. -/
structure Lawful (z : Zlib) : Prop where
  /-- a complete member is read back, and what follows it is left alone -/
  reads : ∀ x r, z.inflate (z.stream x ++ r) = ⟨x, .done, r⟩
  /-- a member that is cut short yields a beginning of the text and is known to be cut short -/
  cut : ∀ x p q, p ++ q = z.stream x → q ≠ [] →
    ∃ y s, z.inflate p = ⟨y, .more, s⟩ ∧ y <+: x

/-- The complete member for a text fits into the output buffer. -/
def Fits (z : Zlib) (x : Bytes) : Prop := (z.stream x).length ≤ x.length + x.length / 1000 + 20

/-! ## A library that stores -/

/-- The header of a member: magic, deflate, no flags, no time, best compression, Unix. -/
def head : Bytes := [31, 139, 8, 0, 0, 0, 0, 0, 2, 3]

/-- One step of the checksum of RFC 1952, on one bit. -/
def crcBit (c : UInt32) : UInt32 := if c &&& 1 = 1 then (c >>> 1) ^^^ 0xEDB88320 else c >>> 1

def crcByte (c : UInt32) (b : UInt8) : UInt32 :=
  crcBit (crcBit (crcBit (crcBit (crcBit (crcBit (crcBit (crcBit (c ^^^ b.toUInt32))))))))

/-- The checksum of a text. -/
def crc (x : Bytes) : UInt32 := x.foldl crcByte 0xFFFFFFFF ^^^ 0xFFFFFFFF

def le32 (n : UInt32) : Bytes :=
  [n.toUInt8, (n >>> 8).toUInt8, (n >>> 16).toUInt8, (n >>> 24).toUInt8]

/-- The end of a member: checksum and size. -/
def tail (x : Bytes) : Bytes := le32 (crc x) ++ le32 (UInt32.ofNat x.length)

/-- The header of a stored block: is it the last, its length, and the complement of its length. -/
def blockHead (last : Bool) (n : Nat) : Bytes :=
  let lo := UInt8.ofNat (n % 256)
  let hi := UInt8.ofNat (n / 256)
  [if last then 1 else 0, lo, hi, 255 - lo, 255 - hi]

/-- Stored blocks of at most 65535 bytes. -/
def blocks : Nat → Bytes → Bytes
  | 0, _ => []
  | fuel + 1, x =>
    if x.length ≤ 65535 then blockHead true x.length ++ x
    else blockHead false 65535 ++ x.take 65535 ++ blocks fuel (x.drop 65535)

def member (x : Bytes) : Bytes := head ++ blocks (x.length + 1) x ++ tail x

def readTail (x s : Bytes) : Inflated :=
  if s.length < 8 then ⟨x, .more, []⟩
  else if s.take 8 = tail x then ⟨x, .done, s.drop 8⟩ else ⟨x, .bad, []⟩

def readBlocks : Nat → Bytes → Bytes → Inflated
  | 0, acc, _ => ⟨acc, .bad, []⟩
  | fuel + 1, acc, s =>
    match s with
    | b :: lo :: hi :: lo' :: hi' :: s =>
      let n := lo.toNat + 256 * hi.toNat
      if 1 < b ∨ lo' ≠ 255 - lo ∨ hi' ≠ 255 - hi then ⟨acc, .bad, []⟩
      else if s.length < n then ⟨acc ++ s, .more, []⟩
      else if b = 1 then readTail (acc ++ s.take n) (s.drop n)
      else readBlocks fuel (acc ++ s.take n) (s.drop n)
    | _ => ⟨acc, .more, []⟩

def readMember (s : Bytes) : Inflated :=
  if s.length < 10 then ⟨[], if s <+: head then .more else .bad, []⟩
  else if s.take 10 = head then readBlocks (s.length + 1) [] (s.drop 10)
  else ⟨[], .bad, []⟩

/-- A library that never compresses. -/
def stored : Zlib := { stream := member, inflate := readMember }

end Bedrock.Gzip.Spec
