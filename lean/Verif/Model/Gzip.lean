import Verif.Model.Http

/-!
# Compressed bodies: `SGZip` and `SGUnzip` (libstuff/libstuff.cpp:1851-1950)

zlib itself is not part of /repo.  It is a parameter: what the complete gzip member of a text is,
and what reading some bytes as a gzip member yields.  What the two functions of the code do around
it is modelled: the size of the output buffer, the narrowing of sizes to 32 bits, which of zlib's
answers count as success, and the loop over pieces of 16384 bytes.
-/

namespace Bedrock.Gzip
open Bedrock.Text

/-- How reading bytes as one gzip member ends. -/
inductive Verdict where
  /-- `Z_STREAM_END`: the member is complete and its checksum is right -/
  | done
  /-- the input ends inside the member: `inflate` says `Z_OK`, and `Z_BUF_ERROR` when called again -/
  | more
  /-- `Z_DATA_ERROR`, `Z_NEED_DICT`, `Z_MEM_ERROR` -/
  | bad
  deriving DecidableEq, Repr

/-- What reading some input yields: the text so far, how it ended, the input left. -/
structure Inflated where
  out : Bytes
  verdict : Verdict
  rest : Bytes := []
  deriving DecidableEq, Repr

/-- zlib, as far as the two functions can see it. -/
structure Zlib where
  /-- `deflateInit2` succeeds -/
  deflates : Bool := true
  /-- the complete gzip member for a text (libstuff.cpp:1871: best compression, gzip wrapper) -/
  stream : Bytes → Bytes
  /-- with an output buffer of this size, the buffer is full before the last block is begun, so that
  `deflateEnd` finds the stream busy and answers `Z_DATA_ERROR` -/
  busy : Bytes → Nat → Bool := fun _ _ => false
  /-- `inflateInit2` succeeds -/
  inflates : Bool := true
  inflate : Bytes → Inflated

/-- zlib's answers to `deflate`. -/
inductive Status where
  | ok | streamEnd | bufError
  deriving DecidableEq, Repr

/-- `deflate(&stream, Z_FINISH)` on a fresh stream with an output buffer of `room` bytes: all of the
member if it fits, `Z_OK` and as much as fits if it does not, `Z_BUF_ERROR` when there is no room at
all.  libstuff.cpp:1879. -/
def deflate (z : Zlib) (x : Bytes) (room : Nat) : Status × Bytes :=
  if room = 0 then (.bufError, [])
  else if (z.stream x).length ≤ room then (.streamEnd, z.stream x)
  else (.ok, (z.stream x).take room)

/-- `(unsigned int)`. -/
def u32 (n : Nat) : Nat := n % 2 ^ 32

/-- The size of the output buffer for `n` bytes of input, an `unsigned int`.  libstuff.cpp:1865. -/
def room (n : Nat) : Nat := u32 (n + n / 1000 + 20)

/-- `SGZip`, libstuff.cpp:1852-1900; the empty text is the failure.  The size of the content is
narrowed to 32 bits (1861), so only that many bytes are compressed.  The memory of the output buffer
is not modelled (it is lost when `deflateInit2` fails). -/
def sgzip (z : Zlib) (content : Bytes) : Bytes :=
  let n := u32 content.length
  if !z.deflates then [] else
    match deflate z (content.take n) (room n) with
    | (.bufError, _) => []
    | (.streamEnd, out) => out
    | (.ok, out) => if z.busy (content.take n) (room n) then [] else out

/-- `CHUNK`, libstuff.cpp:1904. -/
def chunk : Nat := 16384

/-- The loop of `SGUnzip`, libstuff.cpp:1927-1942.  `left` is the text zlib has still to deliver.  A
call fills the piece, or delivers what is left and says how the input ended.  `none` is the error.
The first argument bounds the number of calls. -/
def pieces (v : Verdict) : Nat → Bytes → Bytes → Option Bytes
  | 0, _, _ => none
  | fuel + 1, left, data =>
    if chunk ≤ left.length then pieces v fuel (left.drop chunk) (data ++ left.take chunk)
    else if v = .bad then none
    else some (data ++ left)

/-- `SGUnzip`, libstuff.cpp:1903-1950. -/
def sgunzip (z : Zlib) (content : Bytes) : Bytes :=
  if !z.inflates then [] else
    let i := z.inflate (content.take (u32 content.length))
    (pieces i.verdict (i.out.length + 1) i.out []).getD []

/-- `SComposeHTTP` with the `SGZip` of this file, libstuff.cpp:1337-1386. -/
def compose (z : Zlib) (m : Http.Msg) : Option Bytes := Http.compose (sgzip z) m

end Bedrock.Gzip
