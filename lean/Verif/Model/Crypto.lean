import Verif.Model.Text

/-!
# Encryption and keyed hashes

libstuff.cpp:2414-2484 (`SAESEncrypt`, `SAESDecrypt`, `SAESDecryptNoStrip`) and 2715-2753 (`SHMACSHA1`, `SHMACSHA256`).  The
block cipher and the hash functions are those of mbedtls, whose source is not in the repository; they are parameters here.
What `mbedtls_aes_crypt_cbc` does with blocks is the usual chaining.

Simplified: texts are shorter than 2 GiB; sizes are converted to `int` in between.
-/

namespace Bedrock.Crypto
open Bedrock

inductive Res where
  | ok (out : Bytes)
  /-- an assertion ends the process -/
  | abort
  /-- undefined behaviour: bytes outside of a buffer are read or written -/
  | ub
deriving DecidableEq, Repr

/-- A block cipher: key and block to block. -/
structure Cipher where
  enc : Bytes → Bytes → Bytes
  dec : Bytes → Bytes → Bytes

def xor (a b : Bytes) : Bytes := List.zipWith (· ^^^ ·) a b

/-- `mbedtls_aes_crypt_cbc` for `n` blocks, encrypting: each block is combined with the one encrypted before. -/
def cbcEnc (C : Cipher) (key : Bytes) : Nat → Bytes → Bytes → Bytes
  | 0, _, _ => []
  | n + 1, iv, s => C.enc key (xor (s.take 16) iv) ++ cbcEnc C key n (C.enc key (xor (s.take 16) iv)) (s.drop 16)

/-- `mbedtls_aes_crypt_cbc` for `n` blocks, decrypting. -/
def cbcDec (C : Cipher) (key : Bytes) : Nat → Bytes → Bytes → Bytes
  | 0, _, _ => []
  | n + 1, iv, s => xor (C.dec key (s.take 16)) iv ++ cbcDec C key n (s.take 16) (s.drop 16)

/-- Zeros up to a whole number of blocks, libstuff.cpp:2418-2421. -/
def pad (s : Bytes) : Bytes := if s.length % 16 ≠ 0 then s ++ List.replicate (16 - s.length % 16) 0 else s

/-- `SAESEncrypt`, libstuff.cpp:2414-2434.  16 bytes are copied from the vector, whose 15 bytes and terminating NUL would
do. -/
def encrypt (C : Cipher) (s iv key : Bytes) : Res :=
  if key.length ≠ 32 then .abort
  else if iv.length < 15 then .ub
  else .ok (cbcEnc C key ((pad s).length / 16) ((iv ++ [0]).take 16) (pad s))

/-- `SAESDecryptNoStrip` with a vector of 16 bytes, libstuff.cpp:2460-2476; `size`: `bufferSize`. -/
def decryptNoStrip (C : Cipher) (s : Bytes) (size : Nat) (iv key : Bytes) : Res :=
  if key.length ≠ 32 then .abort
  else if s.length % 16 ≠ 0 then .ok []
  else if size < s.length then .ub
  else .ok (cbcDec C key (s.length / 16) iv s ++ List.replicate (size - s.length) 0)

/-- `SAESDecryptNoStrip` with a text for the vector, libstuff.cpp:2478-2484. -/
def decryptNoStripText (C : Cipher) (s : Bytes) (size : Nat) (iv key : Bytes) : Res :=
  if iv.length ≠ 16 then .abort else decryptNoStrip C s size iv key

/-- `SAESDecrypt`, libstuff.cpp:2437-2456. -/
def decrypt (C : Cipher) (s iv key : Bytes) : Res :=
  if iv.length ≠ 16 then .abort
  else match decryptNoStrip C s s.length iv key with
    | .ok out => .ok (out.takeWhile (· != 0))
    | r => r

/-- The loop of libstuff.cpp:2722-2726, `key[c]` into byte `c` of a pad; `none`: past the end of the pad. -/
def keyInto : (key pad : Bytes) → Option Bytes
  | [], p => some p
  | _ :: _, [] => none
  | k :: ks, p :: ps => (keyInto ks ps).map ((p ^^^ k) :: ·)

/-- `SHMACSHA1`, `SHMACSHA256`, libstuff.cpp:2715-2753, for either hash. -/
def hmac (hash : Bytes → Bytes) (key msg : Bytes) : Res :=
  match keyInto key (List.replicate 64 0x36), keyInto key (List.replicate 64 0x5c) with
  | some ipad, some opad => .ok (hash (opad ++ hash (ipad ++ msg)))
  | _, _ => .ub

end Bedrock.Crypto
