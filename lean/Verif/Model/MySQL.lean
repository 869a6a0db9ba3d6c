import Verif.Model.Search

/-!
# The MySQL port

plugins/MySQL.cpp: packets, length-encoded values, the packets of an answer, and the loop that takes packets out of the
receive buffer of a socket.
-/

namespace Bedrock.MySQL
open Bedrock Bedrock.Text

/-- `MySQLPacket`, MySQL.h:94-116. -/
structure Packet where
  sequenceID : UInt8
  payload : Bytes
  deriving DecidableEq, Repr

/-- The first `k` bytes of an integer in memory, on a little-endian machine: `memcpy`, `SAppend`. -/
def memory : Nat → Nat → Bytes
  | 0, _ => []
  | k + 1, v => UInt8.ofNat (v % 256) :: memory k (v / 256)

/-- `serialize`, MySQL.cpp:134-143: three bytes of the length, whatever it is. -/
def serialize (p : Packet) : Bytes := memory 3 p.payload.length ++ [p.sequenceID] ++ p.payload

/-- `deserialize`, MySQL.cpp:145-166: bytes consumed, and the packet object afterwards.  The sequence number is stored
even if the packet is not complete. -/
def deserialize (p : Packet) : Bytes → Nat × Packet
  | a :: b :: c :: s :: rest =>
    if rest.length < a.toNat + 256 * b.toNat + 65536 * c.toNat then (0, { p with sequenceID := s })
    else (4 + (a.toNat + 256 * b.toNat + 65536 * c.toNat),
      { sequenceID := s, payload := rest.take (a.toNat + 256 * b.toNat + 65536 * c.toNat) })
  | _ => (0, p)

/-- `lenEncInt`, MySQL.cpp:168-192; `val` is below `2 ^ 64`. -/
def lenEncInt (val : Nat) : Bytes :=
  if val < 251 then memory 1 val
  else if val < 2 ^ 16 then 0xFC :: memory 2 val
  else if val < 2 ^ 24 then 0xFD :: memory 3 val
  else 0xFE :: memory 8 val

/-- `lenEncStr`, MySQL.cpp:194-198. -/
def lenEncStr (s : Bytes) : Bytes := lenEncInt s.length ++ s

/-- The packet for one column, MySQL.cpp:260-292, without its header. -/
def columnPayload (name : Bytes) : Bytes :=
  lenEncStr (str "def") ++ lenEncStr (str "unknown") ++ lenEncStr (str "unknown") ++ lenEncStr (str "unknown") ++
    lenEncStr name ++ lenEncStr name ++ [0x0c] ++ memory 2 8 ++ memory 4 1024 ++ [254] ++ memory 2 0 ++ [0] ++ memory 2 0

/-- The payload that ends the columns and the rows, MySQL.cpp:296-299. -/
def eofPayload : Bytes := 0xFE :: memory 4 0

/-- The packet for one row, MySQL.cpp:303-312, without its header: the cells, and one more byte. -/
def rowPayload (row : List Bytes) : Bytes := row.flatMap lenEncStr ++ [0xFE]

/-- The payloads of an answer in the order they are sent, MySQL.cpp:248-320. -/
def responsePayloads (headers : List Bytes) (rows : List (List Bytes)) : List Bytes :=
  [lenEncInt headers.length] ++ headers.map columnPayload ++ [eofPayload] ++ rows.map rowPayload ++ [eofPayload]

/-- Each packet takes the next sequence number, `++sequenceID` on an `int` stored in a `uint8_t`. -/
def numbered (seq : Nat) : List Bytes → List Packet
  | [] => []
  | p :: ps => { sequenceID := UInt8.ofNat ((seq + 1) % 256), payload := p } :: numbered (seq + 1) ps

/-- `serializeQueryResponse`, MySQL.cpp:248-321. -/
def queryResponse (seq : Nat) (headers : List Bytes) (rows : List (List Bytes)) : Bytes :=
  (numbered seq (responsePayloads headers rows)).flatMap serialize

/-- `serializeOK`, MySQL.cpp:323-339. -/
def okPacket (seq : Nat) : Packet :=
  { sequenceID := UInt8.ofNat ((seq + 1) % 256)
    payload := lenEncInt 0 ++ lenEncInt 0 ++ lenEncInt 0 ++ memory 2 2 ++ memory 2 0 ++ str "OK" }

/-- `serializeERR`, MySQL.cpp:341-350; the code is cut to 16 bits. -/
def errPacket (seq code : Nat) (message : Bytes) : Packet :=
  { sequenceID := UInt8.ofNat ((seq + 1) % 256), payload := [0xFF] ++ memory 2 code ++ message }

/-- What the loop of `onPortRecv` takes out of a receive buffer, MySQL.cpp:375-381: the packets, and what stays. -/
def drain (p : Packet) (buf : Bytes) : List Packet × Bytes :=
  if h : (deserialize p buf).1 = 0 ∨ buf.length = 0 then ([], buf)
  else
    let r := drain (deserialize p buf).2 (buf.drop (deserialize p buf).1)
    ((deserialize p buf).2 :: r.1, r.2)
termination_by buf.length
decreasing_by simp only [List.length_drop]; omega

/-- A connection: bytes arrive in pieces, the loop runs after each with a packet object of its own. -/
def feed (buf : Bytes) : List Bytes → List Packet × Bytes
  | [] => ([], buf)
  | chunk :: chunks =>
    let r := drain ⟨0, []⟩ (buf ++ chunk)
    let r' := feed r.2 chunks
    (r.1 ++ r'.1, r'.2)

/-- What is done with one packet, MySQL.cpp:382-684: an answer is sent at once, or an internal request is made. -/
inductive Action where
  | answer (b : Bytes)
  | request (seq : UInt8) (query : Bytes)
  deriving DecidableEq, Repr

/-- The text of a query, MySQL.cpp:386-397: trimmed, ended by a semicolon, without a leading comment. -/
def queryOf (payload : Bytes) : Bytes :=
  let q := trim (payload.drop 1)
  let q := if q.getLast? = some 59 then q else q ++ [59]
  if (str "/*").isPrefixOf q then
    match findSub (str "*/") q with
    | some i => q.drop (i + 2)
    | none => q
  else q

/-- One packet, MySQL.cpp:382-684.  `special` stands for the queries with an answer or a translation of their own
(`Model/MySQLQuery.lean`). -/
def act (special : UInt8 → Bytes → Option Action) (p : Packet) : Action :=
  if p.payload.head? = some 3 then
    (special p.sequenceID (queryOf p.payload)).getD (.request p.sequenceID (queryOf p.payload))
  else .answer (serialize (okPacket p.sequenceID.toNat))

/-- One run of `onPortRecv`, MySQL.cpp:371-685: what is sent, and the request that is left in `request`. -/
def onPortRecv (special : UInt8 → Bytes → Option Action) (ps : List Packet) : Bytes × Option (UInt8 × Bytes) :=
  ps.foldl (fun acc p => match act special p with
    | .answer b => (acc.1 ++ b, acc.2)
    | .request s q => (acc.1, some (s, q))) ([], none)

end Bedrock.MySQL
