import Verif.Model.Json
import Verif.Model.Base64
import Verif.Model.Search

/-!
# Outgoing HTTPS requests of a command

BedrockCommand.cpp: `serializeHTTPSRequests`, `deserializeHTTPSRequests`, `areHttpsRequestsComplete`,
`_waitForHTTPSRequests`; libstuff/SHTTPSManager.cpp: `getHTTPResponseCode`, `postPoll`.
-/

namespace Bedrock.Https
open Bedrock Bedrock.Text Bedrock.Http Bedrock.Json

/-! ## Escalation -/

/-- `SHTTPSManager::Transaction`, SHTTPSManager.h:10-31, without socket, request ID and scheduled start. -/
structure Transaction where
  created : UInt64
  finished : UInt64
  timeoutAt : UInt64
  /-- an `int` -/
  response : Int
  fullRequest : Msg
  fullResponse : Msg
  deriving DecidableEq, Repr

/-- The table written for one request, BedrockCommand.cpp:462-468; `none`: an exception. -/
def fields (gz : Bytes → Bytes) (t : Transaction) : Option Table := do
  let req ← compose gz t.fullRequest
  let req ← Base64.encode req
  let resp ← compose gz t.fullResponse
  let resp ← Base64.encode resp
  some (Table.set (str "fullResponse") resp (Table.set (str "fullRequest") req
    (Table.set (str "response") (intDec t.response) (Table.set (str "timeoutAt") (natDec t.timeoutAt.toNat)
      (Table.set (str "finished") (natDec t.finished.toNat) (Table.set (str "created") (natDec t.created.toNat) []))))))

/-- `serializeHTTPSRequests`, BedrockCommand.cpp:454-473. -/
def serialize (gz : Bytes → Bytes) (isFloat : Bytes → Bool) (l : List Transaction) : Option Bytes :=
  if l = [] then some [] else do
    let ts ← l.mapM (fields gz)
    let xs ← ts.mapM (composeObject isFloat false)
    composeArray isFloat xs

/-- `SToUInt64`, libstuff.cpp:3428-3431: `strtoull`. -/
def toUInt64 (s : Bytes) : UInt64 :=
  match scanDec (cstr s) with
  | none => 0
  | some v => if 2 ^ 64 ≤ v.natAbs then UInt64.ofNat (2 ^ 64 - 1) else UInt64.ofInt v

/-- `SToInt`, libstuff.cpp:3418-3421: `atoi`. -/
def toInt (s : Bytes) : Int := toInt32 (strtoll (cstr s))

/-- `SData::deserialize`, libstuff.cpp:945-1154: a message that is not complete leaves everything empty; `none`: an
exception or undefined behaviour. -/
def message (s : Bytes) : Option Msg :=
  match parse s with
  | .ok _ m => some m
  | .incomplete => some {}
  | _ => none

/-- `table[name]`: empty if there is none. -/
def get (name : Bytes) (t : Table) : Bytes := (Table.find name t).getD []

/-- One round of `deserializeHTTPSRequests`, BedrockCommand.cpp:435-444. -/
def transaction (t : Table) : Option Transaction := do
  let req ← message (Base64.decode (get (str "fullRequest") t))
  let resp ← message (Base64.decode (get (str "fullResponse") t))
  some { created := toUInt64 (get (str "created") t)
         finished := toUInt64 (get (str "finished") t)
         timeoutAt := toUInt64 (get (str "timeoutAt") t)
         response := toInt (get (str "response") t)
         fullRequest := req
         fullResponse := resp }

/-- `SParseJSONObject` with its assertion as `none`. -/
def object? (s : Bytes) : Option Table :=
  match parseObject (str "null") s with
  | .ok t => some t
  | .abort => none

/-- `deserializeHTTPSRequests`, BedrockCommand.cpp:428-452. -/
def deserialize (s : Bytes) : Option (List Transaction) :=
  if s = [] then some [] else
    match parseArray (str "null") s with
    | .abort => none
    | .ok l => l.mapM fun x => (object? x).bind transaction

/-! ## Response codes -/

/-- `getHTTPResponseCode`, SHTTPSManager.cpp:43-58. -/
def responseCode (line : Bytes) (dflt : Int) : Int :=
  match (line.dropWhile (· != 32)).dropWhile (· == 32) with
  | [] => dflt
  | s => if toInt s ≠ 0 then toInt s else dflt

/-! ## Polling one request -/

/-- What `postPoll` finds. -/
structure Poll where
  now : Nat
  /-- the bytes received so far -/
  recv : Bytes
  /-- `state == CLOSED` -/
  closed : Bool
  /-- `state > CONNECTED` (SHUTTINGDOWN or CLOSED), read again later -/
  dead : Bool
  lastSend : Nat
  sendBufferEmpty : Bool
  /-- `timeoutMS` -/
  idle : Nat

/-- The fields of a request that `postPoll` reads and writes. -/
structure Live where
  /-- is there a socket? -/
  open_ : Bool := true
  finished : Nat := 0
  timeoutAt : Nat
  response : Int := 0
  full : Msg := {}
  deriving DecidableEq, Repr

/-- `atoi` of what follows the first blank, SHTTPSManager.cpp:101-106. -/
def statusCode (line : Bytes) : Int :=
  if 32 ∈ line then toInt (line.dropWhile (· != 32)) else 0

/-- `completeRequest`, SHTTPSManager.cpp:97-111; `size` is what the parser returned. -/
def whole (p : Poll) (size : Nat) (m : Msg) : Bool :=
  size != 0 && (statusCode m.methodLine == 204 || (Table.find sContentLength m.table).isSome || p.closed)

/-- The code if the first line has none: 400 if `_onRecv` of the base class is called, else 500, SHTTPSManager.cpp:121-134,
264-268. -/
def fallback (m : Msg) : Int :=
  if sContains m.methodLine (str " 200") || sContains m.methodLine (str "204") || sContains m.methodLine (str "202") ||
    m.content != [] then 400 else 500

/-- What the parser makes of the bytes received; `none`: an exception or undefined behaviour. -/
def received (recv : Bytes) : Option (Nat × Msg) :=
  match parse recv with
  | .ok k m => some (k, m)
  | .incomplete => some (0, {})
  | _ => none

/-- `postPoll`, SHTTPSManager.cpp:70-172, with the `_onRecv` of the base class.  (`now - lastSendTime` etc. matter only
for the time of the next call.) -/
def postPoll (t : Live) (p : Poll) : Option Live :=
  if !t.open_ || t.finished != 0 then some t
  else (received p.recv).map fun r =>
    if whole p r.1 r.2 then
      { t with full := r.2, finished := p.now, open_ := false, response := responseCode r.2.methodLine (fallback r.2) }
    else if p.dead ∨ p.lastSend + p.idle * 1000 < p.now ∨ t.timeoutAt < p.now then
      if r.2.methodLine ≠ [] ∨ 0 < r.1 then
        { t with full := r.2, finished := p.now, open_ := false
                 response := if r.2.methodLine ≠ [] then responseCode r.2.methodLine 400 else t.response }
      else { t with full := r.2, response := if p.sendBufferEmpty then 501 else 500 }
    else { t with full := r.2 }

/-! ## Waiting for all -/

/-- The responses of the requests, in order, and `_lastContiguousCompletedTransaction` (`none`: `end()`). -/
structure Waiting where
  responses : List Int := []
  cursor : Option Nat := none
  deriving DecidableEq, Repr

/-- The walk of `areHttpsRequestsComplete` from position `i`. -/
def walk : List Int → Nat → Option Nat → Bool × Option Nat
  | [], _, c => (true, c)
  | r :: rs, i, c => if r = 0 then (false, c) else walk rs (i + 1) (some i)

/-- `areHttpsRequestsComplete`, BedrockCommand.cpp:103-115. -/
def areComplete (w : Waiting) : Bool × Waiting :=
  let start := w.cursor.getD 0
  let r := walk (w.responses.drop start) start w.cursor
  (r.1, { w with cursor := r.2 })

/-- What one turn of the waiting loop meets: the clock, whether the client is gone, and what starting and polling the
requests makes of the responses. -/
structure Turn where
  now : Nat
  aborted : Bool
  polled : List Int → List Int

/-- The requests from `start` on that have no response fail with 500, BedrockCommand.cpp:141-147. -/
def failRest (start : Nat) (l : List Int) : List Int :=
  l.take start ++ (l.drop start).map fun r => if r = 0 then 500 else r

/-- `_waitForHTTPSRequests`, BedrockCommand.cpp:117-213; `none` if the turns given do not suffice. -/
def wait (timeout : Nat) : List Turn → Waiting → Option Waiting
  | turns, w =>
    match areComplete w with
    | (true, w) => some w
    | (false, w) => match turns with
      | [] => none
      | t :: turns =>
        if t.now < timeout ∧ t.aborted = false then wait timeout turns { w with responses := t.polled w.responses }
        else some { w with responses := failRest (w.cursor.getD 0) w.responses }

end Bedrock.Https
