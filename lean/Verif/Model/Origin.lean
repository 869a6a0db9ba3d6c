import Verif.Model.Control
import Verif.Model.Timing
import Verif.Model.Deadline

/-!
# What a command brings along, on the way from its client to the leader

`buildCommandFromRequest` (BedrockServer.cpp:2187-2259) in full: who sent the request, the results of HTTPS requests and other data
in its headers.  `_sendCommandOnSocket` (SQLiteClusterMessenger.cpp:135-158): the message a node sends to the leader.  Which steps a
command with such results skips (BedrockServer.cpp:671-703).

Simplified: the data a plugin packs for the leader (`serializeData`, `deserializeData`) is the text itself, and reading it does not
throw; a plugin does not change the headers of a request.
-/

namespace Bedrock.Origin
open Bedrock Bedrock.Text Bedrock.Http

def sHttps : Bytes := (str "httpsRequests")
def sData : Bytes := (str "serializedData")

/-- What reading a text comes to. -/
inductive Read (α : Type) where
  | ok (a : α)
  /-- an exception -/
  | throws
  /-- an assertion ends the process -/
  | ends
  /-- undefined behaviour -/
  | undefined
  deriving DecidableEq, Repr

def Read.bind {α β : Type} (r : Read α) (f : α → Read β) : Read β :=
  match r with
  | .ok a => f a
  | .throws => .throws
  | .ends => .ends
  | .undefined => .undefined

/-- `SData::deserialize`: what is not complete leaves everything empty. -/
def message (s : Bytes) : Read Msg :=
  match parse s with
  | .ok _ m => .ok m
  | .incomplete => .ok {}
  | .throws => .throws
  | .ub => .undefined

/-- One round of `deserializeHTTPSRequests`, BedrockCommand.cpp:434-451. -/
def transaction (s : Bytes) : Read Https.Transaction :=
  match Json.parseObject (str "null") s with
  | .abort => .ends
  | .ok t =>
    (message (Base64.decode (Https.get (str "fullRequest") t))).bind fun req =>
    (message (Base64.decode (Https.get (str "fullResponse") t))).bind fun resp =>
    .ok { created := Https.toUInt64 (Https.get (str "created") t)
          finished := Https.toUInt64 (Https.get (str "finished") t)
          timeoutAt := Https.toUInt64 (Https.get (str "timeoutAt") t)
          response := Https.toInt (Https.get (str "response") t)
          fullRequest := req
          fullResponse := resp }

def transactions : List Bytes → Read (List Https.Transaction)
  | [] => .ok []
  | s :: l => (transaction s).bind fun t => (transactions l).bind fun ts => .ok (t :: ts)

/-- `deserializeHTTPSRequests`, BedrockCommand.cpp:427-453. -/
def results (s : Bytes) : Read (List Https.Transaction) :=
  if s = [] then .ok []
  else match Json.parseArray (str "null") s with
    | .abort => .ends
    | .ok l => transactions l

/-- A command, as far as it goes along to the leader. -/
structure Cmd where
  id : Bytes
  request : Msg
  /-- `httpsRequests` -/
  https : List Https.Transaction := []
  /-- what `serializeData` gives -/
  data : Bytes := []
  /-- `complete` with an error: what came along could not be read -/
  failed : Bool := false
  /-- whether a client waits for its answer: `socket` -/
  answered : Bool := true
  deriving DecidableEq, Repr

/-- What is made of a request. -/
inductive Built where
  /-- answered 202 and forgotten -/
  | dropped
  /-- the process ends -/
  | ends
  | undefined
  | cmd (c : Cmd)
  deriving DecidableEq, Repr

/-- Where a request came in, and what the node finds. -/
structure Arrival where
  /-- the address of the other end -/
  ip : Bytes
  /-- the private command port -/
  priv : Bool
  /-- the clock -/
  now : Nat := 0
  /-- `_shutdownState == RUNNING` -/
  running : Bool := true
  /-- the name for a command that has none -/
  fresh : Bytes := []
  /-- for the `requestID` -/
  rand : Fin 6 → UInt64 := fun _ => 0

/-- `Connection: forget`, or to be run later, BedrockServer.cpp:2192: answered 202 at once. -/
def early (r : Msg) (now : Nat) : Bool :=
  sIEquals (r.table.get (str "Connection")) (str "forget") ||
    decide ((now : Int) < Deadline.toU64 (Control.calc64 r (str "commandExecuteTime")))

/-- `buildCommandFromRequest`, BedrockServer.cpp:2187-2259. -/
def build (r : Msg) (a : Arrival) : Built :=
  if early r a.now && !a.running then .dropped
  else
    -- 2209-2222 and `preprocessRequest`
    let m := Control.build r a.ip a.priv
    let m : Msg := { m with table := Timing.preprocess a.rand m.table }
    let c : Cmd := { id := (m.table.find (str "ID")).getD a.fresh, request := m, answered := !early r a.now }
    match results (r.table.get sHttps) with
    | .ok l => .cmd { c with https := l, data := r.table.get sData }
    | .throws => .cmd { c with failed := true }
    | .ends => .ends
    | .undefined => .undefined

/-- The message of `_sendCommandOnSocket`, SQLiteClusterMessenger.cpp:140-157; `timeout`: what is left of the time, in ms. -/
def wire (gz : Bytes → Bytes) (isFloat : Bytes → Bool) (timeout : Nat) (c : Cmd) : Option Msg :=
  let t := c.request.table.set (str "timeout") (natDec timeout)
  (if c.https = [] then some t else (Https.serialize gz isFloat c.https).map fun s => t.set sHttps s).map fun t =>
    { c.request with table := (if c.data = [] then t else t.set sData c.data).set (str "ID") c.id }

/-- Is it peeked?  BedrockServer.cpp:698-703. -/
def peeked (repeek : Bool) (c : Cmd) : Bool := repeek || c.https == []

/-- What happens to a command on its way. -/
inductive Op where
  /-- a plugin makes a HTTPS request, and it is answered -/
  | obtain (t : Https.Transaction)
  /-- a plugin has data for the leader -/
  | pack (d : Bytes)
  /-- it is sent to the private port of another node -/
  | hop (timeout : Nat) (a : Arrival)

def step (gz : Bytes → Bytes) (isFloat : Bytes → Bool) (c : Cmd) : Op → Option Built
  | .obtain t => some (.cmd { c with https := c.https ++ [t] })
  | .pack d => some (.cmd { c with data := d })
  | .hop timeout a =>
    match (wire gz isFloat timeout c).bind (compose gz) with
    | none => none
    | some b => match parse b with
      | .ok _ m => some (build m { a with priv := true })
      | _ => none

/-- The way of a command; `none`: it did not get there. -/
def run (gz : Bytes → Bytes) (isFloat : Bytes → Bool) (c : Cmd) : List Op → Option Built
  | [] => some (.cmd c)
  | o :: os => match step gz isFloat c o with
    | some (.cmd c) => run gz isFloat c os
    | r => r

end Bedrock.Origin
