import Verif.Model.Http

/-!
# Answering a command: `BedrockServer::_reply`, BedrockServer.cpp:1343-1401

Not modelled: the timing headers `finalizeTimingInfo` adds, the bytes a plugin writes (the packets of the
MySQL plugin are in `Bedrock.Mysql`).  The server's state is read twice (1362, 1393); here once.
-/

namespace Bedrock.Reply
open Bedrock.Text Bedrock.Http

structure Cmd where
  req : Msg
  resp : Msg
  /-- `initiatingClientID` -/
  client : Int
  /-- the socket, with whether `send` works -/
  socket : Option Bool

structure Server where
  nodeName : Bytes
  running : Bool
  /-- the names of the loaded plugins -/
  plugins : List Bytes

inductive Kind where
  /-- nothing is sent -/
  | nothing
  /-- the response is handed to the socket -/
  | sent (bytes : Bytes)
  /-- a plugin sends the answer in its own way -/
  | plugin (name : Bytes)
  /-- the process aborts -/
  | aborts
  /-- an exception: the response cannot be serialised -/
  | throws
deriving DecidableEq

structure Out where
  kind : Kind
  /-- the socket is shut down -/
  closed : Bool := false
  /-- `handleFailedReply` is called -/
  told : Bool := false
deriving DecidableEq

def sConnection : Bytes := str "Connection"
def sNodeName : Bytes := str "nodeName"
def sPlugin : Bytes := str "plugin"
def sClose : Bytes := str "close"
def sMySQL : Bytes := str "MySQL"

/-- The response with what `_reply` adds, BedrockServer.cpp:1358-1365. -/
def finish (sv : Server) (c : Cmd) : Msg :=
  let t := c.resp.table.set sNodeName sv.nodeName
  { c.resp with table :=
      if sv.running = false ∨ c.req.table.get sConnection = sClose then t.set sConnection sClose else t }

/-- The assertions of `BedrockPlugin_MySQL::onPortRequestComplete`, MySQL.cpp:690-691 (`SASSERT` aborts,
libstuff.h:55-60). -/
def mysqlAsserts (c : Cmd) : Bool :=
  sIEquals c.req.methodLine (str "Query") && (c.req.table.find (str "sequenceID")).isSome

/-- `_reply`. -/
def reply (gz : Bytes → Bytes) (sv : Server) (c : Cmd) : Out :=
  if c.client < 0 then { kind := .nothing, told := true }
  else match c.socket with
    | none => { kind := .nothing, told := true }
    | some works =>
      let closed := sIEquals (c.req.table.get sConnection) sClose || !sv.running
      let p := c.req.table.get sPlugin
      if p ≠ [] then
        if p ∈ sv.plugins then
          if p = sMySQL ∧ mysqlAsserts c = false then { kind := .aborts } else { kind := .plugin p, closed := closed }
        else { kind := .aborts }
      else match compose gz (finish sv c) with
        | none => { kind := .throws }
        | some b => { kind := .sent b, closed := closed, told := !works }

/-- What a follower sends to the leader when it escalates a command, SQLiteClusterMessenger.cpp:136-158:
the request with its headers, `plugin` among them. -/
def escalated (req : Msg) (timeout id : Bytes) : Msg :=
  { req with table := (req.table.set (str "timeout") timeout).set (str "ID") id }

end Bedrock.Reply
