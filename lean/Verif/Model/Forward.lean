import Verif.Model.Http

/-!
# Model of forwarding a command to a peer

`/repo/sqlitecluster/SQLiteClusterMessenger.cpp:15-21` (`setErrorResponse`), `135-240`
(`_sendCommandOnSocket`), `262-330` (`runOnPeer`).

The operating system's answers are inputs.  Not modelled: the escalation times, the deadline that
`waitForReady` compares with (a wait that ends for any reason but readiness is `notReady`), and the
pool of sockets (a socket is there or not).
-/

namespace Bedrock.Forward
open Bedrock Bedrock.Http

/-- One round of the send loop, SQLiteClusterMessenger.cpp:164-191. -/
inductive SendIo where
  /-- `waitForReady` gave anything but `OK` -/
  | notReady
  /-- `EAGAIN` or `EINTR` -/
  | again
  /-- any other error of `send` -/
  | fatal
  /-- `send` took `n` bytes -/
  | took (n : Nat)
  deriving DecidableEq, Repr

/-- One round of the receive loop, SQLiteClusterMessenger.cpp:204-236. -/
inductive RecvIo where
  | notReady
  | again
  | fatal
  /-- `recv` returned 0 -/
  | closed
  | data (b : Bytes)
  deriving DecidableEq, Repr

/-- How a loop over the operating system's answers ended; `waiting`: the answers given do not end it. -/
inductive Loop where
  | finished
  | failed
  | waiting
  deriving DecidableEq, Repr

/-- The send loop, SQLiteClusterMessenger.cpp:163-191: the bytes handed to the socket and how it ended.
`send` cannot take more than it is offered. -/
def sendLoop (buf : Bytes) : List SendIo → Bytes × Loop
  | [] => ([], .waiting)
  | .notReady :: _ => ([], .failed)
  | .fatal :: _ => ([], .failed)
  | .again :: io => sendLoop buf io
  | .took n :: io =>
    if buf.drop n = [] then (buf, .finished)
    else ((buf.take n) ++ (sendLoop (buf.drop n) io).1, (sendLoop (buf.drop n) io).2)

/-- What the receive loop produced. -/
inductive Recv where
  | waiting
  /-- gave up: `setErrorResponse`, SQLiteClusterMessenger.cpp:205-208, 218-227 -/
  | failed
  /-- a response, and the bytes received behind it, which are dropped with the local buffer -/
  | response (msg : Msg) (extra : Bytes)
  /-- the parser threw or left the defined behaviour (`Parsed.throws`, `Parsed.ub`) -/
  | broken
  deriving DecidableEq, Repr

/-- The receive loop, SQLiteClusterMessenger.cpp:201-237: after each chunk everything received so far
is parsed again. -/
def recvLoop (acc : Bytes) : List RecvIo → Recv
  | [] => .waiting
  | .notReady :: _ => .failed
  | .fatal :: _ => .failed
  | .closed :: _ => .failed
  | .again :: io => recvLoop acc io
  | .data b :: io =>
    match parse (acc ++ b) with
    | .ok n m => .response m ((acc ++ b).drop n)
    | .incomplete => recvLoop (acc ++ b) io
    | .throws => .broken
    | .ub => .broken

/-- `setErrorResponse`, SQLiteClusterMessenger.cpp:15-21. -/
def errorResponse : Msg := { methodLine := Text.str "500 Internal Server Error" }

/-- What a call leaves behind. -/
structure Sent where
  /-- the bytes handed to the peer's socket -/
  delivered : Bytes := []
  /-- `command.complete` -/
  complete : Bool := false
  response : Msg := {}
  /-- the return value; `none`: not returned (still waiting, or the parser broke) -/
  result : Option Bool := none
  deriving DecidableEq, Repr

/-- `_sendCommandOnSocket`, SQLiteClusterMessenger.cpp:135-240, for the serialised request `req` and
the response `old` that the command has. -/
def sendOnSocket (req : Bytes) (old : Msg) (out : List SendIo) (inp : List RecvIo) : Sent :=
  match sendLoop req out with
  | (d, .waiting) => { delivered := d, response := old }
  | (d, .failed) => { delivered := d, response := old, result := some false }
  | (d, .finished) =>
    match recvLoop [] inp with
    | .waiting => { delivered := d, response := old }
    | .broken => { delivered := d, response := old }
    | .failed => { delivered := d, complete := true, response := errorResponse, result := some false }
    | .response m _ => { delivered := d, complete := true, response := m, result := some true }

/-- One round of looking for a peer, SQLiteClusterMessenger.cpp:274-297. -/
inductive Round where
  /-- no address; `lead`: this node is (becoming) the leader -/
  | noAddress (lead : Bool)
  /-- an address, but no socket to it -/
  | noSocket
  /-- a socket, and what happens on it; `aborted`: when a send failed, the client of the command is
  found to be gone -/
  | socket (out : List SendIo) (inp : List RecvIo) (aborted : Bool)
  deriving DecidableEq, Repr

/-- `runOnPeer(command, runOnLeader)`, SQLiteClusterMessenger.cpp:262-330.  The rounds within five
seconds are listed; running out of them is running out of time. -/
def runOnPeer (onLeader : Bool) (req : Bytes) (old : Msg) : List Round → Sent
  | [] => { response := old, result := some false }
  | .noAddress lead :: rs =>
    if onLeader && lead then { response := old, result := some false } else runOnPeer onLeader req old rs
  | .noSocket :: _ => { response := old, result := some false }
  | .socket out inp aborted :: _ =>
    let r := sendOnSocket req old out inp
    if r.result = some false ∧ aborted = true then
      { r with complete := true, response := { r.response with methodLine := Text.str "556 Aborted" }
               result := some true }
    else r

end Bedrock.Forward
