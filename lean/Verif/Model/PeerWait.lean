import Verif.Model.Forward

/-!
# Model of the waits while a command is handed to another node, and of handing it to all of them

`/repo/sqlitecluster/SQLiteClusterMessenger.cpp:23-81` (`waitForReady`), `83-104` (`runOnAll`),
`106-133` (`runOnPeer` for a name), and again `135-240` (`_sendCommandOnSocket`), now with the clock.

Time is in microseconds.  The clock moves while `poll` waits and nowhere else; how long each call took
is an input, as is what it found.  Not modelled: more than one descriptor being ready
(SQLiteClusterMessenger.cpp:77-79, one is passed), and the log.
-/

namespace Bedrock.PeerWait
open Bedrock Bedrock.Http Bedrock.Forward

/-- What one call of `poll` found, SQLiteClusterMessenger.cpp:51-79. -/
inductive Poll where
  /-- 0: nothing within its time -/
  | idle
  /-- 1; `bad`: one of `POLLERR`, `POLLHUP`, `POLLRDHUP`, `POLLNVAL`; `wanted`: the event waited for -/
  | ready (bad wanted : Bool)
  /-- `EAGAIN` or `EINTR` -/
  | retry
  /-- any other error -/
  | error
  deriving DecidableEq, Repr

/-- `WaitForReadyResult`, SQLiteClusterMessenger.h:14-22. -/
inductive Why where
  | ok
  | timeout
  | disconnected
  | aborted
  | unspecified
  | pollError
  deriving DecidableEq, Repr

/-- What a wait has in front of it: the moment the command runs out of time (0: never) and the moment
the client's connection is found closed (`none`: it stays open, or the command has no client). -/
structure Limits where
  deadline : Nat
  gone : Option Nat
  deriving DecidableEq, Repr

/-- `command.socket && command.shouldAbort.load()`, SQLiteClusterMessenger.cpp:46. -/
def Limits.aborted (l : Limits) (now : Nat) : Bool :=
  match l.gone with
  | none => false
  | some g => g ≤ now

/-- How a wait stands: it has returned, with the answers of `poll` that are left, or the answers given
do not end it. -/
inductive Wait where
  | ended (why : Why) (now : Nat) (rest : List (Nat × Poll))
  | waiting (now : Nat)
  deriving DecidableEq, Repr

/-- `waitForReady`, SQLiteClusterMessenger.cpp:43-81, from `now` on.  Each call of `poll` is given as the
time it took and what it found. -/
def wait (l : Limits) (now : Nat) : List (Nat × Poll) → Wait
  | [] => if l.aborted now then .ended .aborted now [] else .waiting now
  | (d, p) :: ps =>
    if l.aborted now then .ended .aborted now ((d, p) :: ps)
    else
      match p with
      | .idle =>
        if l.deadline ≠ 0 ∧ l.deadline < now + d then .ended .timeout (now + d) ps else wait l (now + d) ps
      | .ready bad wanted =>
        if bad then .ended .disconnected (now + d) ps
        else if wanted then .ended .ok (now + d) ps
        else .ended .unspecified (now + d) ps
      | .retry => wait l (now + d) ps
      | .error => .ended .pollError (now + d) ps

/-- How a loop stands. -/
structure Out (α : Type) where
  val : α
  now : Nat
  /-- the answers of `poll` that are left -/
  polls : List (Nat × Poll)
  deriving DecidableEq, Repr

/-- The send loop with the clock, SQLiteClusterMessenger.cpp:163-191: the bytes handed over and how it
ended.  Each call of `send` is given by what it did.  (`SendIo.notReady` does not occur as the result of
`send`.) -/
def sendT (l : Limits) (now : Nat) (polls : List (Nat × Poll)) (buf : Bytes) : List SendIo → Out (Bytes × Loop)
  | [] =>
    match wait l now polls with
    | .waiting t => ⟨([], .waiting), t, []⟩
    | .ended .ok t ps => ⟨([], .waiting), t, ps⟩
    | .ended _ t ps => ⟨([], .failed), t, ps⟩
  | io :: ios =>
    match wait l now polls with
    | .waiting t => ⟨([], .waiting), t, []⟩
    | .ended .ok t ps =>
      match io with
      | .notReady => ⟨([], .failed), t, ps⟩
      | .fatal => ⟨([], .failed), t, ps⟩
      | .again => sendT l t ps buf ios
      | .took n =>
        if buf.drop n = [] then ⟨(buf, .finished), t, ps⟩
        else
          let o := sendT l t ps (buf.drop n) ios
          { o with val := (buf.take n ++ o.val.1, o.val.2) }
    | .ended _ t ps => ⟨([], .failed), t, ps⟩

/-- The receive loop with the clock, SQLiteClusterMessenger.cpp:201-237. -/
def recvT (l : Limits) (now : Nat) (polls : List (Nat × Poll)) (acc : Bytes) : List RecvIo → Out Recv
  | [] =>
    match wait l now polls with
    | .waiting t => ⟨.waiting, t, []⟩
    | .ended .ok t ps => ⟨.waiting, t, ps⟩
    | .ended _ t ps => ⟨.failed, t, ps⟩
  | io :: ios =>
    match wait l now polls with
    | .waiting t => ⟨.waiting, t, []⟩
    | .ended .ok t ps =>
      match io with
      | .notReady => ⟨.failed, t, ps⟩
      | .fatal => ⟨.failed, t, ps⟩
      | .closed => ⟨.failed, t, ps⟩
      | .again => recvT l t ps acc ios
      | .data b =>
        match parse (acc ++ b) with
        | .ok n m => ⟨.response m ((acc ++ b).drop n), t, ps⟩
        | .incomplete => recvT l t ps (acc ++ b) ios
        | .throws => ⟨.broken, t, ps⟩
        | .ub => ⟨.broken, t, ps⟩
    | .ended _ t ps => ⟨.failed, t, ps⟩

/-- `_sendCommandOnSocket` with the clock, SQLiteClusterMessenger.cpp:135-240. -/
def sendOnSocketT (l : Limits) (now : Nat) (polls : List (Nat × Poll)) (req : Bytes) (old : Msg)
    (out : List SendIo) (inp : List RecvIo) : Out Sent :=
  let s := sendT l now polls req out
  match s.val.2 with
  | .waiting => { s with val := { delivered := s.val.1, response := old } }
  | .failed => { s with val := { delivered := s.val.1, response := old, result := some false } }
  | .finished =>
    let r := recvT l s.now s.polls [] inp
    match r.val with
    | .waiting => { r with val := { delivered := s.val.1, response := old } }
    | .broken => { r with val := { delivered := s.val.1, response := old } }
    | .failed =>
      { r with val := { delivered := s.val.1, complete := true, response := errorResponse, result := some false } }
    | .response m _ =>
      { r with val := { delivered := s.val.1, complete := true, response := m, result := some true } }

/-- `runOnPeer(command, runOnLeader)` once a socket is there, SQLiteClusterMessenger.cpp:298-311. -/
def forwardT (l : Limits) (now : Nat) (polls : List (Nat × Poll)) (req : Bytes) (old : Msg)
    (out : List SendIo) (inp : List RecvIo) : Out Sent :=
  let r := sendOnSocketT l now polls req old out inp
  if r.val.result = some false ∧ l.aborted r.now = true then
    { r with val := { r.val with
        complete := true
        response := { r.val.response with methodLine := Text.str "556 Aborted" }
        result := some true } }
  else r

/-- What is found for a name. -/
inductive Peer where
  /-- `getPeerByName` gives nothing -/
  | unknown
  | noSocket
  | socket (polls : List (Nat × Poll)) (out : List SendIo) (inp : List RecvIo)
  deriving DecidableEq, Repr

/-- `runOnPeer(command, peerName)`, SQLiteClusterMessenger.cpp:106-133. -/
def runOnNamed (l : Limits) (now : Nat) (req : Bytes) (old : Msg) : Peer → Out Sent
  | .unknown => ⟨{ complete := true, response := errorResponse, result := some false }, now, []⟩
  | .noSocket => ⟨{ complete := true, response := errorResponse, result := some false }, now, []⟩
  | .socket polls out inp =>
    let r := sendOnSocketT l now polls req old out inp
    if r.val.result = some false then { r with val := { r.val with complete := true, response := errorResponse } } else r

/-- `runOnAll`, SQLiteClusterMessenger.cpp:83-104, while its threads run. -/
structure All where
  /-- `index` -/
  next : Nat := 0
  /-- `results` -/
  results : List Msg
  /-- for each thread: `i`, once it has one -/
  slot : List (Option Nat)
  /-- for each thread: it has stored its response and ended -/
  stored : List Bool
  deriving DecidableEq, Repr

/-- The start of the threads, one for each peer, SQLiteClusterMessenger.cpp:85-99. -/
def All.start (n : Nat) : All :=
  { results := List.replicate n {}, slot := List.replicate n none, stored := List.replicate n false }

/-- A step of thread `k` after `runOnPeer` returned: `fetch_add`, and the assignment. -/
inductive AllEv where
  | fetch (k : Nat)
  | store (k : Nat)
  deriving DecidableEq, Repr

/-- One step, SQLiteClusterMessenger.cpp:94-97; `sents`: what `runOnPeer` left behind in each thread.  A
thread in which it has not returned does nothing. -/
def All.step (sents : List Sent) (a : All) : AllEv → All
  | .fetch k =>
    match sents[k]?, a.slot[k]? with
    | some s, some none =>
      if s.result.isSome then { a with slot := a.slot.set k (some a.next), next := a.next + 1 } else a
    | _, _ => a
  | .store k =>
    match sents[k]?, a.slot[k]?, a.stored[k]? with
    | some s, some (some i), some false =>
      { a with results := a.results.set i s.response, stored := a.stored.set k true }
    | _, _, _ => a

/-- `join` of all threads has returned, SQLiteClusterMessenger.cpp:100-102. -/
def All.done (a : All) : Bool := a.stored.all id

end Bedrock.PeerWait
