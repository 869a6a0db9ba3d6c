import Verif.Model.Sockets

/-!
# Waiting for the network: `SFDset`, `SFDAnySet`, `S_poll` and the loops around them

libstuff/libstuff.cpp 2328-2378; the loops of main.cpp 395-409, BedrockServer.cpp 143-296 (the sync thread) and
BedrockCommand.cpp 117-196 (a command waiting for its requests); `SQLitePeer::postPoll` and
`SQLiteNode::_processPeerMessages` as far as they say when to wake up.

Not modelled: the readings of the clock in `postPoll` between the poll and what is asked (one reading, `after`, stands for
them, except where `_processPeerMessages` reads it), and `poll` itself, of which only what POSIX says is used.
-/

namespace Bedrock.Poll
open Bedrock.Sockets (Sock Flags Shake State)

/-- `pollfd`: `short` as a set of bits. -/
structure Fd where
  fd : Int
  events : UInt16
  revents : UInt16 := 0
  deriving DecidableEq, Repr

/-- `fd_map`, libstuff.h:619: a `map` from descriptors, in their order. -/
abbrev FdMap := List Fd

/-- Linux's values of POLLIN, POLLPRI, POLLOUT, POLLERR, POLLHUP and POLLNVAL. -/
def pollIn : UInt16 := 1
def pollPri : UInt16 := 2
def pollOut : UInt16 := 4
def pollErr : UInt16 := 8
def pollHup : UInt16 := 16
def pollNval : UInt16 := 32

/-- `SREADEVTS` and `SWRITEEVTS`, libstuff.h:624-625. -/
def readEvts : UInt16 := pollIn ||| pollPri ||| pollHup
def writeEvts : UInt16 := pollOut

/-- `SFDset`, libstuff.cpp:2328-2336. -/
def fdSet : FdMap → Int → UInt16 → FdMap
  | [], s, e => [{ fd := s, events := e }]
  | p :: m, s, e =>
    if s < p.fd then { fd := s, events := e } :: p :: m
    else if s = p.fd then { p with events := e ||| p.events } :: m
    else p :: fdSet m s e

/-- `fdm.find(socket)`. -/
def lookup (m : FdMap) (s : Int) : Option Fd := m.find? fun p => p.fd = s

/-- `SFDAnySet`, libstuff.cpp:2338-2348. -/
def anySet (m : FdMap) (s : Int) (e : UInt16) : Bool :=
  if e = 0 then false
  else match lookup m s with
  | none => false
  | some p => p.revents &&& e != 0

/-- What `poll` meets: whether it fails (EINTR, EINVAL, ENOMEM), and what is true of each descriptor when it returns. -/
structure World where
  failed : Bool := false
  ready : Int → UInt16

/-- What `poll` writes for one descriptor: of what is true of it what was asked for, and errors always; nothing for a negative
descriptor. -/
def World.answer (w : World) (p : Fd) : UInt16 :=
  if w.failed then p.revents
  else if p.fd < 0 then 0
  else w.ready p.fd &&& (p.events ||| (pollErr ||| pollHup ||| pollNval))

/-- How long `poll` may sleep: milliseconds, or without end for a negative time. -/
inductive Wait where
  | ms (n : Nat)
  | forever
  deriving DecidableEq, Repr

/-- `int(timeout / 1000)`, libstuff.cpp:2365, as `poll` takes it. -/
def toWait (timeout : Nat) : Wait :=
  let n := timeout / 1000 % 2 ^ 32
  if n < 2 ^ 31 then .ms n else .forever

/-- The result of `S_poll`. -/
inductive Out where
  | done (wait : Wait) (ret : Int) (m : FdMap)
  /-- `&pollvec[0]` of an empty vector, libstuff.cpp:2366: undefined -/
  | ub
  deriving DecidableEq, Repr

/-- `S_poll`, libstuff.cpp:2351-2378. -/
def sPoll (m : FdMap) (timeout : Nat) (w : World) : Out :=
  if m = [] then .ub
  else
    let m' := m.map fun p => { p with revents := w.answer p }
    .done (toWait timeout) (if w.failed then -1 else (m'.countP fun p => p.revents != 0 : Nat)) m'

/-! ## A socket -/

/-- `STCPManager::prePoll`, STCPManager.cpp:12-60: the calls of `SFDset`. -/
def register (m : FdMap) (s : Sock) (fd : Int) (over : Bool) (h : Shake) : FdMap :=
  match s.prePoll over h with
  | none => m
  | some (r, w) =>
    let m := if r then fdSet m fd readEvts else m
    if w then fdSet m fd writeEvts else m

/-- What `STCPManager::postPoll` asks of the map, STCPManager.cpp:68-120. -/
def flags (m : FdMap) (fd : Int) : Flags where
  inp := anySet m fd (pollIn ||| pollPri)
  out := anySet m fd writeEvts
  hup := anySet m fd pollHup
  err := anySet m fd pollErr

/-! ## The loops of the main thread and of the sync thread -/

def second : Nat := 1000000

/-- What happens to `nextActivity` in `postPoll`. -/
inductive Ask where
  /-- `nextActivity = min(nextActivity, nextReconnect)`, SQLitePeer.cpp:134 and 167 -/
  | atMost (t : Nat)
  /-- `nextActivity = STimeNow()`, SQLiteNode.cpp:2148 -/
  | again (now : Nat)
  deriving DecidableEq, Repr

/-- One turn: the clock before the poll (main.cpp:404, BedrockServer.cpp:265), the clock after it (main.cpp:407,
BedrockServer.cpp:275), and what is asked for. -/
structure Turn where
  before : Nat
  after : Nat
  asks : List Ask := []
  deriving DecidableEq, Repr

def ask (next : Nat) : Ask → Nat
  | .atMost t => min next t
  | .again now => now

/-- `nextActivity` at the end of a turn. -/
def Turn.next (t : Turn) : Nat := t.asks.foldl ask (t.after + second)

/-- `max(nextActivity, now) - now`, the argument of `S_poll`, main.cpp:406 and BedrockServer.cpp:268. -/
def Turn.timeout (next : Nat) (t : Turn) : Nat := max next t.before - t.before

/-- The times given to `S_poll`, turn by turn; at first `nextActivity` is `next`. -/
def timeouts : Nat → List Turn → List Nat
  | _, [] => []
  | next, t :: ts => t.timeout next :: timeouts t.next ts

/-- The readings of the clock in a turn, in their order. -/
def Turn.readings (t : Turn) : List Nat :=
  t.before :: t.after :: t.asks.filterMap fun
    | .again n => some n
    | .atMost _ => none

/-- The readings in all turns; the first is that of main.cpp:395 and BedrockServer.cpp:143. -/
def readings (start : Nat) (ts : List Turn) : List Nat := start :: ts.flatMap Turn.readings

/-! ## A command that waits for its requests -/

/-- The time given to `S_poll`, BedrockCommand.cpp:127-188, when the command has not timed out: `starts` are the
`scheduledStart`s of the requests from the first incomplete one on, 0 for none. -/
def httpsWait (now timeout : Nat) (starts : List Nat) : Nat :=
  min (starts.foldl (fun w s => if s = 0 ∨ s ≤ now then w else min w (s - now)) (timeout - now)) second

end Bedrock.Poll
