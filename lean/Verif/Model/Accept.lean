/-!
# Taking connections: `BedrockServer::_acceptSockets`

BedrockServer.cpp:2068-2180, the end of `handleSocket` (2434-2453), the test that ends a shutdown (1255-1277) and
`SetMaxSocketThreads` (1859-1866).  A connection is a number; it waits in the queue the kernel keeps for its port until the
main thread takes it and starts a thread for it.  Taking is a loop; between two of its iterations other threads end, clients
connect and an operator changes the limit, so each iteration is a step of its own.  Ports are opened and closed under
`_portMutex`, which the loop holds, so only between two rounds.  What a thread does with its connection is in
`Bedrock.Session`; here it runs until it ends.  The counter is a `uint64_t`, here a number.
-/

namespace Bedrock.Accept

/-- The ports: `_controlPort`, `_commandPortPrivate`, `_commandPortPublic` and those of the plugins, in the order of
`_portPluginMap`. -/
inductive Port where
  | control | priv | pub | plug (n : Nat)
  deriving DecidableEq, Repr

/-- How the process can end here: `SERROR`, BedrockServer.cpp:2153, or undefined behaviour (2160: `blockCommandPort` locks the
mutex its caller holds). -/
inductive Halt where
  | exit | undefined
  deriving DecidableEq, Repr

structure Srv where
  /-- `_maxSocketThreads` -/
  limit : Nat
  /-- number of plugins with a port -/
  plugins : Nat := 0
  isOpen : Port → Bool := fun _ => true
  /-- connections the kernel holds for a port, the oldest first -/
  waiting : Port → List Nat := fun _ => []
  /-- `_outstandingSocketThreads` -/
  out : Nat := 0
  /-- the threads of connections -/
  threads : List (Port × Nat) := []
  /-- all connections ever taken, in order -/
  taken : List (Port × Nat) := []
  /-- connections the kernel dropped because their port was closed -/
  dropped : List (Port × Nat) := []
  /-- the ports the running call has still to look at, the present one first; empty between two calls -/
  todo : List Port := []
  halted : Option Halt := none

/-- `portList` without the closed ports, BedrockServer.cpp:2077-2095. -/
def Srv.portList (s : Srv) : List Port :=
  (([.control, .priv, .pub] : List Port) ++ (List.range s.plugins).map Port.plug).filter s.isOpen

def upd (f : Port → α) (p : Port) (x : α) : Port → α := fun q => if q = p then x else f q

/-- One iteration of the loop, BedrockServer.cpp:2098-2171.  `ok`: `accept` does not fail; `started`: the thread can be
started. -/
def Srv.iter (s : Srv) (ok started : Bool) : Srv :=
  match s.todo with
  | [] => s
  | p :: rest =>
    if p ≠ .control ∧ s.limit ≤ s.out then { s with todo := [] }
    else if ok = false then { s with todo := rest }
    else
      match s.waiting p with
      | [] => { s with todo := rest }
      | c :: cs =>
        let s' := { s with waiting := upd s.waiting p cs, out := s.out + 1, taken := s.taken ++ [(p, c)] }
        if started then { s' with threads := s.threads ++ [(p, c)] }
        else { s' with halted := some (if s'.out < 100 then .exit else .undefined) }

inductive Ev where
  /-- a client connects; refused if the port is closed -/
  | connect (p : Port) (c : Nat)
  /-- `_acceptSockets` is called -/
  | round
  | iter (ok started : Bool)
  /-- the thread at a place ends, BedrockServer.cpp:2438 -/
  | ends (i : Nat)
  /-- `SetMaxSocketThreads`, BedrockServer.cpp:1859-1866 -/
  | limit (n : Nat)
  | opened (p : Port)
  | closed (p : Port)
  deriving DecidableEq, Repr

def Srv.step (s : Srv) (e : Ev) : Srv :=
  if s.halted.isSome then s else
  match e with
  | .connect p c => if s.isOpen p then { s with waiting := upd s.waiting p (s.waiting p ++ [c]) } else s
  | .round => if s.todo = [] then { s with todo := s.portList } else s
  | .iter ok started => s.iter ok started
  | .ends i => if i < s.threads.length then { s with threads := s.threads.eraseIdx i, out := s.out - 1 } else s
  | .limit n => if n = 0 then s else { s with limit := n }
  | .opened p => if s.todo = [] then { s with isOpen := upd s.isOpen p true } else s
  | .closed p =>
    if s.todo = [] then
      { s with isOpen := upd s.isOpen p false, dropped := s.dropped ++ (s.waiting p).map (p, ·), waiting := upd s.waiting p [] }
    else s

def Srv.run (s : Srv) (es : List Ev) : Srv := es.foldl Srv.step s

/-- A server that has just started: `-maxSocketThreads` (BedrockServer.cpp:1113-1115), which may be 0. -/
def start (limit plugins : Nat) : Srv := { limit, plugins }

/-- May the shutdown go on?  BedrockServer.cpp:1268; `commands`: how many commands there are. -/
def Srv.mayFinish (s : Srv) (commands : Nat) : Bool := s.out == 0 && commands == 0

/-! ## Leaving: BedrockServer.cpp:2438-2453

A thread counts itself off and then reads the counter again; the one that reads 50 unblocks the command port. -/

inductive Leave where
  | off | look
  deriving DecidableEq, Repr

structure Leaving where
  out : Nat
  /-- threads that have counted themselves off and not looked yet -/
  between : Nat := 0
  /-- has one of them read 50? -/
  seen50 : Bool := false
  deriving DecidableEq, Repr

def Leaving.step (l : Leaving) : Leave → Leaving
  | .off => if l.out = 0 then l else { l with out := l.out - 1, between := l.between + 1 }
  | .look => if l.between = 0 then l else { l with between := l.between - 1, seen50 := l.seen50 || l.out == 50 }

end Bedrock.Accept
