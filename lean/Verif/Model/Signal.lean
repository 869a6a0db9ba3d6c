/-!
# Signals and the main loop: libstuff/SSignal.cpp, main.cpp:382-456

All threads block the signals, but for the five of a crash; one thread waits for them and notes them in a mask of 64 bits and,
for SIGTERM and SIGINT, in a counter (SSignal.cpp:139-193).  The main thread and the server look at mask and counter (main.cpp:383-429,
436-441, BedrockServer.cpp:1238-1240).  Each access is atomic; the two threads, and the end of the server's shutdown, come in any
order.

Simplified: what the server does is its answer to `shutdownComplete`; detaching is in `Model/Lifecycle`.  The counter does not
wrap.  A crash in another thread is a crash signal.
-/

namespace Bedrock.Signal

def sigInt : Nat := 2
def sigTerm : Nat := 15

/-- SIGILL, SIGABRT, SIGBUS, SIGFPE, SIGSEGV: SSignal.cpp:104-108, 174. -/
def isCrash (n : Nat) : Bool := n == 4 || n == 6 || n == 7 || n == 8 || n == 11

/-- `1 << signum` as a `uint64_t`, SSignal.cpp:179: an `int` is shifted, and extended with its sign.  For 32 and more the shift is
undefined: `none`. -/
def bit (n : Nat) : Option (BitVec 64) := if n < 32 then some ((1#32 <<< n).signExtend 64) else none

/-- `~(1 << signum)`, SSignal.cpp:65. -/
def unbit (n : Nat) : BitVec 64 := (~~~ (1#32 <<< n)).signExtend 64

/-- `SCheckSignal`, SSignal.cpp:55-61. -/
def check (m : BitVec 64) (n : Nat) : Bool := (m >>> n).getLsbD 0

/-- `SGetSignal`, SSignal.cpp:63-69, for a number under 32. -/
def get (m : BitVec 64) (n : Nat) : BitVec 64 × Bool := (m &&& unbit n, (m >>> n).getLsbD 0)

/-- The next step of the main thread. -/
inductive Pc where
  /-- `SGetSignal(SIGTERM)`, main.cpp:383 -/
  | term
  /-- `SGetSignal(SIGINT)`, main.cpp:383 -/
  | int
  /-- `SGetSignals()`, main.cpp:384 -/
  | pending
  /-- `SClearSignals()`, main.cpp:387 -/
  | clear
  /-- the test of the inner loop, main.cpp:397 -/
  | inner
  /-- `postPoll`, main.cpp:411, BedrockServer.cpp:1238-1240 -/
  | poll
  /-- the test after the loops, main.cpp:436 -/
  | out
  /-- the server is deleted and the process ends -/
  | exited
  /-- `abort()`, main.cpp:440 -/
  | aborted
  /-- a crash signal -/
  | crashed
  /-- undefined behaviour -/
  | ub
deriving DecidableEq, Repr

def Pc.ended : Pc → Bool
  | .exited | .aborted | .crashed | .ub => true
  | _ => false

structure S where
  /-- `_SSignal_pendingSignalBitMask` -/
  mask : BitVec 64 := 0
  /-- `_SSignal_terminationCount` -/
  count : Nat := 0
  /-- the signal thread is between `fetch_or` and `fetch_add` -/
  toCount : Bool := false
  pc : Pc := .term
  /-- `_beginShutdown` was called -/
  asked : Bool := false
  /-- `shutdownComplete()` -/
  done : Bool := false
deriving DecidableEq, Repr

inductive Ev where
  /-- the signal thread gets a signal -/
  | signal (n : Nat)
  /-- the signal thread counts -/
  | count
  /-- a step of the main thread -/
  | main
  /-- the server has stopped -/
  | finish
deriving DecidableEq, Repr

/-- One step of the main thread, main.cpp:382-441. -/
def S.main (s : S) : S := match s.pc with
  | .term => { s with mask := (get s.mask sigTerm).1, pc := if (get s.mask sigTerm).2 then .out else .int }
  | .int => { s with mask := (get s.mask sigInt).1, pc := if (get s.mask sigInt).2 then .out else .pending }
  | .pending => { s with pc := if s.mask ≠ 0 then .clear else .inner }
  | .clear => { s with mask := 0, pc := .inner }
  | .inner => { s with pc := if s.done || decide (2 ≤ s.count) then .term else .poll }
  | .poll => { s with asked := s.asked || decide (s.mask ≠ 0), pc := .inner }
  | .out => { s with pc := if 2 ≤ s.count then .aborted else .exited }
  | _ => s

/-- The signal thread, SSignal.cpp:155-187; it takes the next signal when it has counted the last. -/
def S.signal (s : S) (n : Nat) : S :=
  if s.toCount then s
  else if isCrash n then { s with pc := .crashed }
  else match bit n with
    | none => { s with pc := .ub }
    | some b => { s with mask := s.mask ||| b, toCount := n == sigTerm || n == sigInt }

def S.step (s : S) (e : Ev) : S :=
  if s.pc.ended then s
  else match e with
    | .signal n => s.signal n
    | .count => if s.toCount then { s with count := s.count + 1, toCount := false } else s
    | .main => s.main
    | .finish => if s.asked then { s with done := true } else s

def S.run (s : S) (es : List Ev) : S := es.foldl S.step s

/-! The mask alone, with any number of threads. -/

inductive Op where
  | arrive (n : Nat)
  | get (n : Nat)
  | clear
deriving DecidableEq, Repr

/-- The mask after some operations; a shift that is undefined leaves it as it is here. -/
def mask (m : BitVec 64) : List Op → BitVec 64
  | [] => m
  | .arrive n :: ops => mask (m ||| (bit n).getD 0) ops
  | .get n :: ops => mask (Bedrock.Signal.get m n).1 ops
  | .clear :: ops => mask 0 ops

end Bedrock.Signal
