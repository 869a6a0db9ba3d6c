/-!
# The pool of connections to one host: `libstuff/SSocketPool.cpp`

Everything that happens under `_poolMutex` is one step; the check of a socket, the opening of a new one and the
notifications are steps of their own, so any number of threads interleave with the timer thread.  Time is a natural
number read from `steady_clock`, which does not go back: a step that reads the clock is given the reading, and a reading
below an earlier one does not happen.

Not modelled: what goes over the sockets, running out of memory.
-/

namespace Bedrock.SocketPool

/-- Where a thread is in `getSocket`, SSocketPool.cpp:51-84. -/
inductive Get where
  /-- not in a call -/
  | idle
  /-- a socket was taken from the pool and is to be checked (line 65) -/
  | checking (s : Nat)
  /-- at the top of the loop (line 53) -/
  | looping
  /-- the pool was empty (line 58): a new socket is to be opened -/
  | opening
deriving DecidableEq, Repr

/-- Where the timer thread is, SSocketPool.cpp:19-49. -/
inductive Timer where
  /-- before it takes the mutex (line 24) -/
  | running
  /-- in `wait_until` (line 43) -/
  | waitUntil (t : Nat)
  /-- in `wait` (line 46) -/
  | waitForever
  /-- it has returned (line 28) -/
  | ended
deriving DecidableEq, Repr

/-- The pool, the threads that use it, and the sockets they hold or have given up. -/
structure Pool where
  timeout : Nat
  /-- `_sockets`: the time it was returned, the socket -/
  sockets : List (Nat × Nat) := []
  /-- the clock, at least -/
  now : Nat := 0
  exiting : Bool := false
  timer : Timer := .running
  /-- the next socket to be opened -/
  fresh : Nat := 0
  threads : Nat → Get := fun _ => .idle
  /-- the sockets that were handed out and not returned -/
  held : List Nat := []
  closed : List Nat := []
  /-- notifications that are still to be made: `needWake` is set or the destructor is before line 15 -/
  pending : Nat := 0

/-- What `poll` finds, SSocketPool.cpp:65-71. -/
structure Health where
  /-- `state == CLOSED` -/
  closedState : Bool := false
  /-- `poll` returned a negative number -/
  pollError : Bool := false
  /-- any of `POLLERR`, `POLLHUP`, `POLLNVAL` -/
  broken : Bool := false
  /-- `POLLIN`: there is something to read, or the other end has closed the connection -/
  readable : Bool := false
deriving DecidableEq, Repr

/-- The condition under which the socket is returned, lines 65-70. -/
def Health.ok (h : Health) : Bool := !h.closedState && !h.pollError && !(h.broken || h.readable)

inductive Ev where
  /-- a thread calls `getSocket` -/
  | call (i : Nat)
  /-- lines 55-62 -/
  | take (i : Nat)
  /-- lines 64-75 -/
  | check (i : Nat) (h : Health)
  /-- lines 78-83: `ok` if the connection could be opened -/
  | open_ (i : Nat) (ok : Bool)
  /-- `returnSocket`, lines 93-100: the socket is one that was handed out -/
  | giveBack (s : Nat) (now : Nat)
  /-- the holder lets the socket go without returning it -/
  | drop (s : Nat)
  /-- a pending `notify_one`, lines 15 and 104 -/
  | notify
  /-- the destructor, lines 11-14 -/
  | destroy
  /-- the timer thread takes the mutex and goes through its loop once, lines 24-47 -/
  | sweep (now : Nat)
  /-- the timer thread wakes up because its time has come, or for no reason -/
  | wake
deriving DecidableEq, Repr

/-- Replace one value of a function. -/
def upd {A : Type} (f : Nat → A) (i : Nat) (a : A) : Nat → A := fun j => if j = i then a else f j

/-- The sockets that are pruned, lines 33-36, and those that stay. -/
def Pool.expired (p : Pool) (now : Nat) : List (Nat × Nat) := p.sockets.takeWhile (fun e => e.1 + p.timeout < now)
def Pool.kept (p : Pool) (now : Nat) : List (Nat × Nat) := p.sockets.dropWhile (fun e => e.1 + p.timeout < now)

/-- One step; a step that cannot happen leaves everything as it is. -/
def Pool.step (p : Pool) : Ev → Pool
  | .call i => match p.threads i with
    | .idle => { p with threads := upd p.threads i .looping }
    | _ => p
  | .take i => match p.threads i with
    | .looping => match p.sockets with
      | [] => { p with threads := upd p.threads i .opening }
      | (_, s) :: rest => { p with sockets := rest, threads := upd p.threads i (.checking s) }
    | _ => p
  | .check i h => match p.threads i with
    | .checking s =>
      if h.ok then { p with threads := upd p.threads i .idle, held := s :: p.held }
      else { p with threads := upd p.threads i .looping, closed := s :: p.closed }
    | _ => p
  | .open_ i ok => match p.threads i with
    | .opening =>
      if ok then { p with threads := upd p.threads i .idle, held := p.fresh :: p.held, fresh := p.fresh + 1 }
      else { p with threads := upd p.threads i .idle }
    | _ => p
  | .giveBack s now =>
    if s ∈ p.held ∧ p.now ≤ now then
      let sockets := p.sockets ++ [(now, s)]
      { p with sockets := sockets, held := p.held.erase s, now := now
               pending := if sockets.length = 1 then p.pending + 1 else p.pending }
    else p
  | .drop s => if s ∈ p.held then { p with held := p.held.erase s, closed := s :: p.closed } else p
  | .notify =>
    if p.pending = 0 then p
    else { p with pending := p.pending - 1
                  timer := match p.timer with
                    | .waitUntil _ => .running
                    | .waitForever => .running
                    | t => t }
  | .destroy => if p.exiting then p else { p with exiting := true, pending := p.pending + 1 }
  | .sweep now =>
    if p.timer = .running ∧ p.now ≤ now then
      if p.exiting then { p with timer := .ended }
      else
        let kept := p.kept now
        { p with sockets := kept, now := now, closed := (p.expired now).map Prod.snd ++ p.closed
                 timer := match kept with
                   | (t, _) :: _ => .waitUntil (t + p.timeout)
                   | [] => .waitForever }
    else p
  | .wake => match p.timer with
    | .waitUntil _ => { p with timer := .running }
    | .waitForever => { p with timer := .running }
    | _ => p

def Pool.run (p : Pool) (es : List Ev) : Pool := es.foldl Pool.step p

end Bedrock.SocketPool
