import Verif.Model.Address

/-! # The connections to the other nodes, and whose answer is read from them

`SMultiHostSocketPool.cpp` with `SQLiteClusterMessenger::_getSocketForAddress` (SQLiteClusterMessenger.cpp:245-262), the two loops of
`_sendCommandOnSocket` (160-242) and the end of `runOnPeer` (299-339), for any number of threads.

The pool of one host (SSocketPool.cpp) is here the queue of its sockets; its own threads are in `Model/SocketPool.lean`, the
loops of one call in `Model/Forward.lean` and `Model/PeerWait.lean`.

Simplified: a request is on the connection as a whole or not at all; the other end takes requests and writes answers in order.
A connection that is given up is never used again, so its number is simply forgotten; what the other end still does with it is
kept. -/

namespace Bedrock.PeerPool
open Bedrock Text Http Address

/-- `_getSocketForAddress`, SQLiteClusterMessenger.cpp:245-253: the host whose pool is asked; `none` for `nullptr`. -/
def hostOf (addr : Bytes) : Option Bytes :=
  match parseUri (str "http://" ++ addr) with
  | none => none
  | some (host, _) => if hostIsValid host then some host else none

structure Conn where
  /-- where it was opened to, SSocketPool.cpp:80 -/
  host : Bytes := []
  /-- the calls whose requests have arrived and are not answered -/
  queue : List Nat := []
  /-- what the other end has written and nobody has read -/
  inbox : Bytes := []

/-- Where a thread is in `runOnPeer`. -/
inductive Th where
  | idle
  /-- it has a socket; the loop of lines 162-190 -/
  | sending (call conn : Nat) (addr : Bytes)
  /-- the loop of lines 201-236, with `responseStr` -/
  | receiving (call conn : Nat) (addr buf : Bytes)
  /-- `SParseHTTP` threw or did something undefined -/
  | broken

structure Sys where
  conns : Nat → Conn := fun _ => {}
  /-- the number of the next connection -/
  fresh : Nat := 0
  /-- the number of the next call -/
  next : Nat := 0
  /-- `_pools`, SMultiHostSocketPool.h:18 -/
  pools : Bytes → Option (List Nat) := fun _ => none
  threads : Nat → Th := fun _ => .idle
  /-- what was answered: the call, the host that answered it, the answer -/
  answers : List (Nat × Bytes × Msg) := []
  /-- what was read: the call, the address it was for, `command.response` -/
  results : List (Nat × Bytes × Msg) := []

def upd {A B : Type} [DecidableEq A] (f : A → B) (a : A) (b : B) : A → B := fun x => if x = a then b else f x

inductive Op where
  /-- lines 275-294: an address, how many sockets of the pool are found stale, whether a new one can be opened -/
  | start (t : Nat) (addr : Bytes) (stale : Nat) (opens : Bool)
  /-- the request was sent, or that failed; `arrived`: the other end has it all the same -/
  | sent (t : Nat) (ok arrived : Bool)
  /-- the other end answers the first request on the connection -/
  | serve (c : Nat) (m : Msg)
  /-- the other end writes anything else -/
  | noise (c : Nat) (b : Bytes)
  /-- one `recv` of at most `k + 1` bytes; `close`: `commandWillCloseSocket` -/
  | recv (t k : Nat) (close : Bool)
  /-- lines 206-209, 216-227: the answer does not come, in time or at all -/
  | fail (t : Nat)
  /-- the timer of a pool closes some sockets, SSocketPool.cpp:31-39 -/
  | expire (host : Bytes) (n : Nat)

/-- `SMultiHostSocketPool::returnSocket`, SMultiHostSocketPool.cpp:22-29: under the address, and only if there is a pool of that
name. -/
def giveBack (pools : Bytes → Option (List Nat)) (addr : Bytes) (c : Nat) : Bytes → Option (List Nat) :=
  match pools addr with
  | none => pools
  | some l => upd pools addr (some (l ++ [c]))

/-- One step; `rd` stands for `SParseHTTP`. -/
def stepWith (rd : Bytes → Parsed) (gz : Bytes → Bytes) (s : Sys) : Op → Sys
  -- SQLiteClusterMessenger.cpp:288-292, SMultiHostSocketPool.cpp:11-20, SSocketPool.cpp:51-84
  | .start t addr stale opens =>
    match s.threads t, hostOf addr with
    | .idle, some h =>
      match ((s.pools h).getD []).drop stale with
      | c :: rest =>
        { s with pools := upd s.pools h (some rest), next := s.next + 1
                 threads := upd s.threads t (.sending s.next c addr) }
      | [] =>
        if opens then
          { s with pools := upd s.pools h (some []), next := s.next + 1, fresh := s.fresh + 1
                   conns := upd s.conns s.fresh { host := h }
                   threads := upd s.threads t (.sending s.next s.fresh addr) }
        else { s with pools := upd s.pools h (some []) }
    | _, _ => s
  -- SQLiteClusterMessenger.cpp:162-195, 295-309
  | .sent t ok arrived =>
    match s.threads t with
    | .sending call c addr =>
      { s with
        conns := if ok || arrived then upd s.conns c { s.conns c with queue := (s.conns c).queue ++ [call] } else s.conns
        threads := upd s.threads t (if ok then .receiving call c addr [] else .idle) }
    | _ => s
  | .serve c m =>
    match (s.conns c).queue with
    | [] => s
    | call :: rest =>
      { s with
        conns := upd s.conns c { s.conns c with queue := rest, inbox := (s.conns c).inbox ++ (compose gz m).getD [] }
        answers := (call, (s.conns c).host, m) :: s.answers }
  | .noise c b => { s with conns := upd s.conns c { s.conns c with inbox := (s.conns c).inbox ++ b } }
  -- SQLiteClusterMessenger.cpp:211-236, 324-337
  | .recv t k close =>
    match s.threads t with
    | .receiving call c addr buf =>
      if (s.conns c).inbox = [] then s
      else
        let n := min (k + 1) 4096
        let got := buf ++ (s.conns c).inbox.take n
        let s1 := { s with conns := upd s.conns c { s.conns c with inbox := (s.conns c).inbox.drop n } }
        match rd got with
        | .incomplete => { s1 with threads := upd s.threads t (.receiving call c addr got) }
        | .ok _ r =>
          { s1 with
            results := (call, addr, r) :: s.results
            threads := upd s.threads t .idle
            pools := if close then s.pools else giveBack s.pools addr c }
        | _ => { s1 with threads := upd s.threads t .broken }
    | _ => s
  | .fail t =>
    match s.threads t with
    | .receiving _ _ _ _ => { s with threads := upd s.threads t .idle }
    | _ => s
  | .expire h n =>
    match s.pools h with
    | none => s
    | some l => { s with pools := upd s.pools h (some (l.drop n)) }

def step (gz : Bytes → Bytes) (s : Sys) (op : Op) : Sys := stepWith parse gz s op

def run (gz : Bytes → Bytes) (ops : List Op) : Sys := ops.foldl (step gz) {}

end Bedrock.PeerPool
