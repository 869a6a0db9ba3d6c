import Verif.Model.Http

/-!
# Times in an answer, and the id of a request

`/repo/BedrockCommand.cpp:73-101`, `236-385`; `/repo/BedrockCore.h:22-39`; `/repo/sqlitecluster/SQLiteCommand.cpp:6-29`.
Times are microseconds of the wall clock (`gettimeofday`, libstuff/STime.cpp:6-12) in `uint64_t`, with its wrapping
arithmetic.  Not modelled: the line that is logged.
-/

namespace Bedrock.Timing
open Bedrock.Text Bedrock.Http

/-- `TIMING_INFO`, BedrockCommand.h:10-28, without `INVALID`; the BLOCKING_ variants carry `true`. -/
inductive Kind where
  | prePeek (blocking : Bool) | peek (blocking : Bool) | process (blocking : Bool) | postProcess (blocking : Bool)
  | commit (blocking : Bool) | queueWorker | queueBlocking | queuePageLock
deriving DecidableEq, Repr

/-- An entry of `timingInfo`. -/
structure Entry where
  kind : Kind
  start : UInt64
  stop : UInt64
deriving DecidableEq, Repr

/-- `startTiming` and `stopTiming`, BedrockCommand.cpp:73-101; `none` is `INVALID`.  A stop without a start records an entry of
no kind, which counts nowhere: here none. -/
structure Clock where
  inProgress : Option (Kind × UInt64) := none
  entries : List Entry := []
deriving DecidableEq, Repr

def Clock.startTiming (c : Clock) (k : Kind) (now : UInt64) : Clock := { c with inProgress := some (k, now) }

def Clock.stopTiming (c : Clock) (now : UInt64) : Clock :=
  match c.inProgress with
  | some (k, s) => { inProgress := none, entries := c.entries ++ [⟨k, s, now⟩] }
  | none => c

/-- `BedrockCore::AutoTimer`, BedrockCore.h:22-39: from its constructor to its destructor. -/
def Clock.auto (c : Clock) (k : Kind) (start stop : UInt64) : Clock := { c with entries := c.entries ++ [⟨k, start, stop⟩] }

/-- The sum of the entries of some kinds, BedrockCommand.cpp:251-284. -/
def total (es : List Entry) (p : Kind → Bool) : UInt64 :=
  es.foldl (fun acc e => if p e.kind then acc + (e.stop - e.start) else acc) 0

def isPrePeek : Kind → Bool | .prePeek _ => true | _ => false
def isPeek : Kind → Bool | .peek _ => true | _ => false
def isProcess : Kind → Bool | .process _ => true | _ => false
def isPostProcess : Kind → Bool | .postProcess _ => true | _ => false
def isCommit : Kind → Bool | .commit _ => true | _ => false
def isWorker : Kind → Bool | .queueWorker => true | _ => false
def isBlocking : Kind → Bool | .queueBlocking => true | _ => false
def isPageLock : Kind → Bool | .queuePageLock => true | _ => false

/-- What a command knows when it is answered. -/
structure Cmd where
  entries : List Entry := []
  /-- `creationTime` -/
  created : UInt64 := 0
  /-- `escalationTimeUS` -/
  escalation : UInt64 := 0
deriving DecidableEq, Repr

/-- `unaccountedTime`, BedrockCommand.cpp:287-291. -/
def unaccounted (c : Cmd) (now : UInt64) : UInt64 :=
  (now - c.created) - (total c.entries isPrePeek + total c.entries isPeek + total c.entries isProcess +
    total c.entries isPostProcess + total c.entries isCommit + c.escalation + total c.entries isWorker +
    total c.entries isBlocking + total c.entries isPageLock)

/-- `valuePairs`, BedrockCommand.cpp:297-304, in the order of a `map<string, …>`. -/
def values (c : Cmd) (now : UInt64) : List (Bytes × UInt64) :=
  [(str "peekTime", total c.entries isPeek), (str "postProcessTime", total c.entries isPostProcess),
   (str "prePeekTime", total c.entries isPrePeek), (str "processTime", total c.entries isProcess),
   (str "totalTime", now - c.created), (str "unaccountedTime", unaccounted c now)]

/-- `string("upstream") + (char) toupper(p.first[0]) + p.first.substr(1)`, 322. -/
def upstream (n : Bytes) : Bytes :=
  match n with
  | [] => str "upstream"
  | c :: n => str "upstream" ++ (if 97 ≤ c ∧ c ≤ 122 then c - 32 else c) :: n

/-- Moving what the leader has set out of the way, 316-336. -/
def promote (t : Table) (n : Bytes) : Table :=
  match t.find n with
  | some v => (t.erase n).set (upstream n) v
  | none => t

/-- Setting a value of our own, 372-376. -/
def own (t : Table) (p : Bytes × UInt64) : Table := if p.2 ≠ 0 then t.set p.1 (natDec p.2.toNat) else t

/-- `finalizeTimingInfo`, BedrockCommand.cpp:236-385, on the headers of the answer. -/
def finalize (c : Cmd) (now : UInt64) (t : Table) : Table :=
  let t := (values c now).foldl (fun t p => promote t p.1) t
  let t := (values c now).foldl own t
  if c.escalation ≠ 0 ∧ t.find (str "escalationTime") = none then
    t.set (str "escalationTime") (natDec c.escalation.toNat) else t

/-- The letters of a request id, SQLiteCommand.cpp:21. -/
def idChars : Bytes := str "abcdefghijklmnopqrstuvwxyzABCDEFGHIJKLMNOPQRSTUVWXYZ0123456789"

/-- `preprocessRequest`, SQLiteCommand.cpp:6-29; `rand`: the six values of `SRandom::rand64`. -/
def preprocess (rand : Fin 6 → UInt64) (t : Table) : Table :=
  match t.find (str "requestID") with
  | some _ => t
  | none => t.set (str "requestID") ((List.finRange 6).map (fun i => idChars.getD ((rand i).toNat % idChars.length) 0))

end Bedrock.Timing
