import Verif.Model.Jobs
import Verif.Model.Text

/-!
# Jobs an operator has disabled: plugins/Jobs.cpp:22-55, 172-206

Each node keeps patterns of names of jobs in memory.  `CrashBedrockJob` adds to them and `ClearCrashedBedrockJobs` empties
them; both are passed on to the other nodes, and a node that logs in is told the patterns of the others.  `GetJob` and
`GetJobs` fail jobs whose name has one of the patterns instead of handing them out (Jobs.cpp:742, 838-884; `Jobs.get`).

What is between the nodes is a bag of messages: each may be late, overtaken or lost.  A set is the list of its elements
in the order in which they came; the order in which they are sent is then another than that of `set<string>`, which
makes no difference to the receiver's set.
-/

namespace Bedrock.Blacklist
open Bedrock Bedrock.Text

/-- A `CrashBedrockJob` or (`clear`) a `ClearCrashedBedrockJobs`. -/
structure Req where
  clear : Bool := false
  names : Bytes := []
  /-- `_source`: the address of a client on the public port -/
  source : Bytes := []
  /-- `isPropagated` -/
  propagated : Bool := false
deriving DecidableEq, Repr

/-- `set<string>::insert`. -/
def insert (l : List Bytes) (x : Bytes) : List Bytes := if x ∈ l then l else l ++ [x]

/-- The request at one node, Jobs.cpp:172-206: the new patterns and what goes to each peer; `none`: 401. -/
def handle (l : List Bytes) (r : Req) : Option (List Bytes × Option Req) :=
  if r.source ≠ [] then none
  else
    let l := if r.clear then [] else (parseList r.names 44).1.foldl insert l
    some (l, if r.propagated then none else some { r with propagated := true })

/-- `onNodeLogin`, Jobs.cpp:37-55. -/
def loginMsg (l : List Bytes) : Option Req :=
  if l = [] then none else some { names := composeList l [44, 32], propagated := true }

/-- The nodes `0 … n - 1`, and the messages on their way: to whom, and what. -/
structure World where
  at_ : Nat → List Bytes := fun _ => []
  net : List (Nat × Req) := []

inductive Op where
  /-- a request arrives at a node, not from another node -/
  | request (i : Nat) (r : Req)
  /-- a message arrives -/
  | deliver (m : Nat × Req)
  | lose (m : Nat × Req)
  /-- the node `p` logs in at node `i` -/
  | login (i p : Nat)
  | restart (i : Nat)
deriving DecidableEq, Repr

def setAt (f : Nat → List Bytes) (i : Nat) (l : List Bytes) : Nat → List Bytes := fun j => if j = i then l else f j

/-- A request at node `i` of `n`; it goes on to every other node (`runOnAll`, SQLiteClusterMessenger.cpp:83-104). -/
def receive (n : Nat) (w : World) (i : Nat) (r : Req) : World :=
  match handle (w.at_ i) r with
  | none => w
  | some (l, none) => { w with at_ := setAt w.at_ i l }
  | some (l, some m) => { at_ := setAt w.at_ i l, net := w.net ++ ((List.range n).filter (· ≠ i)).map fun p => (p, m) }

def step (n : Nat) (w : World) : Op → World
  | .request i r => receive n w i r
  | .deliver m => if m ∈ w.net then receive n { w with net := w.net.erase m } m.1 m.2 else w
  | .lose m => { w with net := w.net.erase m }
  | .login i p => match loginMsg (w.at_ i) with
    | none => w
    | some m => { w with net := w.net ++ [(p, m)] }
  | .restart i => { w with at_ := setAt w.at_ i [] }

def run (n : Nat) (w : World) (ops : List Op) : World := ops.foldl (step n) w

/-- The names `GetJob` fails at a node; `glob`: SQLite's `GLOB`. -/
def disabled (glob : Bytes → Bytes → Bool) (l : List Bytes) (name : Bytes) : Bool := l.any fun p => glob p name

end Bedrock.Blacklist
