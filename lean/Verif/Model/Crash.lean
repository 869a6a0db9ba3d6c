import Verif.Model.Http

/-!
# The list of crash-inducing commands: `BedrockServer.cpp`

When a node dies while it runs a command, it tells the other nodes which command it was
(BedrockServer.cpp:493-499, 2004-2015).  They refuse matching commands from then on (507-515).

Not modelled: the delivery of the messages (`SQLiteClusterMessenger`), the signal handler itself (see Model/Dying.lean).
-/

namespace Bedrock.Crash
open Bedrock.Text Bedrock.Http

/-- The headers a crash report names, BedrockServer.cpp:2008-2010 with BedrockCommand.h:260-267: for
every identifying name, in the order of `map<string, SString>`, the value of the request, if it has
one.  `emplace` leaves an entry alone that is already there. -/
def subTable (req : Msg) (keys : List Bytes) : Table :=
  keys.foldl (fun t k =>
    match req.table.find k with
    | none => t
    | some v => if (t.find k).isSome then t else t.set k v) []

def sCrash : Bytes := str "CRASH_COMMAND"

/-- `_generateCrashMessage`, BedrockServer.cpp:2004-2015; `none` is the exception `SComposeHTTP`
throws for a method line with control characters. -/
def crashMessage (gz : Bytes → Bytes) (req : Msg) (keys : List Bytes) : Option Msg :=
  (compose gz { methodLine := req.methodLine, table := subTable req keys }).map fun b =>
    { methodLine := sCrash, table := [(str "timeout", str "5000")], content := b }

/-- `_crashCommands`, BedrockServer.h:434, a map from method line to a set of tables, as the list of
its pairs. -/
abbrev Bl := List (Bytes × Table)

/-- `_crashCommands[methodLine].insert(table)`. -/
def Bl.add (bl : Bl) (e : Bytes × Table) : Bl := if e ∈ bl then bl else bl ++ [e]

/-- `_control` for `CRASH_COMMAND`, BedrockServer.cpp:1731-1750: parse the body and add it.  A body
that is not a message leaves an empty request and nothing happens.  The reading outside the buffer
and the exceptions of the parser are other outcomes of `parse`; nothing is added. -/
def Bl.onReport (bl : Bl) (content : Bytes) : Bl :=
  match parse content with
  | .ok _ m => if m.methodLine = [] ∧ m.table = [] ∧ m.content = [] then bl
               else bl.add (m.methodLine, m.table)
  | _ => bl

/-- Does the request have every value of the table?  BedrockServer.cpp:957-977. -/
def matches_ (t : Table) (r : Msg) : Bool :=
  t.all fun e => sIEquals e.1 sContentLength || r.table.find e.1 == some e.2

/-- `_wouldCrash`, BedrockServer.cpp:938-985. -/
def wouldCrash (bl : Bl) (r : Msg) : Bool :=
  let ts := (bl.filter (fun e => e.1 == r.methodLine)).map (·.2)
  if ts.length = 0 then false
  else if 1 < ts.length then true
  else ts.any (fun t => matches_ t r)

/-- The messages sent to a node that logs in, BedrockServer.cpp:2037-2052: each entry as the report
of a command with exactly these headers, all of them identifying.  `order` is the order of
`map<string, …>`; `none` is the exception. -/
def loginMessages (gz : Bytes → Bytes) (order : List Bytes → List Bytes) (bl : Bl) : Option (List Msg) :=
  bl.mapM fun e => crashMessage gz { methodLine := e.1, table := e.2 } (order (e.2.map (·.1)))

/-- What changes the list. -/
inductive Ev where
  /-- a crash report arrives with this body -/
  | report (content : Bytes)
  /-- `ClearCrashCommands`, BedrockServer.cpp:1696-1698 -/
  | clear

def Bl.step (bl : Bl) : Ev → Bl
  | .report c => bl.onReport c
  | .clear => []

def Bl.run (bl : Bl) (es : List Ev) : Bl := es.foldl Bl.step bl

/-- A message sent over the wire and read by the other node (a `SData` in, a `SData` out). -/
def transport (gz : Bytes → Bytes) (m : Msg) : Option Msg :=
  match compose gz m with
  | none => none
  | some b => match parse b with
    | .ok _ m' => some m'
    | _ => none

end Bedrock.Crash
