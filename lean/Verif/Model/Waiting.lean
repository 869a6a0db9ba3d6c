import Verif.Model.CmdQueue

/-!
# Commands that wait for a commit: `BedrockServer.cpp`

A command may carry the commit count its answer must include.  On a node that is behind, a worker
sets the command aside (BedrockServer.cpp:652-669) and the sync thread hands it back to the command
queue at the top of its loop (BedrockServer.cpp:172-241).  Both run under
`_futureCommitCommandMutex`, so each is one step.
-/

namespace Bedrock.Waiting
open Bedrock.CmdQueue

/-- A command set aside: the commit it waits for, its deadline, and its identity. -/
structure Cmd where
  commit : Nat
  timeout : Nat
  id : Nat
deriving Repr, DecidableEq

/-- `_futureCommitCommands`, a multimap from commit to command, and `_futureCommitCommandTimeouts`, a
multimap from timeout to commit, BedrockServer.h:375-383. -/
structure W where
  cmds : List Cmd := []
  touts : List (Nat × Nat) := []
deriving Repr, DecidableEq

/-- Does a worker set the command aside?  BedrockServer.cpp:652-655. -/
def mustWait (commit have_ : Nat) : Bool := have_ < commit

/-- What a worker does with a command it takes, BedrockServer.cpp:642-670. -/
inductive Fate where
  | timedOut
  | aside
  | run
deriving Repr, DecidableEq

/-- A worker takes a command at time `now` on a node with `have_` commits, BedrockServer.cpp:642-670.  The
deadline is tested first; it has passed if there is no time left (BedrockCore.cpp:35-61, without wrap). -/
def intake (now have_ commit timeout : Nat) : Fate :=
  if timeout ≤ now then .timedOut else if mustWait commit have_ then .aside else .run

/-- A worker sets a command aside, BedrockServer.cpp:656-661. -/
def W.setAside (w : W) (c : Cmd) : W :=
  { cmds := insertBy Cmd.commit c w.cmds, touts := insertBy Prod.fst (c.timeout, c.commit) w.touts }

/-- The first half of the sweep, BedrockServer.cpp:182-213: walk through the timeouts that have
passed and hand back, for each of them, the first command that waits for that commit with that
timeout.  `equal_range` in the sorted map followed by a search for the timeout is the first match in
the whole list.  The result: the commands handed back, the commands left, the timeouts left. -/
def expire (now : Nat) : List (Nat × Nat) → List Cmd → List Cmd × W
  | [], cmds => ([], { cmds := cmds, touts := [] })
  | (t, k) :: rest, cmds =>
    if t < now then
      match takeFirst (fun c => c.commit == k && c.timeout == t) cmds with
      | some (c, cmds') => let r := expire now rest cmds'; (c :: r.1, r.2)
      | none => expire now rest cmds
    else ([], { cmds := cmds, touts := (t, k) :: rest })

/-- The second half of the sweep, BedrockServer.cpp:216-240: hand back from the front of the map
while the commit is there or the server is stopping, and erase one matching timeout of each.
`_shutdownState` is read once per iteration; here it is read once per sweep. -/
def release (count : Nat) (stopping : Bool) : List Cmd → List (Nat × Nat) → List Cmd × W
  | [], touts => ([], { cmds := [], touts := touts })
  | c :: rest, touts =>
    if c.commit ≤ count || stopping then
      let touts' := match takeFirst (fun e => e == (c.timeout, c.commit)) touts with
        | some r => r.2
        | none => touts
      let r := release count stopping rest touts'
      (c :: r.1, r.2)
    else ([], { cmds := c :: rest, touts := touts })

/-- The sweep at the top of the sync loop: the commands pushed back on the command queue, in order,
and what is left. -/
def W.sweep (w : W) (now count : Nat) (stopping : Bool) : List Cmd × W :=
  let a := expire now w.touts w.cmds
  let b := release count stopping a.2.cmds a.2.touts
  (a.1 ++ b.1, b.2)

/-- What happens to the two maps. -/
inductive Ev where
  | setAside (c : Cmd)
  | sweep (now count : Nat) (stopping : Bool)
deriving Repr, DecidableEq

/-- The commands handed back so far, and the maps. -/
structure St where
  back : List Cmd := []
  w : W := {}
deriving Repr, DecidableEq

def St.step (s : St) : Ev → St
  | .setAside c => { s with w := s.w.setAside c }
  | .sweep now count stopping =>
    let r := s.w.sweep now count stopping
    { back := s.back ++ r.1, w := r.2 }

def St.run (s : St) (es : List Ev) : St := es.foldl St.step s

end Bedrock.Waiting
