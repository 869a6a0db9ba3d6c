import Verif.Model.DB

/-!
# Committing a command's transaction

Models `SQLiteCore::commit` (SQLiteCore.cpp:12-56) on top of the database layer of `Model/DB`.
Other threads keep running between the calls it makes: what they do is an input, a list of
operations for each gap.  The state of the node is read once between `prepare` and `commit`
(SQLiteCore.cpp:29; the read at line 41 only feeds a log line) and is an input too.
-/

namespace Bedrock.CoreCommit
open Bedrock Bedrock.DB

/-- What happens around one call. -/
structure Ctx where
  /-- `prepare`: the commit lock is granted if free -/
  wait : Bool := true
  /-- `prepare`: visiting order of the journal trim -/
  pick : List Nat := []
  /-- `prepare`: the journal `INSERT` succeeds -/
  insertOk : Bool := true
  /-- `node.getState() == LEADING` when it is read -/
  leading : Bool := true
  /-- `COMMIT` succeeds (otherwise `SQLITE_BUSY_SNAPSHOT`) -/
  commitOk : Bool := true
  /-- other threads, between `prepare` and what follows -/
  gap₁ : List Op := []
  /-- other threads, between the check of the node's state and `commit` -/
  gap₂ : List Op := []
  /-- other threads, between a failed `commit` and the rollback -/
  gap₃ : List Op := []

/-- Result of a call: the state, everything that happened, and the value returned; `none` if an
assertion of any thread killed the process. -/
structure Ret where
  sys : Sys
  trace : List (Op × Out)
  result : Option Bool

/-- Did the process die during a trace? -/
def died (tr : List (Op × Out)) : Bool := tr.any (fun e => e.2 == .abort)

/-- Roll back and return `false`. -/
def giveUp (env : Env) (h : Nat) (s : Sys) (tr : List (Op × Out)) : Ret :=
  let r := run env s [.rollback h]
  ⟨r.1, tr ++ r.2, some false⟩

/-- `SQLiteCore::commit` on handle `h` (SQLiteCore.cpp:12-56). -/
def commit (env : Env) (h : Nat) (x : Ctx) (s : Sys) : Ret :=
  let p := run env s [.prepare h x.wait x.pick x.insertOk]
  if died p.2 then ⟨p.1, p.2, none⟩ else
  let g := run env p.1 x.gap₁
  let tr := p.2 ++ g.2
  if died g.2 then ⟨g.1, tr, none⟩
  -- prepare returned false
  else if p.2.map Prod.snd ≠ [.done] then giveUp env h g.1 tr
  else if !x.leading then giveUp env h g.1 tr
  else if (g.1.handles h).uhash.isEmpty then ⟨g.1, tr, some true⟩  -- "nothing to commit"
  else
    let g2 := run env g.1 x.gap₂
    let tr2 := tr ++ g2.2
    if died g2.2 then ⟨g2.1, tr2, none⟩ else
    let c := run env g2.1 [.commit h x.commitOk]
    let tr3 := tr2 ++ c.2
    if died c.2 then ⟨c.1, tr3, none⟩
    else if c.2.map Prod.snd = [.committed] then ⟨c.1, tr3, some true⟩
    else
      let g3 := run env c.1 x.gap₃
      if died g3.2 then ⟨g3.1, tr3 ++ g3.2, none⟩
      else giveUp env h g3.1 (tr3 ++ g3.2)

end Bedrock.CoreCommit
