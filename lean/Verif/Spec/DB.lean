import Verif.Model.DB

/-!
# What a client of the database layer sees

Everything here is computed from the observable trace (calls and their results) only, never
from the state of the model.
-/

namespace Bedrock.DB.Spec
open Bedrock Bedrock.DB

/-- Hash of a history: each commit's hash is the digest of the previous hash followed by the
text of the transaction; the empty history has the empty hash. -/
def chain (H : Bytes → Bytes) (log : List Bytes) : Bytes :=
  log.foldl (fun h q => H (h ++ q)) []

/-- What the trace says about the database. -/
structure View where
  /-- committed transactions, oldest first -/
  log : List Bytes := []
  /-- text accumulated by the transaction open on a handle -/
  pend : Nat → Bytes := fun _ => []
  /-- whether the transaction open on a handle has been prepared -/
  prepped : Nat → Bool := fun _ => false
  /-- how many commits there were when the process was last started -/
  startedAt : Nat := 0
  /-- everything handed out for replication since the process was last started -/
  feed : TxMap := []

/-- One observed call. -/
def View.step (v : View) : Op × Out → View
  | (.crash, _) | (_, .abort) =>
      { v with pend := fun _ => [], prepped := fun _ => false, startedAt := v.log.length, feed := [] }
  | (.crashInCommit h, o) =>
      let log' := if o = .committed then v.log ++ [v.pend h] else v.log
      { log := log', pend := fun _ => [], prepped := fun _ => false, startedAt := log'.length, feed := [] }
  | (.begin h _ _ _, .done) => { v with pend := upd v.pend h [], prepped := upd v.prepped h false }
  | (.begin h _ _ _, .failed) => { v with prepped := upd v.prepped h false }
  | (.write h q true _, .done) => { v with pend := upd v.pend h (v.pend h ++ q) }
  | (.prepare h _ _ _, .done) => { v with prepped := upd v.prepped h true }
  | (.commit h _, .committed) =>
      { v with log := v.log ++ [v.pend h], prepped := upd v.prepped h false }
  | (.rollback h, _) => { v with prepped := upd v.prepped h false }
  | (.pop, .popped m) => { v with feed := v.feed ++ m }
  | _ => v

/-- The view after a whole trace. -/
def view (tr : List (Op × Out)) : View := tr.foldl View.step {}

/-- The calling discipline every caller in the code base follows: between `prepare` and the
`commit`/`rollback` that ends the transaction there is no further write and no second
`prepare` on that handle (SQLiteCore.cpp:12-56, SQLiteNode.cpp:210-223, 1794-1811). -/
def okCall (v : View) : Op → Prop
  | .write h _ _ _ => v.prepped h = false
  | .prepare h _ _ _ => v.prepped h = false
  | _ => True

/-- Every call in the trace obeys the discipline. -/
def Disciplined : View → List (Op × Out) → Prop
  | _, [] => True
  | v, e :: tr => okCall v e.1 ∧ Disciplined (v.step e) tr

/-- The replication entries of commits `from+1 … log.length`. -/
def entries (env : Env) (log : List Bytes) (start : Nat) : TxMap :=
  (List.range' start (log.length - start)).map fun i =>
    (i + 1, (stored env (log.getD i []), chain env.sha1hex (log.take (i + 1))))

end Bedrock.DB.Spec

namespace Bedrock.DB.Spec
open Bedrock Bedrock.DB

/-- Which handles have a transaction open, as far as their user can tell: a successful `begin`
opens one, a successful `commit` and any `rollback` close it. -/
def openStep (f : Nat → Bool) : Op × Out → Nat → Bool
  | (.crash, _) | (_, .abort) | (.crashInCommit _, _) => fun _ => false
  | (.begin h _ _ _, .done) => upd f h true
  | (.commit h _, .committed) => upd f h false
  | (.rollback h, _) => upd f h false
  | _ => f

/-- The careful caller: `begin` is only called on a handle without an open transaction, and
SQLite's own `BEGIN` statement does not fail. -/
def Careful : (Nat → Bool) → List (Op × Out) → Prop
  | _, [] => True
  | f, e :: tr =>
      (match e.1 with
       | .begin h _ _ ok => f h = false ∧ ok = true
       | _ => True) ∧ Careful (openStep f e) tr

/-- Two different inputs with the same digest. -/
def Collision (H : Bytes → Bytes) (x y : Bytes) : Prop := x ≠ y ∧ H x = H y

end Bedrock.DB.Spec
