import Verif.Spec.DB
import Verif.Model.Sync

namespace Bedrock.Sync.Spec
open Bedrock Bedrock.DB Bedrock.DB.Spec

/-- `qs` may be appended to the history `log` on the strength of the received `items`: item `j`
is a COMMIT carrying the next commit number, `qs[j]` is what replaying its content journals, and
the hash it claims is the hash of the history including it. -/
def Justified (env : REnv) : List Bytes → List Item → List Bytes → Prop
  | _, _, [] => True
  | _, [], _ :: _ => False
  | log, c :: items, q :: qs =>
      c.isCommit = true ∧ c.index = some ((log.length + 1 : Nat) : Int) ∧
      (∃ raw, env.decompress c.content = some raw ∧ q = env.expand raw) ∧
      c.hash = some (chain env.db.sha1hex (log ++ [q])) ∧
      Justified env (log ++ [q]) items qs

/-- The COMMIT message for the `i`-th transaction (counted from 1) of a history. -/
def honestItem (env : DB.Env) (log : List Bytes) (i : Nat) : Item where
  isCommit := true
  index := some (i : Int)
  hash := some (chain env.sha1hex (log.take i))
  content := stored env (log.getD (i - 1) [])

/-- The COMMIT messages for transactions `a+1, …, b` of a history, in order. -/
def honestItems (env : DB.Env) (log : List Bytes) (a b : Nat) : List Item :=
  (List.range' (a + 1) (b - a)).map (honestItem env log)

/-- The journal text of a transaction survives the trip through a peer. -/
def Replayable (env : REnv) (log : List Bytes) : Prop :=
  ∀ q ∈ log, ∃ raw, env.decompress (stored env.db q) = some raw ∧ env.expand raw = q

end Bedrock.Sync.Spec
