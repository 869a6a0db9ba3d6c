import Verif.Spec.Sync
import Verif.Model.Cluster

namespace Bedrock.Cluster.Spec
open Bedrock Bedrock.DB Bedrock.DB.Spec Bedrock.Sync Bedrock.Cluster

/-- The broadcast announcing transaction `i` (counted from 1) of a history. -/
def broadcast (env : DB.Env) (log : List Bytes) (i : Nat) : TxMsg where
  id := some (toString i).toUTF8.toList
  newCount := some i
  newHash := some (chain env.sha1hex (log.take i))
  content := stored env (log.getD (i - 1) [])

/-- The broadcasts of transactions `a+1, …, b`. -/
def broadcasts (env : DB.Env) (log : List Bytes) (a b : Nat) : List TxMsg :=
  (List.range' (a + 1) (b - a)).map (broadcast env log)

end Bedrock.Cluster.Spec
