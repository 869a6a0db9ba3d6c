import Verif.Model.PeerPool
import Verif.Spec.Http

/-! # Well-behaved nodes: each answers every request it took with one message, and writes nothing else -/

namespace Bedrock.PeerPool.Spec
open Bedrock PeerPool

def Clean : Op → Prop
  | .serve _ m => Http.Spec.GoodMsg m
  | .noise _ _ => False
  | _ => True

/-- The connection a thread works on. -/
def works : Th → Option Nat
  | .sending _ c _ => some c
  | .receiving _ c _ _ => some c
  | _ => none

end Bedrock.PeerPool.Spec
