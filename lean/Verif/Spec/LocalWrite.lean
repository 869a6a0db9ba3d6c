import Verif.Model.LocalWrite
import Verif.Spec.DB

/-!
# What local writes are to do

`Lawful` is what is relied on of SQLite.  The rest reads a trace.
-/

namespace Bedrock.LocalWrite.Spec
open Bedrock Bedrock.LocalWrite

/-- What is taken from SQLite: the effect of a text depends on the pages it touches and is confined to them; a text that
counts no change makes none; texts, which end in semicolons, run one after the other when put together. -/
structure Lawful (q : Sqlite) : Prop where
  bounded : ∀ text d p, q.touch text d p = true → p < q.pages
  frame : ∀ text d d' p, q.eval text d = some d' → q.touch text d p = false → d' p = d p
  depends : ∀ text d e d', (∀ p, q.touch text d p = true → e p = d p) → q.eval text d = some d' →
    ∃ e', q.eval text e = some e' ∧ ∀ p, e' p = if q.touch text d p then d' p else e p
  quiet : ∀ text d d', q.changes text d = false → q.eval text d = some d' → d' = d
  empty : ∀ d, q.eval [] d = some d
  append : ∀ a b d, q.eval (a ++ b) d = (q.eval a d).bind (q.eval b)

/-- What happened to the data of a node: a transaction that is replicated was committed, or a local write. -/
inductive Ev where
  | replicated (text : Bytes)
  | own (text : Bytes)
deriving DecidableEq, Repr

def Ev.text : Ev → Bytes
  | .replicated t | .own t => t

def Ev.shared : Ev → Option Bytes
  | .replicated t => some t
  | .own _ => none

/-- One after the other. -/
def replay (q : Sqlite) (l : List Bytes) (d : Data) : Option Data := l.foldlM (fun d t => q.eval t d) d

/-- What a trace tells. -/
structure Seen where
  db : DB.Spec.View := {}
  /-- the text of the local write under way on a handle -/
  pend : Nat → Bytes := fun _ => []
  evs : List Ev := []

/-- The statements of a local text. -/
def pieceText : Piece → Bytes
  | .sql t => t
  | _ => []

def Seen.step (s : Seen) : Op × Out → Seen
  | (_, .db o r) =>
    let v := s.db.step (o, r)
    { s with
      db := v
      evs := s.evs ++ (v.log.drop s.db.log.length).map .replicated }
  | (.lbegin h _, .going) => { s with pend := upd s.pend h [] }
  | (.lrun h x, .going) => { s with pend := upd s.pend h (s.pend h ++ pieceText x) }
  | (.lend h _, .local' true) => { s with evs := s.evs ++ [.own (s.pend h)] }
  | _ => s

def seen (tr : List (Op × Out)) : Seen := tr.foldl Seen.step {}

/-- What happened to the data, oldest first. -/
def events (tr : List (Op × Out)) : List Ev := (seen tr).evs

/-- The calls on the database layer. -/
def dbTrace (tr : List (Op × Out)) : List (DB.Op × DB.Out) :=
  tr.filterMap fun e => match e.2 with | .db o r => some (o, r) | _ => none

/-- Local texts have no `COMMIT` or `ROLLBACK` in them. -/
def Plain (os : List Op) : Prop := ∀ o ∈ os, ∀ h x, o = .lrun h x → ∃ t, x = .sql t

end Bedrock.LocalWrite.Spec
