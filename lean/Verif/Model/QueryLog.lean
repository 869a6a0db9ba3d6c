import Verif.Model.Redact

/-!
# The query log

`SQueryLogOpen` and `SQueryLogClose` (libstuff.cpp:2781-2821) and the row that `SQuery` writes for a query (3097-3106).  Not
modelled: `fopen` and `fwrite` that fail (the process aborts), a query in the second in which the log is being closed, two
threads that open at once.  `fwrite` locks the stream, so rows do not mix.
-/

namespace Bedrock.QueryLog
open Bedrock Bedrock.Text

/-- A query that `SQuery` ran: the file of the database, the text with its parameters filled in, the microseconds it took. -/
structure Query where
  db : Bytes
  sql : Bytes
  elapsed : Nat

/-- The first line of the log, libstuff.cpp:2795. -/
def schema : Bytes := b!"filename, query, elapsed\n"

/-- `csvRow`, libstuff.cpp:3099-3104. -/
def csvRow (q : Query) : Bytes :=
  34 :: (q.db ++ (b!"\", " ++ (34 :: (escape (trim (q.sql.take Redact.maxLogQuerySize)) [34] 34 ++
    (b!"\", " ++ (natDec q.elapsed ++ [10]))))))

/-- The files, and the one that `_g_sQueryLogFP` writes to. -/
structure St where
  fp : Option Bytes
  files : Bytes → Bytes

inductive Op where
  | opened (name : Bytes)
  | closed
  | ran (q : Query)

/-- `SQueryLogOpen` (libstuff.cpp:2782-2801), `SQueryLogClose` (2804-2821) and the end of `SQuery` (3098-3106). -/
def step (s : St) : Op → St
  | .opened name =>
    match s.fp with
    | some _ => s
    | none => { fp := some name, files := fun f => if f = name then schema else s.files f }
  | .closed => { s with fp := none }
  | .ran q =>
    match s.fp with
    | none => s
    | some name => { s with files := fun f => if f = name then s.files f ++ csvRow q else s.files f }

def run (s : St) (ops : List Op) : St := ops.foldl step s

end Bedrock.QueryLog
