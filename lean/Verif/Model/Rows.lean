import Verif.Model.Text
import Verif.Model.Literal

/-!
# The rows of a result

`SQValue` (libstuff/SQValue.cpp), `SQResultRow` and `SQResult` (libstuff/SQResult.h, SQResult.cpp:6-124, 245-308), how
`SQuery` fills a result (libstuff.cpp:2852-2856, 2960-3013) and how the handle keeps one in its cache
(SQLite.cpp:653-711).  A row knows the result it belongs to by address, and looks there for the names of its columns;
so results live on a heap here, and can be copied, assigned and destroyed.

Simplified: the text of a real number (`%!.15g`) is a parameter; resizing a result from outside is left out.
-/

namespace Bedrock.Rows
open Bedrock Bedrock.Text

/-- What SQLite holds in a column; `ρ`: real numbers. -/
inductive Col (ρ : Type) where
  | null
  | int (i : Int)
  | real (x : ρ)
  | text (s : Bytes)
  | blob (s : Bytes)
deriving DecidableEq, Repr

/-- `SQValue`, libstuff/SQValue.h. -/
inductive Value (ρ : Type) where
  | none
  | int (i : Int)
  | real (x : ρ)
  | text (s : Bytes)
  | blob (s : Bytes)
deriving DecidableEq, Repr

/-- One column of one row, libstuff.cpp:2984-3011: a text is read as a C string, a blob with its size. -/
def fetch {ρ : Type} : Col ρ → Value ρ
  | .null => .none
  | .int i => .int i
  | .real x => .real x
  | .text s => .text (cstr s)
  | .blob s => .blob s

/-- `SQValue::operator string`, SQValue.cpp:30-50; `fmt`: `sqlite3_snprintf` with `%!.15g`. -/
def Value.str {ρ : Type} (fmt : ρ → Bytes) : Value ρ → Bytes
  | .none => []
  | .int i => intDec i
  | .real x => fmt x
  | .text s => s
  | .blob s => s

/-- `SQResultRow`; `owner`: the address of the result it belongs to. -/
structure Row (ρ : Type) where
  owner : Option Nat
  data : List (Value ρ)
deriving DecidableEq, Repr

/-- `SQResult`. -/
structure Res (ρ : Type) where
  headers : List Bytes := []
  rows : List (Row ρ) := []
deriving DecidableEq, Repr

abbrev Heap (ρ : Type) := Nat → Option (Res ρ)

def Heap.set {ρ : Type} (h : Heap ρ) (a : Nat) (r : Option (Res ρ)) : Heap ρ := fun b => if b = a then r else h b

/-- What one statement of a query gives. -/
structure Stmt (ρ : Type) where
  headers : List Bytes
  rows : List (List (Col ρ))
deriving DecidableEq, Repr

/-- One statement of `SQuery` into the result at `a`, libstuff.cpp:2960-3013: the names replace those of the statement
before, the rows are added. -/
def stmt {ρ : Type} (a : Nat) (r : Res ρ) (s : Stmt ρ) : Res ρ :=
  { headers := s.headers, rows := r.rows ++ s.rows.map fun cs => { owner := some a, data := cs.map fetch } }

/-- `SQuery` into the result at `a`, libstuff.cpp:2852-3013. -/
def query {ρ : Type} (a : Nat) (ss : List (Stmt ρ)) : Res ρ := ss.foldl (stmt a) {}

/-- What is done with results. -/
inductive Op (ρ : Type) where
  /-- `SQResult a;` -/
  | create (a : Nat)
  /-- `SQResult a(b);`, SQResult.h:44: member by member. -/
  | copy (a b : Nat)
  /-- `a = b;`, SQResult.cpp:271-279. -/
  | assign (a b : Nat)
  /-- `a.clear();` -/
  | clear (a : Nat)
  /-- `SQuery(db, …, a);` -/
  | query (a : Nat) (ss : List (Stmt ρ))
  /-- the end of the life of `a` -/
  | destroy (a : Nat)
deriving Repr

/-- The result an operation changes. -/
def Op.target {ρ : Type} : Op ρ → Nat
  | .create a | .copy a _ | .assign a _ | .clear a | .query a _ | .destroy a => a

def step {ρ : Type} (h : Heap ρ) : Op ρ → Heap ρ
  | .create a => h.set a (some {})
  | .copy a b => h.set a (h b)
  | .assign a b => h.set a ((h b).map fun r => { r with rows := r.rows.map fun x => { x with owner := some a } })
  | .clear a => h.set a (some {})
  | .query a ss => h.set a (some (query a ss))
  | .destroy a => h.set a none

def run {ρ : Type} (h : Heap ρ) (ops : List (Op ρ)) : Heap ρ := ops.foldl step h

inductive Got where
  | val (s : Bytes)
  /-- an exception -/
  | throws
  /-- undefined behaviour: an object that is no more is read -/
  | ub
deriving DecidableEq, Repr

/-- `SQResultRow::operator[](size_t)`, SQResult.cpp:59-77. -/
def at' {ρ : Type} (fmt : ρ → Bytes) (data : List (Value ρ)) (i : Nat) : Got := match data[i]? with
  | some v => .val (v.str fmt)
  | none => .throws

/-- The loop over the names, SQResult.cpp:89-100: `i` columns are behind us. -/
def search {ρ : Type} (fmt : ρ → Bytes) (data : List (Value ρ)) (key : Bytes) (i : Nat) : List Bytes → Got
  | [] => .throws
  | n :: ns => if data.length ≤ i then .throws else if n = key then at' fmt data i else search fmt data key (i + 1) ns

/-- `SQResultRow::operator[](const string&)`, SQResult.cpp:86-118. -/
def byName {ρ : Type} (fmt : ρ → Bytes) (h : Heap ρ) (row : Row ρ) (key : Bytes) : Got := match row.owner with
  | none => .throws
  | some a => match h a with
    | none => .ub
    | some r => search fmt row.data key 0 r.headers

/-- `a[n][key]`, SQResult.cpp:261-269. -/
def get {ρ : Type} (fmt : ρ → Bytes) (h : Heap ρ) (a n : Nat) (key : Bytes) : Got := match h a with
  | none => .ub
  | some r => match r.rows[n]? with
    | none => .throws
    | some row => byName fmt h row key

/-- `SQLite::read` for one value, SQLite.cpp:658-668; `r`: what the query gave, if it succeeded. -/
def firstCell {ρ : Type} (fmt : ρ → Bytes) (r : Option (Res ρ)) : Bytes := match r with
  | none => []
  | some r => match r.rows with
    | [] => []
    | row :: _ => match row.data with
      | [] => []
      | v :: _ => v.str fmt

/-- `SQLite::read` of a deterministic query inside a transaction into `a`, SQLite.cpp:690-711; `c`: the place of the query in
the cache. -/
def readOps {ρ : Type} (h : Heap ρ) (a c : Nat) (ss : List (Stmt ρ)) : List (Op ρ) := match h c with
  | some _ => [.assign a c]
  | none => [.query a ss, .copy c a]

end Bedrock.Rows
