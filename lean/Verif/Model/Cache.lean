import Verif.Model.Basic

/-!
# Model of the Cache plugin

`/repo/plugins/Cache.cpp`.  A node has its copy of the `cache` table, the counter `cacheSize` kept by triggers, and
an in-memory list of names in order of use.

Simplifications, for the whole file:

* `GLOB` is a parameter; which row `LIMIT 1` yields is a parameter (`Env.first`).
* `db.read`/`db.write` do not fail ("502" is not modelled).
* The list and the map of `LRUMap` are one list without duplicates; `Verif.Model.Lru` has both, and C128 that they amount to this.
* 64-bit sums do not overflow.
* The maximum is any integer; `Lru.cacheSize` is the configured one.
-/

namespace Bedrock.Cache
open Bedrock

/-- What `SQ(const string&)` keeps of a string: it goes through `c_str()`.  libstuff.cpp:3607-3615. -/
def cstr : Bytes → Bytes
  | [] => []
  | b :: bs => if b = 0 then [] else b :: cstr bs

/-- SQLite's `LENGTH` of a text: a byte ≥ 0xC0 and the continuation bytes after it are one character.  `true` while
such continuation bytes are being skipped. -/
def charsFrom : Bool → Bytes → Nat
  | _, [] => 0
  | skip, b :: bs =>
    if skip && (0x80 ≤ b && b < 0xC0) then charsFrom true bs
    else 1 + charsFrom (0xC0 ≤ b) bs

/-- `LENGTH(value)` in the triggers, Cache.cpp:153-165.  The value is inserted as a text literal, and the BLOB
column does not convert it. -/
def chars (v : Bytes) : Nat := charsFrom false v

structure Row where
  name : Bytes
  value : Bytes
  deriving DecidableEq, Repr

structure Env where
  /-- `name GLOB pattern` -/
  glob : (pattern name : Bytes) → Bool
  /-- the row a `LIMIT 1` query yields -/
  first : List Row → Option Row
  /-- `_maxCacheSize` -/
  max : Int

/-- The two tables. -/
structure Tables where
  rows : List Row := []
  /-- the row of `cacheSize` -/
  size : Int := 0
  deriving DecidableEq, Repr

structure Node where
  db : Tables := {}
  /-- `_lruList`, least recently used first -/
  lru : List Bytes := []
  deriving DecidableEq, Repr

/-- `LRUMap::pushMRU`, Cache.cpp:49-70. -/
def pushMRU (lru : List Bytes) (n : Bytes) : List Bytes := lru.filter (· ≠ n) ++ [n]

/-- Sum of `LENGTH(OLD.value)` over the deleted rows: the trigger `cacheOnDelete`, Cache.cpp:162-165. -/
def total (rows : List Row) : Nat := (rows.map fun r => chars r.value).sum

/-- `DELETE FROM cache WHERE p(name)` with its trigger, Cache.cpp:261, 277. -/
def deleteWhere (p : Bytes → Bool) (t : Tables) : Tables :=
  { rows := t.rows.filter fun r => !p r.name,
    size := t.size - total (t.rows.filter fun r => p r.name) }

/-- `INSERT OR REPLACE`, Cache.cpp:285-289.  The delete trigger runs for the replaced row only if the connection has
`recursive_triggers` (set by `upgradeDatabase` on the connection it ran on, Cache.cpp:152). -/
def insertOrReplace (recursive : Bool) (n v : Bytes) (t : Tables) : Tables :=
  let old := t.rows.filter fun r => r.name = n
  { rows := (t.rows.filter fun r => r.name ≠ n) ++ [⟨n, v⟩],
    size := (if recursive then t.size - total old else t.size) + chars v }

/-- The eviction loop once the list of uses is empty, Cache.cpp:268-281.  `none`: the assertion on line 273 ends the
process.  The fuel is the number of rows; each round deletes one. -/
def evictRows (e : Env) (need : Int) : Nat → Tables → Option Tables
  | fuel, t =>
    if t.size + need ≤ e.max then some t
    else match fuel, e.first t.rows with
      | _, none => none
      | 0, _ => none
      | fuel + 1, some r =>
        if r.name = [] then none
        else evictRows e need fuel (deleteWhere (· = r.name) t)

/-- The eviction loop, Cache.cpp:268-281: while the new content does not fit, take the least recently used name, or
any row if the list is empty.  The name goes through `SQ`. -/
def evict (e : Env) (need : Int) : List Bytes → Tables → Option (List Bytes × Tables)
  | lru, t =>
    if t.size + need ≤ e.max then some (lru, t)
    else match lru with
      | [] => (evictRows e need t.rows.length t).map fun t' => ([], t')
      | n :: rest => if n = [] then none else evict e need rest (deleteWhere (· = cstr n) t)

structure WriteReq where
  name : Bytes
  /-- the "value" header -/
  value : Bytes := []
  content : Bytes := []
  invalidate : Bytes := []
  deriving DecidableEq, Repr

inductive Ans where
  | ok
  | found (name value : Bytes)
  | err (code : Nat)
  /-- an assertion ended the process -/
  | crash
  deriving DecidableEq, Repr

/-- The value a request carries: the header if it is not empty, else the body. -/
def WriteReq.data (r : WriteReq) : Bytes := if r.value = [] then r.content else r.value

/-- The checks of WriteCache, Cache.cpp:230-257. -/
def refused (e : Env) (r : WriteReq) : Bool :=
  r.name.length < 1 || r.name.length > 255
  || (if r.value ≠ [] then decide (r.value.length > 1024 * 1024)
      else if r.content ≠ [] then decide (r.content.length > 64 * 1024 * 1024)
      else true)
  || decide ((r.data.length : Int) > e.max)

/-- WriteCache, Cache.cpp:213-298, on a connection with or without `recursive_triggers`. -/
def write (e : Env) (recursive : Bool) (r : WriteReq) (s : Node) : Node × Ans :=
  if refused e r then (s, .err 402)
  else
    let t := if r.invalidate = [] then s.db else deleteWhere (e.glob (cstr r.invalidate)) s.db
    match evict e r.data.length s.lru t with
    | none => (s, .crash)
    | some (lru, t) =>
      ({ db := insertOrReplace recursive (cstr r.name) (cstr r.data) t, lru := pushMRU lru r.name }, .ok)

/-- ReadCache, Cache.cpp:168-211. -/
def read (e : Env) (pattern : Bytes) (s : Node) : Node × Ans :=
  if pattern.length < 1 || pattern.length > 255 then (s, .err 402)
  else match e.first (s.db.rows.filter fun r => e.glob (cstr pattern) r.name) with
    | none => (s, .err 404)
    | some r => ({ s with lru := pushMRU s.lru r.name }, .found r.name r.value)

/-- What can happen on a node.  `write … committed`: `process` ran here and the transaction committed or was rolled
back (a conflict or lost leadership); the list of uses is not rolled back.  `elsewhere`: another node, with its
own list of uses, ran the write and this node replicated it.  `restart` empties the list of uses. -/
inductive Op where
  | read (pattern : Bytes)
  | write (recursive : Bool) (r : WriteReq) (committed : Bool)
  | elsewhere (recursive : Bool) (r : WriteReq) (lru : List Bytes)
  | restart
  deriving DecidableEq, Repr

def step (e : Env) (s : Node) : Op → Node × Ans
  | .read p => read e p s
  | .write rec r committed =>
    let (s', a) := write e rec r s
    (if committed then s' else { s' with db := s.db }, a)
  | .elsewhere rec r lru =>
    let (s', a) := write e rec r { s with lru := lru }
    ({ s with db := s'.db }, a)
  | .restart => ({ s with lru := [] }, .ok)

/-- A history on one node, from an empty cache (`upgradeDatabase`, Cache.cpp:124-166). -/
def run (e : Env) (s : Node) : List Op → Node
  | [] => s
  | o :: os => run e (step e s o).1 os

end Bedrock.Cache
