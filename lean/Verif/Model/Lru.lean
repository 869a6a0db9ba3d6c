import Verif.Model.Cache
import Verif.Model.Edit

/-!
# The cache plugin: the order of use, and how much may be stored

plugins/Cache.h 20-56, plugins/Cache.cpp 30-115.  `Verif.Model.Cache` takes the order of use as a list of names; here are the list
and the map that make it up, with their pointers to entries and their iterators.

A pointer is the number of an allocation, an iterator the number of a node; numbers are not used again.  Following a pointer to an
entry that was deleted, or an iterator to a node that was erased, is undefined behaviour (`none`).  The map is kept in no
particular order.
-/

namespace Bedrock.Lru
open Bedrock Bedrock.Text

/-- `Entry`, Cache.h:41-47. -/
structure Entry where
  name : Bytes
  listIt : Nat
  mapIt : Nat
  deriving DecidableEq, Repr

/-- `LRUMap`, Cache.h:20-53, and the entries that are allocated. -/
structure Lru where
  heap : List (Nat × Entry) := []
  /-- `_lruList`: node and entry -/
  list : List (Nat × Nat) := []
  /-- `_lruMap`: node, name and entry -/
  map : List (Nat × Bytes × Nat) := []
  fresh : Nat := 0
  deriving DecidableEq, Repr

/-- Follow a pointer. -/
def Lru.deref (s : Lru) (p : Nat) : Option Entry := (s.heap.find? (·.1 = p)).map (·.2)

/-- Erase a node by its iterator. -/
def eraseNode {α : Type} (l : List (Nat × α)) (it : Nat) : Option (List (Nat × α)) :=
  if l.any (·.1 = it) then some (l.filter (·.1 ≠ it)) else none

/-- `pushMRU`, Cache.cpp:51-71. -/
def Lru.push (s : Lru) (n : Bytes) : Option Lru :=
  match s.map.find? (·.2.1 = n) with
  | none =>
    let p := s.fresh
    some { heap := s.heap ++ [(p, { name := n, listIt := s.fresh + 2, mapIt := s.fresh + 1 })]
           map := s.map ++ [(s.fresh + 1, n, p)]
           list := s.list ++ [(s.fresh + 2, p)]
           fresh := s.fresh + 3 }
  | some (_, _, p) => do
    let e ← s.deref p
    let l ← eraseNode s.list e.listIt
    return { s with
      list := l ++ [(s.fresh, p)]
      heap := s.heap.map fun x => if x.1 = p then (p, { x.2 with listIt := s.fresh }) else x
      fresh := s.fresh + 1 }

/-- `popLRU`, Cache.cpp:76-91. -/
def Lru.pop (s : Lru) : Option (Lru × Bytes × Bool) :=
  match s.list with
  | [] => some (s, [], false)
  | (_, p) :: _ => do
    let e ← s.deref p
    let l ← eraseNode s.list e.listIt
    let m ← eraseNode s.map e.mapIt
    return ({ s with list := l, map := m, heap := s.heap.filter (·.1 ≠ p) }, e.name, true)

/-- The destructor, Cache.cpp:35-42, for at most `n` turns. -/
def Lru.destroy : Nat → Lru → Option Lru
  | 0, s => some s
  | n + 1, s => if s.list = [] then some s else s.pop.bind fun r => destroy n r.1

inductive Op where
  | push (n : Bytes)
  | pop
  deriving DecidableEq, Repr

/-- Calls in a row, and the answers of `popLRU`. -/
def Lru.run : Lru → List Op → Option (Lru × List (Bytes × Bool))
  | s, [] => some (s, [])
  | s, .push n :: os => do
    let s ← s.push n
    s.run os
  | s, .pop :: os => do
    let (s, a) ← s.pop
    let (s, as) ← s.run os
    return (s, a :: as)

/-! ## How much may be stored -/

inductive Size where
  | size (n : Int)
  /-- `SASSERT(maxCacheSize > 0)` -/
  | aborts
  /-- a signed product that does not fit -/
  | ub
  deriving DecidableEq, Repr

def kb : Bytes := str "KB"
def mb : Bytes := str "MB"
def gb : Bytes := str "GB"

/-- `initCacheSize`, Cache.cpp:93-115: no text ends in two of the units. -/
def cacheSize (arg : Bytes) : Size :=
  let s := sToUpper arg
  let v := strtoll s
  let f : Int := if Edit.endsWith s kb then 1024 else if Edit.endsWith s mb then 1024 * 1024
    else if Edit.endsWith s gb then 1024 * 1024 * 1024 else 1
  if 2 ^ 63 - 1 < v * f ∨ v * f < -2 ^ 63 then .ub
  else if v * f = 0 then .size (16 * 1024 * 1024 * 1024)
  else if v * f < 0 then .aborts
  else .size (v * f)

end Bedrock.Lru
