import Verif.Model.Basic

/-!
# Page locks: `ConflictLockGuard.cpp`

The constructor's section under `controlMutex` is one step, taking the page's mutex (outside of
`controlMutex`) another, the destructor (under `controlMutex`) a third.  A waiting guard holds a plain
pointer to its mutex, so mutexes carry the number of their creation (`gen`) and a guard remembers it:
a pointer to a mutex that has been erased, even if the page has a new one, is undefined behaviour.
-/

namespace Bedrock.ConflictLock

/-- A live guard object. -/
structure Guard where
  id : Nat
  page : Nat
  /-- which mutex `m` points to -/
  gen : Nat
  /-- `m->lock()` has returned -/
  held : Bool
deriving Repr, DecidableEq

/-- The static members, ConflictLockGuard.h:14-19, and the live guards. -/
structure T where
  /-- `mutexes`: creation number and holder -/
  mutexes : Nat → Option (Nat × Option Nat)
  /-- `mutexes.size()` -/
  size : Nat
  /-- `mutexCounts` -/
  counts : Nat → Option Int
  /-- `mutexOrder` -/
  order : List Nat
  /-- `mutexOrderFastLookup` has an entry; its iterator is to the page's place in `order` -/
  fast : Nat → Bool
  nextGen : Nat
  guards : List Guard

def T.init : T :=
  { mutexes := fun _ => none, size := 0, counts := fun _ => none, order := [], fast := fun _ => false
    nextGen := 0, guards := [] }

/-- Find or create, ConflictLockGuard.cpp:18-47; `none` if `.at` throws. -/
def T.touch (t : T) (p : Nat) : Option T :=
  match t.mutexes p with
  | none =>
    some { t with
      mutexes := upd t.mutexes p (some (t.nextGen, none)), size := t.size + 1, nextGen := t.nextGen + 1
      counts := upd t.counts p (some ((t.counts p).getD 1))
      order := p :: t.order, fast := upd t.fast p true }
  | some _ =>
    let counts := upd t.counts p (some ((t.counts p).getD 0 + 1))
    if t.order.head? = some p then some { t with counts := counts }
    else if t.fast p then some { t with counts := counts, order := p :: t.order.erase p }
    else none

/-- The body of the pruning loop for the page found at the iterator, ConflictLockGuard.cpp:62-81. -/
def T.pruneOne (t : T) (p : Nat) : T :=
  if (t.counts p).getD 0 = 0 then
    { t with mutexes := upd t.mutexes p none, size := t.size - 1, counts := upd t.counts p none
             order := t.order.erase p, fast := upd t.fast p false }
  else t

/-- The pruning loop, ConflictLockGuard.cpp:56-83: the iterator starts at the end and goes through the
last `size - 500` pages, least recently used first.  `none` if it would run past the beginning. -/
def T.prune (t : T) : Option T :=
  if t.size > 500 then
    if t.order.length < t.size - 500 then none
    else some ((t.order.reverse.take (t.size - 500)).foldl T.pruneOne t)
  else some t

/-- The constructor up to the release of `controlMutex`, ConflictLockGuard.cpp:8-88. -/
def T.create (t : T) (id p : Nat) : Option T :=
  if p = 0 then some { t with guards := ⟨id, 0, 0, true⟩ :: t.guards }
  else do
    let t ← t.touch p
    let t ← t.prune
    match t.mutexes p with
    | none => none
    | some (gen, _) => some { t with guards := ⟨id, p, gen, false⟩ :: t.guards }

/-- `m->lock()`, ConflictLockGuard.cpp:91: waits while the mutex is held. -/
def T.lock (t : T) (g : Guard) : Option T :=
  match t.mutexes g.page with
  | none => none
  | some (gen, holder) =>
    if gen = g.gen then
      match holder with
      | none => some { t with mutexes := upd t.mutexes g.page (some (gen, some g.id))
                              guards := t.guards.map (fun x => if x.id = g.id then { x with held := true } else x) }
      | some _ => some t
    else none

/-- The destructor, ConflictLockGuard.cpp:94-106. -/
def T.destroy (t : T) (g : Guard) : Option T :=
  if g.page = 0 then some { t with guards := t.guards.filter (fun x => x.id != g.id) }
  else
    match t.mutexes g.page, t.counts g.page with
    | some (gen, _), some n =>
      some { t with mutexes := upd t.mutexes g.page (some (gen, none)), counts := upd t.counts g.page (some (n - 1))
                    guards := t.guards.filter (fun x => x.id != g.id) }
    | _, _ => none

inductive Op where
  | create (id page : Nat)
  | lock (id : Nat)
  | destroy (id : Nat)
deriving Repr, DecidableEq

/-- One step; `none` is undefined behaviour or an exception.  A step that no program can take (an
object created twice, a guard destroyed before its constructor returns) changes nothing. -/
def T.step (t : T) : Op → Option T
  | .create id p => if t.guards.any (fun g => g.id == id) then some t else t.create id p
  | .lock id =>
    match t.guards.find? (fun g => g.id == id) with
    | some g => if g.held then some t else t.lock g
    | none => some t
  | .destroy id =>
    match t.guards.find? (fun g => g.id == id) with
    | some g => if g.held then t.destroy g else some t
    | none => some t

def T.run (t : T) : List Op → Option T
  | [] => some t
  | op :: ops => (t.step op).bind (fun t => t.run ops)

end Bedrock.ConflictLock
