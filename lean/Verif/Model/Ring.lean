/-!
# The multi-producer, single-consumer ring buffer: `libstuff/SRingBuffer.h`

Every atomic access is one step; any number of producers and the consumer interleave arbitrarily.
Loads of the two indices may return any earlier value (the first load of `writeIndex` and the one of
a failed compare-exchange are relaxed; the load of `readIndex` in `push` may be old as well);
read-modify-write operations act on the newest value, as C++ guarantees.  The slot's payload is
published by the release store of its state and read after an acquire load of it, so it is modelled
as plain memory.  Indices do not wrap (64 bits); the one subtraction that can go below zero is
modelled as it wraps.
-/

namespace Bedrock.Ring

/-- `State`, SRingBuffer.h:13-18. -/
inductive SlotState where
  | empty | ready | shutdown
deriving Repr, DecidableEq

/-- `BufferElement`, SRingBuffer.h:26-30. -/
structure Slot (T : Type) where
  data : Option T := none
  state : SlotState := .empty

/-- Where a producer thread is in `push` (SRingBuffer.h:32-54) or `shutdown` (90-95). -/
inductive Producer (T : Type) where
  /-- not in a call -/
  | idle
  /-- `currentWriteIndex` has been loaded (line 34, or by a failed exchange in line 40) -/
  | loaded (w : Nat) (v : T)
  /-- the check of line 37 has passed -/
  | checked (w : Nat) (v : T)
  /-- the exchange of line 40 has succeeded: slot `w` is claimed -/
  | claimed (w : Nat) (v : T)
  /-- the payload has been stored (line 46) -/
  | stored (w : Nat) (v : T)
  /-- `shutdown` has claimed slot `w` (line 92) -/
  | closing (w : Nat)

/-- Where the consumer is in `pop`, SRingBuffer.h:56-82. -/
inductive Consumer (T : Type) where
  | idle
  /-- the slot was found ready (lines 58-71) -/
  | found
  /-- the payload has been moved out (line 74) -/
  | moved (v : Option T)
  /-- the slot was found to be the shutdown marker (line 67) -/
  | marker
  /-- the slot has been emptied (line 75 or 68); `none` for the shutdown marker -/
  | emptied (v : Option T)

/-- The ring with all its threads.  `claims` and `delivered` are history variables: the items in the
order their slots were claimed (`none` is the shutdown marker), and what `pop` has returned. -/
structure Ring (T : Type) where
  slots : Nat → Slot T
  readIndex : Nat
  writeIndex : Nat
  producers : Nat → Producer T
  consumer : Consumer T
  claims : List (Option T)
  delivered : List (Option T)
  /-- `shutdown` has been called -/
  closed : Bool

/-- The start. -/
def init (T : Type) : Ring T :=
  { slots := fun _ => {}, readIndex := 0, writeIndex := 0, producers := fun _ => .idle
    consumer := .idle, claims := [], delivered := [], closed := false }

/-- Replace one value of a function. -/
def upd {A : Type} (f : Nat → A) (i : Nat) (a : A) : Nat → A := fun j => if j = i then a else f j

/-- The steps. -/
inductive Step (T : Type) where
  /-- producer `p` calls `push(v)` and loads `w` as the write index -/
  | load (p : Nat) (v : T) (w : Nat)
  /-- producer `p` loads `r` as the read index and compares -/
  | check (p : Nat) (r : Nat)
  /-- producer `p` performs the exchange; if it fails (or fails spuriously) it loads `w` -/
  | exchange (p : Nat) (spurious : Bool) (w : Nat)
  /-- producer `p` stores the payload -/
  | store (p : Nat)
  /-- producer `p` sets the slot's state -/
  | publish (p : Nat)
  /-- thread `p` calls `shutdown` -/
  | close (p : Nat)
  /-- the consumer loads the state of the slot at the read index; `old` if it does not yet see the
  last store of a producer -/
  | look (old : Bool)
  /-- the consumer moves the payload out -/
  | move
  /-- the consumer empties the slot -/
  | release
  /-- the consumer advances the read index and returns -/
  | advance
deriving Repr

variable {T : Type}

/-- The slot number of an index, `BufferSize = C + 1` (SRingBuffer.h:44, 98). -/
def at_ (C i : Nat) : Nat := i % (C + 1)

/-- One step of a ring of capacity `C`; `none` if the thread is not at that point, if the value
claimed to be loaded was never there, or if `shutdown` is called twice. -/
def step (C : Nat) (s : Ring T) : Step T → Option (Ring T)
  | .load p v w =>
    match s.producers p with
    | .idle => if w ≤ s.writeIndex then some { s with producers := upd s.producers p (.loaded w v) } else none
    | _ => none
  | .check p r =>
    match s.producers p with
    | .loaded w v =>
      if s.readIndex < r then none
      else if w < r ∨ C ≤ w - r then some { s with producers := upd s.producers p .idle }
      else some { s with producers := upd s.producers p (.checked w v) }
    | _ => none
  | .exchange p spurious w' =>
    match s.producers p with
    | .checked w v =>
      if w = s.writeIndex ∧ spurious = false then
        some { s with writeIndex := s.writeIndex + 1, claims := s.claims ++ [some v]
                      producers := upd s.producers p (.claimed w v) }
      else if w' ≤ s.writeIndex then some { s with producers := upd s.producers p (.loaded w' v) }
      else none
    | _ => none
  | .store p =>
    match s.producers p with
    | .claimed w v =>
      some { s with slots := upd s.slots (at_ C w) { data := some v, state := (s.slots (at_ C w)).state }
                    producers := upd s.producers p (.stored w v) }
    | _ => none
  | .publish p =>
    match s.producers p with
    | .stored w _ =>
      some { s with slots := upd s.slots (at_ C w) { data := (s.slots (at_ C w)).data, state := .ready }
                    producers := upd s.producers p .idle }
    | .closing w =>
      some { s with slots := upd s.slots (at_ C w) { data := (s.slots (at_ C w)).data, state := .shutdown }
                    producers := upd s.producers p .idle }
    | _ => none
  | .close p =>
    match s.producers p with
    | .idle =>
      if s.closed then none
      else some { s with closed := true, writeIndex := s.writeIndex + 1, claims := s.claims ++ [none]
                         producers := upd s.producers p (.closing s.writeIndex) }
    | _ => none
  | .look old =>
    match s.consumer with
    | .idle =>
      match (s.slots (at_ C s.readIndex)).state with
      | .empty => some s
      | .ready => if old then some s else some { s with consumer := .found }
      | .shutdown => if old then some s else some { s with consumer := .marker }
    | _ => none
  | .move =>
    match s.consumer with
    | .found =>
      some { s with consumer := .moved (s.slots (at_ C s.readIndex)).data
                    slots := upd s.slots (at_ C s.readIndex) { data := none, state := (s.slots (at_ C s.readIndex)).state } }
    | _ => none
  | .release =>
    match s.consumer with
    | .moved v =>
      some { s with consumer := .emptied v
                    slots := upd s.slots (at_ C s.readIndex) { data := (s.slots (at_ C s.readIndex)).data, state := .empty } }
    | .marker =>
      some { s with consumer := .emptied none
                    slots := upd s.slots (at_ C s.readIndex) { data := (s.slots (at_ C s.readIndex)).data, state := .empty } }
    | _ => none
  | .advance =>
    match s.consumer with
    | .emptied v =>
      some { s with consumer := .idle, readIndex := s.readIndex + 1, delivered := s.delivered ++ [v] }
    | _ => none

/-- An execution. -/
def run (C : Nat) (s : Ring T) : List (Step T) → Option (Ring T)
  | [] => some s
  | e :: es => (step C s e).bind (run C · es)

end Bedrock.Ring
