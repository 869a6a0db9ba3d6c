/-!
# Model of the tool that loads a database into memory

`/repo/VMTouch.cpp:21-190` and its call, `/repo/main.cpp:351-355` (`-checkDBMemoryMapping`, `-setDBMemoryMapping`).

What the operating system answers is an input.  The threads only read the file and the map of resident pages and add to an atomic
counter; the order in which they end is an input.  Sizes are natural numbers: those of files and maps fit into 64 bits with room to
spare.  The figure in percent is left out: only its numerator and denominator are here.
-/

namespace Bedrock.VMTouch

/-- `bytes2pages`, VMTouch.cpp:21-28. -/
def bytes2pages (pagesize bytes : Nat) : Nat :=
  let pages := bytes / pagesize
  if bytes % pagesize ≠ 0 then pages + 1 else pages

/-- `pages_per_thread`, VMTouch.cpp:118-119 and 154-155.  `none`: a division by zero, since `hardware_concurrency` may answer 0. -/
def pagesPerThread (pages threads : Nat) : Option Nat :=
  if threads = 0 then none else some (pages / threads + 1)

/-- The loop of one thread, VMTouch.cpp:123-125 (`limit` is `pages_in_range - 1`) and 158-161 (`pages_in_range`): the pages looked at. -/
def slice (per limit i : Nat) : List Nat :=
  let first := per * i
  let last := min (first + per) limit
  List.range' first (last - first)

/-- The pages read by the threads, VMTouch.cpp:117-137; `order`: the threads, as they ran. -/
def touched (per pages : Nat) (resident : Nat → Bool) (order : List Nat) : List Nat :=
  order.flatMap (fun i => (slice per (pages - 1) i).filter (fun j => !resident j))

/-- The atomic counter after the threads ended, VMTouch.cpp:152-171. -/
def counted (per pages : Nat) (resident : Nat → Bool) (order : List Nat) : Nat :=
  order.foldl (fun total i => total + ((slice per pages i).filter resident).length) 0

/-- What the operating system does in one run. -/
structure World where
  /-- `open` with `O_NOATIME`: `none` is a descriptor, else whether the error is `EPERM` -/
  openNoAtime : Option Bool
  /-- `open` without it succeeds -/
  openPlain : Bool
  fstat : Bool
  /-- a block device, and whether its size was told -/
  block : Option Bool
  size : Nat
  mmap : Bool
  pagesize : Nat
  threads : Nat
  /-- `mincore` before -/
  resident : Nat → Bool
  /-- the order of the threads that read and that count -/
  orderTouch : List Nat
  orderCount : List Nat
  /-- `mincore` after the pages given were read -/
  reload : List Nat → Nat → Bool

/-- What a run does. -/
inductive Outcome where
  /-- the exception caught at VMTouch.cpp:179: its text, whether a map was given back and whether the descriptor was closed -/
  | failed (what : String) (unmapped closed : Bool)
  /-- division by zero -/
  | crash
  /-- the pages read and the two numbers printed, VMTouch.cpp:173-175; the map and the descriptor stay -/
  | done (read : List Nat) (resident pages : Nat)
deriving DecidableEq, Repr

/-- Whether there is a descriptor, VMTouch.cpp:56-70. -/
def opened (w : World) : Bool :=
  match w.openNoAtime with
  | none => true
  | some eperm => eperm && w.openPlain

/-- `check`, VMTouch.cpp:46-190.  `malloc` and `mincore` succeed, and the map is aligned. -/
def check (w : World) (touch : Bool) : Outcome :=
  if !opened w then .failed "Unable to open" false false
  else if !w.fstat then .failed "unable to fstat" false true
  else if w.block = some false then .failed "unable to ioctl" false true
  else if w.size = 0 then .failed "Empty file" false true
  -- `MAP_FAILED` is not null: it is given back too
  else if !w.mmap then .failed "unable to mmap" true true
  else
    let pages := bytes2pages w.pagesize w.size
    match pagesPerThread pages w.threads with
    | none => .crash
    | some per =>
      if touch then
        let read := touched per pages w.resident w.orderTouch
        .done read (counted per pages (w.reload read) w.orderCount) pages
      else .done [] (counted per pages w.resident w.orderCount) pages

end Bedrock.VMTouch
