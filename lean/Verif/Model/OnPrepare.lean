import Verif.Model.CoreCommit
import Verif.Model.Literal

/-!
# Writing at the last moment: handlers run inside `prepare`

A command can ask to be called once more after its transaction has taken the commit lock and
before the journal row is computed (`shouldEnableOnPrepareNotification`, BedrockCommand.h:127-133).
This models the way there: the worker's decision (BedrockCore.cpp:255-371, BedrockServer.cpp:
767-779), the scope object that installs the handler (libstuff/AutoScopeOnPrepare.cpp), the call
inside `SQLite::prepare` (SQLite.cpp:1023-1029) and the rest of `SQLiteCore::commit`
(SQLiteCore.cpp:12-56) on top of `Model/DB` and `Model/CoreCommit`.

Simplified: a handler is a function from the number it is given to the calls it makes, with the
outcome of each; what it reads is not modelled, so the calls are an input.  A handler that ends the
transaction itself is not modelled.  By the time a handler runs the command's time limit and its
abort flag have been cleared (BedrockCore.cpp:363-364, SQLite.cpp:992-994), so its writes cannot be
interrupted, and query rewriting is off (`AutoScopeRewrite`, BedrockCore.cpp:289, has been
destroyed).
-/

namespace Bedrock.OnPrepare
open Bedrock Bedrock.DB

/-- How a statement of a handler ends: SQLite's result (SQLite.cpp:893-911). -/
inductive Res where
  | ok
  /-- the call returns `false` -/
  | error
  /-- `SQLITE_CONSTRAINT`: `constraint_error` is thrown -/
  | constraint
deriving DecidableEq, Repr

/-- One thing a handler does. -/
inductive HAct where
  /-- `write` or (`idem`) `writeIdempotent`; `keep`: it changed something (SQLite.cpp:921) -/
  | write (idem : Bool) (q : Bytes) (keep : Bool) (res : Res)
  /-- it throws something itself -/
  | throws
deriving DecidableEq, Repr

/-- `void (*)(SQLite& db, int64_t tableID)` (SQLite.h:221). -/
abbrev Handler := Nat → List HAct

/-- The members of a handle that matter here. -/
structure Ext where
  /-- `_shouldNotifyPluginsOnPrepare` -/
  notify : Bool := false
  /-- `_onPrepareHandler` -/
  handler : Option Handler := none
  /-- `_noopUpdateMode` -/
  noop : Bool := false

/-- The process. -/
structure St where
  sys : Sys
  ext : Nat → Ext

/-- A process that has just started on the same files. -/
def dead (env : Env) (s : Sys) : St := { sys := restart env s.tables, ext := fun _ => {} }

/-- The calls of a list, on handle `h`: `SQLite::write` returns at once in no-op mode
(SQLite.cpp:763-773), everything else reaches `_writeIdempotent` (SQLite.cpp:853-927).  The flag is
`false` if an exception escaped.  A call that returns `false` is not the end: whether anybody looks
at the value is up to the caller, and the ones modelled here do not. -/
def acts (h : Nat) (noop : Bool) : List HAct → Sys → Sys × List (Op × Out) × Bool
  | [], s => (s, [], true)
  | .throws :: _, s => (s, [], false)
  | .write idem q keep res :: as, s =>
    if noop && !idem then acts h noop as s
    else
      let r := DB.write s h q keep (res == .ok)
      let e := (Op.write h q keep (res == .ok), r.2)
      if res = .constraint then (s, [e], false)
      else
        let rest := acts h noop as r.1
        (rest.1, e :: rest.2.1, rest.2.2)

/-- How `prepare` ends. -/
inductive POut where
  | done
  | failed
  /-- an assertion failed -/
  | abort
  /-- an exception left it -/
  | escaped
  /-- a null function pointer was called -/
  | undefined
deriving DecidableEq, Repr

/-- What `prepare` leaves. -/
structure PRet where
  sys : Sys
  trace : List (Op × Out)
  out : POut
  /-- the number the handler was called with, if it was called -/
  told : Option Nat

/-- `prepare` picks a journal and trims it (SQLite.cpp:933-958). -/
def reserve (env : Env) (s : Sys) (h : Nat) (pick : List Nat) : Sys :=
  let t := s.nextJournal % env.numJournals
  { s with
    nextJournal := s.nextJournal + 1
    handles := upd s.handles h
      { s.handles h with trims := (t, trimIds env s t pick) :: (s.handles h).trims } }

/-- `prepare` takes the commit lock unless the handle has it (SQLite.cpp:961-1021). -/
def take (s : Sys) (h : Nat) : Sys :=
  if (s.handles h).locked then s
  else
    let s' := lockAcquire s h
    { s' with handles := upd s'.handles h { s'.handles h with locked := true } }

/-- The second half of `prepare`, once the lock is held and the handler has returned
(SQLite.cpp:1031-1077). -/
def finish (env : Env) (s2 : Sys) (h t : Nat) (ok : Bool) : Sys × Bool :=
  let hd2 := s2.handles h
  let hash := env.sha1hex (s2.lastHash ++ hd2.uquery)
  let q := stored env hd2.uquery
  let row : Row := { id := s2.commitCount + 1, query := q, hash := hash }
  let s3 := { s2 with
    prepared := s2.prepared.insertOrAssign (s2.commitCount + 1) (q, hash)
    handles := upd s2.handles h
      { hd2 with uhash := hash, uquery := q, pending := some (t, row) } }
  if ok then (s3, true) else (rollback s3 h, false)

/-- `SQLite::prepare` with the call of the handler (SQLite.cpp:929-1077).  The handler is given the
counter itself, not the number of the journal table it selects (SQLite.cpp:934, 1028). -/
def prepare (env : Env) (s : Sys) (x : Ext) (h : Nat) (wait : Bool) (pick : List Nat) (ok : Bool) :
    PRet :=
  let op := Op.prepare h wait pick ok
  let hd := s.handles h
  if !hd.inside then ⟨s, [(op, .abort)], .abort, none⟩
  else
    let journalID := s.nextJournal
    let t := journalID % env.numJournals
    let s1 := reserve env s h pick
    if !hd.locked && !(wait && lockFree s1 h) then ⟨s1, [(op, .failed)], .failed, none⟩
    else
      let s2 := take s1 h
      if x.notify then
        match x.handler with
        | none => ⟨s2, [], .undefined, none⟩
        | some f =>
          let r := acts h x.noop (f journalID) s2
          if !r.2.2 then ⟨r.1, r.2.1, .escaped, some journalID⟩
          else
            let e := finish env r.1 h t ok
            ⟨e.1, r.2.1 ++ [(op, if e.2 then .done else .failed)],
              if e.2 then .done else .failed, some journalID⟩
      else
        let e := finish env s2 h t ok
        ⟨e.1, [(op, if e.2 then .done else .failed)], if e.2 then .done else .failed, none⟩

/-- How a call ends. -/
inductive End where
  /-- it returned this -/
  | ret (b : Bool)
  /-- there was nothing to commit, and nothing was tried -/
  | nothing
  /-- the process is gone -/
  | died
  /-- undefined behaviour: nothing is claimed -/
  | undefined
deriving DecidableEq, Repr

/-- What a call leaves. -/
structure Ret where
  st : St
  trace : List (Op × Out)
  told : Option Nat
  result : End

/-- `SQLiteCore::commit` after `prepare` (SQLiteCore.cpp:21-56); `CoreCommit.commit` is `prepare`
followed by this. -/
def afterPrepare (env : Env) (h : Nat) (x : CoreCommit.Ctx) (p : Sys) (ptr : List (Op × Out))
    (ok : Bool) : CoreCommit.Ret :=
  let g := run env p x.gap₁
  let tr := ptr ++ g.2
  if CoreCommit.died g.2 then ⟨g.1, tr, none⟩
  else if !ok then CoreCommit.giveUp env h g.1 tr
  else if !x.leading then CoreCommit.giveUp env h g.1 tr
  else if (g.1.handles h).uhash.isEmpty then ⟨g.1, tr, some true⟩
  else
    let g2 := run env g.1 x.gap₂
    let tr2 := tr ++ g2.2
    if CoreCommit.died g2.2 then ⟨g2.1, tr2, none⟩ else
    let c := run env g2.1 [.commit h x.commitOk]
    let tr3 := tr2 ++ c.2
    if CoreCommit.died c.2 then ⟨c.1, tr3, none⟩
    else if c.2.map Prod.snd = [.committed] then ⟨c.1, tr3, some true⟩
    else
      let g3 := run env c.1 x.gap₃
      if CoreCommit.died g3.2 then ⟨g3.1, tr3 ++ g3.2, none⟩
      else CoreCommit.giveUp env h g3.1 (tr3 ++ g3.2)

/-- `AutoScopeOnPrepare::AutoScopeOnPrepare` (AutoScopeOnPrepare.cpp:3-10). -/
def install (x : Ext) (asked : Bool) (f : Option Handler) : Ext :=
  if asked then { x with handler := f, notify := true } else x

/-- `AutoScopeOnPrepare::~AutoScopeOnPrepare` (AutoScopeOnPrepare.cpp:12-18). -/
def remove (x : Ext) (asked : Bool) : Ext :=
  if asked then { x with handler := none, notify := false } else x

/-- `SQLiteCore::commit` (SQLiteCore.cpp:12-56).  It is `noexcept`: an exception that leaves
`prepare` ends the process. -/
def commit (env : Env) (h : Nat) (x : CoreCommit.Ctx) (asked : Bool) (f : Option Handler)
    (st : St) : Ret :=
  let e1 := install (st.ext h) asked f
  let p := prepare env st.sys e1 h x.wait x.pick x.insertOk
  let ext := upd st.ext h (remove e1 asked)
  match p.out with
  | .abort => ⟨dead env st.sys, p.trace, p.told, .died⟩
  | .escaped => ⟨dead env st.sys, p.trace ++ [(.crash, .done)], p.told, .died⟩
  | .undefined => ⟨{ sys := p.sys, ext := ext }, p.trace, p.told, .undefined⟩
  | _ =>
    let r := afterPrepare env h x p.sys p.trace (p.out == .done)
    match r.result with
    | none => ⟨{ sys := r.sys, ext := fun _ => {} }, r.trace, p.told, .died⟩
    | some b => ⟨{ sys := r.sys, ext := ext }, r.trace, p.told, .ret b⟩

/-- `SQLite::setUpdateNoopMode` (SQLite.cpp:1588-1604). -/
def setNoop (st : St) (h : Nat) (on : Bool) : St × List (Op × Out) :=
  if (st.ext h).noop = on then (st, [])
  else
    let q := if on then (b!"PRAGMA noop_update=ON;") else (b!"PRAGMA noop_update=OFF;")
    let ext := upd st.ext h { st.ext h with noop := on }
    if (st.sys.handles h).inside then
      let r := DB.write st.sys h q true true
      ({ sys := r.1, ext := ext }, [(.write h q true true, r.2)])
    else ({ st with ext := ext }, [])

/-- A command, as far as this goes. -/
structure Cmd where
  /-- the request has `mockRequest` -/
  mock : Bool := false
  /-- what `process` does -/
  body : List HAct := []
  /-- `shouldCommitEmptyTransactions()` (BedrockCommand.cpp:423-426) -/
  commitEmpty : Bool := false
  /-- what `shouldEnableOnPrepareNotification` returns, and what it leaves in the pointer, which
  starts as `nullptr` (BedrockServer.cpp:767-768) -/
  asked : Bool := false
  handler : Option Handler := none

/-- What a worker does with a command whose transaction is open on its handle `h`: the end of
`BedrockCore::processCommand` (BedrockCore.cpp:282-371) and the commit that follows
(BedrockServer.cpp:755-779).  If `process` threw, or wrote nothing and did not ask for an empty
commit, the transaction is rolled back and no commit is tried.  The deadline given to the commit is
part of `x.wait`. -/
def work (env : Env) (h : Nat) (c : Cmd) (x : CoreCommit.Ctx) (st : St) : Ret :=
  let a := setNoop st h c.mock
  let b := acts h (a.1.ext h).noop c.body a.1.sys
  let st1 : St := { a.1 with sys := b.1 }
  if !b.2.2 || ((st1.sys.handles h).uquery.isEmpty && !c.commitEmpty) then
    let d := setNoop { st1 with sys := rollback st1.sys h } h false
    ⟨d.1, a.2 ++ b.2.1 ++ [(.rollback h, .done)] ++ d.2, none, .nothing⟩
  else
    let d := setNoop st1 h false
    let r := commit env h x c.asked c.handler d.1
    { r with trace := a.2 ++ b.2.1 ++ d.2 ++ r.trace }

/-- Something a thread does. -/
inductive Call where
  /-- any call on the database layer, `prepare` included: the follower's (SQLiteNode.cpp:1801,
  1999) is one of these -/
  | op (o : Op)
  /-- a worker commits -/
  | commit (h : Nat) (x : CoreCommit.Ctx) (asked : Bool) (f : Option Handler)
  /-- a worker runs a command -/
  | work (h : Nat) (c : Cmd) (x : CoreCommit.Ctx)

/-- One call. -/
def step (env : Env) (st : St) : Call → Ret
  | .op (.prepare h w p ok) =>
    let r := prepare env st.sys (st.ext h) h w p ok
    match r.out with
    | .abort | .escaped => ⟨dead env st.sys, r.trace, r.told, .died⟩
    | .undefined => ⟨{ st with sys := r.sys }, r.trace, r.told, .undefined⟩
    | o => ⟨{ st with sys := r.sys }, r.trace, r.told, .ret (o == .done)⟩
  | .op o =>
    let r := DB.step env st.sys o
    let gone := r.2 == .abort || (match o with | .crash | .crashInCommit _ => true | _ => false)
    ⟨{ sys := r.1, ext := if gone then fun _ => {} else st.ext }, [(o, r.2)], none,
      if gone then .died else .ret (r.2 != .failed)⟩
  | .commit h x asked f => commit env h x asked f st
  | .work h c x => work env h c x st

/-- A whole run: every call with what it did. -/
def runs (env : Env) : St → List Call → List (Call × Ret)
  | _, [] => []
  | st, c :: cs =>
    let r := step env st c
    (c, r) :: runs env r.st cs

/-- The state after a run. -/
def final (env : Env) (st : St) (cs : List Call) : St :=
  cs.foldl (fun s c => (step env s c).st) st

/-- A process started on these files. -/
def start (env : Env) (tables : Nat → List Row) : St :=
  { sys := restart env tables, ext := fun _ => {} }

end Bedrock.OnPrepare
