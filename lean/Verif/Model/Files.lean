import Verif.Model.Text
import Verif.Model.Literal

/-!
# Files: loading, saving, copying, and the backup

libstuff.cpp:2491-2653 (`SFileExists`, `SFileLoad`, `SFileSave`, `SFileCopy`, `SFileDelete`), `BackupDB` (main.cpp:61-84) and
`-clean` (main.cpp:338-348).  A file system maps paths to contents.  What the system does with a call is up to the
environment: a file may not open, reading may fail after some bytes, writing may fail after some bytes, and what was
accepted by `fwrite` may not all reach the file when it is closed.

Simplified: all files are regular, no two paths are the same file unless they are equal, nobody else uses the files
meanwhile, and after a failed write the bytes accepted before are in the file.
-/

namespace Bedrock.Files
open Bedrock

abbrev Path := Bytes
abbrev FS := Path → Option Bytes

def FS.set (fs : FS) (p : Path) (c : Option Bytes) : FS := fun q => if q = p then c else fs q

/-- What a call meets. -/
structure Env where
  canRead : Bool := true
  canWrite : Bool := true
  /-- reading fails after so many bytes -/
  readErr : Option Nat := none
  /-- writing fails after so many bytes -/
  writeErr : Option Nat := none
  /-- so many bytes are in the file when it is closed -/
  flushErr : Option Nat := none
deriving DecidableEq, Repr

def cut (n : Option Nat) (s : Bytes) : Bytes := match n with
  | some n => s.take n
  | none => s

/-- The loop around `fread` of `SFileLoad`, libstuff.cpp:2512-2519: what is left of the file, in chunks. -/
def loadLoop (chunk : Nat) (s buffer : Bytes) : Bytes :=
  if _h : (s.take (chunk + 1)) = [] then buffer
  else loadLoop chunk (s.drop (chunk + 1)) (buffer ++ s.take (chunk + 1))
termination_by s.length
decreasing_by
  cases s with
  | nil => exact absurd rfl ‹_›
  | cons c s => simp only [List.drop_succ_cons, List.length_drop, List.length_cons]; omega

/-- `SFileLoad`, libstuff.cpp:2502-2525; `none`: `false`. -/
def load (fs : FS) (p : Path) (e : Env) : Option Bytes :=
  match fs p with
  | none => none
  | some c => if e.canRead then some (loadLoop 32767 (cut e.readErr c) []) else none

/-- `SFileSave`, libstuff.cpp:2536-2552. -/
def save (fs : FS) (p : Path) (buffer : Bytes) (e : Env) : FS × Bool :=
  if e.canWrite then
    let written := cut e.writeErr buffer
    if written.length = buffer.length then (fs.set p (some (cut e.flushErr written)), true)
    else (fs.set p none, false)
  else (fs, false)

/-- The loop of `SFileCopy`, libstuff.cpp:2585-2609: what is left to read, the bytes the target takes before writing fails,
what is written so far; the flag: no write failed. -/
def copyLoop (chunk : Nat) (room : Option Nat) (s out : Bytes) : Bytes × Bool :=
  if _h : (s.take (chunk + 1)) = [] then (out, true)
  else
    let piece := s.take (chunk + 1)
    match room with
    | some n =>
      if n < piece.length then (out ++ piece.take n, false)
      else copyLoop chunk (some (n - piece.length)) (s.drop (chunk + 1)) (out ++ piece)
    | none => copyLoop chunk none (s.drop (chunk + 1)) (out ++ piece)
termination_by s.length
decreasing_by
  all_goals
    cases s with
    | nil => exact absurd rfl ‹_›
    | cons c s => simp only [List.drop_succ_cons, List.length_drop, List.length_cons]; omega

/-- `SFileCopy`, libstuff.cpp:2555-2627.  The target is emptied when it is opened, before anything is read. -/
def copy (fs : FS) (src dst : Path) (e : Env) : FS × Bool :=
  match fs src with
  | none => (fs, false)
  | some _ =>
    if !e.canRead then (fs, false)
    else if !e.canWrite then (fs, false)
    else
      let fs := fs.set dst (some [])
      match copyLoop 65535 e.writeErr (cut e.readErr ((fs src).getD [])) [] with
      | (out, ok) => (fs.set dst (some (cut e.flushErr out)), ok)

/-- `SFileDelete`, libstuff.cpp:2630-2642; `can`: whether `unlink` succeeds. -/
def delete (fs : FS) (p : Path) (can : Bool) : FS × Bool :=
  match fs p with
  | none => (fs, false)
  | some _ => if can then (fs.set p none, true) else (fs, false)

/-- `basename` of a path that does not end in a slash. -/
def baseName (p : Path) : Bytes := (p.reverse.takeWhile (· != 47)).reverse

/-- `BACKUP_DIR`, main.cpp:60. -/
def backupDir : Bytes := b!"/var/tmp/"

/-- One of the three copies of a backup; `none`: the assertion ends the process. -/
def backupOne (fs : FS) (p : Path) (e : Env) : Option FS :=
  match copy fs p (backupDir ++ baseName p) e with
  | (fs, true) => some fs
  | (_, false) => none

/-- A copy that is made if there is such a file. -/
def backupIf (fs : FS) (p : Path) (e : Env) : Option FS :=
  if (fs p).isSome then backupOne fs p e else some fs

/-- `BackupDB`, main.cpp:61-84. -/
def backup (fs : FS) (db : Path) (e1 e2 e3 : Env) : Option FS :=
  (backupOne fs db e1).bind fun fs => (backupIf fs (db ++ b!"-wal") e2).bind fun fs => backupIf fs (db ++ b!"-shm") e3

/-- `-clean`, main.cpp:338-348. -/
def clean (fs : FS) (db : Path) : FS :=
  ((((fs.set db none).set (db ++ b!"-pagemap") none).set (db ++ b!"-wal2") none).set (db ++ b!"-wal") none).set (db ++ b!"-shm") none

end Bedrock.Files
