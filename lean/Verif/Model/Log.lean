import Verif.Model.Json

/-!
# Log lines: `libstuff/SLog.cpp`, `libstuff/libstuff.{h,cpp}`, `libstuff/SFluentdLogger.cpp`

What is written for a log call with parameters, which of their values are hidden, how long lines are
cut, and what reaches syslog and Fluentd.

Not modelled: the log mask, `SWHEREAMI` beyond the parts that come from a request, `syslog` itself, the
clock, the sockets (their answers are oracles).
-/

namespace Bedrock.Log
open Bedrock.Text Bedrock.Http

/-- `PARAMS_WHITELIST` at the start, SLog.cpp:54-92. -/
def initial : List Bytes :=
  [str "beginElapsed", str "blockDurationMS", str "chatID", str "command", str "commitElapsed",
   str "commitLockElapsed", str "Connection", str "Content-Length", str "count", str "dimension",
   str "hctstats", str "identifier", str "indexName", str "isUnique", str "logParam", str "message",
   str "newPriority", str "oldPriority", str "peer", str "prepareElapsed", str "query",
   str "readElapsed", str "reason", str "requestID", str "rollbackElapsed", str "rowNum", str "status",
   str "timeMS", str "thresholdMS", str "topic", str "totalElapsed", str "totalTransactionElapsed",
   str "userID", str "what", str "writeElapsed"]

def redacted : Bytes := str "<REDACTED>"

/-- The loop of `addLogParams`, SLog.cpp:107-117; `none` is the exception of line 112. -/
def addParams (white : List Bytes) (live : Bool) : Table → Bytes → Option Bytes
  | [], m => some m
  | (k, v) :: t, m =>
    if k ∈ white then addParams white live t (m ++ str " " ++ (k ++ str ": '" ++ v ++ str "'"))
    else if live = false then none
    else addParams white live t (m ++ str " " ++ (k ++ str ": '" ++ redacted ++ str "'"))

/-- `addLogParams`, SLog.cpp:94-124.  `cmd` is `SThreadLogCommand`, `live` is `GLOBAL_IS_LIVE`. -/
def addLogParams (white : List Bytes) (live : Bool) (cmd msg : Bytes) (params : Table) : Option Bytes :=
  let add := !cmd.isEmpty && (params.find (str "command")).isNone
  if params.isEmpty && !add then some msg
  else (addParams white live params (msg ++ str " ~~")).map
    (fun m => if add then m ++ str " command: '" ++ cmd ++ str "'" else m)

/-! ## What a thread is working on -/

/-- `SThreadLogPrefix`, `SThreadLogParam`, `SThreadLogCommand`, libstuff.cpp:91-94. -/
structure Ctx where
  pre : Bytes := str "xxxxxx"
  param : Bytes := str "we@dont.know"
  cmd : Bytes := []
deriving DecidableEq, Repr

/-- `SAutoThreadPrefix(const SData&)`, libstuff.cpp:3383-3393. -/
def Ctx.enter (r : Msg) : Ctx :=
  { pre := (r.table.find (str "requestID")).getD (str "xxxxxx")
    param := (r.table.find (str "logParam")).getD (str "we@dont.know")
    cmd := r.methodLine }

/-- `SAutoThreadPrefix(const string&)`, libstuff.cpp:3395-3404. -/
def Ctx.enterId (c : Ctx) (id : Bytes) : Ctx :=
  { pre := if id = [] then str "xxxxxx" else id, param := str "we@dont.know", cmd := c.cmd }

/-- What a thread does: the constructor and the destructor of `SAutoThreadPrefix`, and log calls. -/
inductive Act where
  | enter (r : Msg)
  | enterId (id : Bytes)
  | leave
  | log (msg : Bytes) (params : Table)
deriving DecidableEq, Repr

/-- The thread: its context, the saved ones, and the log calls made so far with the context of each. -/
structure Thread where
  ctx : Ctx := {}
  saved : List Ctx := []
  out : List (Ctx × Bytes × Table) := []
deriving DecidableEq, Repr

def Thread.step (t : Thread) : Act → Thread
  | .enter r => { t with ctx := .enter r, saved := t.ctx :: t.saved }
  | .enterId i => { t with ctx := t.ctx.enterId i, saved := t.ctx :: t.saved }
  | .leave => match t.saved with
    | c :: cs => { t with ctx := c, saved := cs }
    | [] => t
  | .log m p => { t with out := t.out ++ [(t.ctx, m, p)] }

def Thread.run (t : Thread) (as : List Act) : Thread := as.foldl Thread.step t

/-! ## The lines handed to syslog -/

/-- The pieces of a line, libstuff.h:311-313; `n` is 7168. -/
def pieces (n : Nat) (s : Bytes) : List Bytes :=
  if h : n = 0 ∨ s = [] then [] else s.take n :: pieces n (s.drop n)
termination_by s.length
decreasing_by
  have : s.length ≠ 0 := fun k => h (.inr (List.length_eq_zero_iff.mp k))
  simp only [List.length_drop]
  omega

/-- `SWHEREAMI`, libstuff.h:302.  `here` is the position in the code and the name of the thread. -/
def whereami (c : Ctx) (here : Bytes) : Bytes := c.pre ++ str " " ++ c.param ++ here

/-- The arguments of `SSyslogFunc`, one for each call, libstuff.h:309-313.  They are C strings. -/
def lines (c : Ctx) (here line : Bytes) : List Bytes :=
  (pieces 7168 line).map (fun p => cstr (whereami c here ++ p))

/-- What `sendto` gets in `SSyslogSocketDirect`, libstuff.cpp:256-270. -/
inductive Sent where
  | bytes (b : Bytes)
  /-- the call reads `n` bytes past the end of the buffer: undefined behaviour -/
  | overread (n : Nat)
deriving DecidableEq, Repr

/-- `SSyslogSocketDirect`, libstuff.cpp:256-270: `vsnprintf` writes what fits, with a zero byte at the end,
and returns the length of the whole text.  (With a header longer than the buffer it would also write past
the end.) -/
def direct (header text : Bytes) : Sent :=
  let size := 8 * 1024
  let room := size - header.length
  let buffer := header ++ (if room = 0 then [] else text.take (room - 1) ++ [0])
  let n := text.length + header.length
  if n ≤ size then .bytes (buffer.take n) else .overread (n - size)

/-! ## The record sent to Fluentd -/

/-- The fields of a record, libstuff.cpp:303-314, that do not come from the parameters. -/
structure Fields where
  timestamp : Bytes
  typeTag : Bytes
  threadName : Bytes
  file : Bytes
  line : Bytes
  function : Bytes
  message : Bytes
deriving DecidableEq, Repr

/-- The record, libstuff.cpp:303-318. -/
def record (white : List Bytes) (c : Ctx) (f : Fields) (params : Table) : Table :=
  let r : Table := []
  let r := r.set (str "timestamp") f.timestamp
  let r := r.set (str "source") (str "bedrock")
  let r := r.set (str "request_id") c.pre
  let r := r.set (str "log_param") c.param
  let r := r.set (str "command") c.cmd
  let r := r.set (str "type_tag") f.typeTag
  let r := r.set (str "thread_name") f.threadName
  let r := r.set (str "file") f.file
  let r := r.set (str "line") f.line
  let r := r.set (str "function") f.function
  let r := r.set (str "message") f.message
  params.foldl (fun r e => r.set e.1 (if e.1 ∈ white then e.2 else redacted)) r

/-- The text of a record, libstuff.cpp:321. -/
def fluentd (isFloat : Bytes → Bool) (tag time : Bytes) (r : Table) : Option Bytes :=
  (Json.composeObject isFloat true r).map (fun o => str "[\"" ++ tag ++ str "\"," ++ time ++ str "," ++ o ++ str "]\n")

/-! ## The thread that sends records: `SFluentdLogger.cpp:46-90` -/

/-- `sendAll`, SFluentdLogger.cpp:46-57: `ns` are the answers of `send`; `none` is an answer of 0 or less, and
an answer is at most the number of bytes offered.  The result: did it succeed, and the bytes the other side got. -/
def sendAll (data : Bytes) : List (Option Nat) → Bool × Bytes
  | [] => (data.isEmpty, [])
  | a :: ns =>
    if data = [] then (true, [])
    else match a with
      | none => (false, [])
      | some k =>
        let k := min (max k 1) data.length
        let r := sendAll (data.drop k) ns
        (r.1, data.take k ++ r.2)

/-- What becomes of a record: the connection it went to and the bytes written to it, and whether it was
given to syslog. -/
structure Done where
  conn : Nat
  wrote : Bytes
  syslog : Bool
deriving DecidableEq, Repr

/-- The answers of the system while a record is sent: does `connect` succeed (asked only without a connection),
and the answers of `send`. -/
structure Answer where
  connects : Bool
  sends : List (Option Nat)
deriving DecidableEq, Repr

/-- `senderLoop`, SFluentdLogger.cpp:59-90, for the records it takes from the ring: `conn` is the number of the
open connection, `next` the number of the next one.  `send` on the descriptor -1 fails. -/
def sender (conn : Option Nat) (next : Nat) : List (Bytes × Answer) → List Done
  | [] => []
  | (rec, a) :: rest =>
    let opened : Option Nat × Nat := match conn with
      | some c => (some c, next)
      | none => if a.connects then (some next, next + 1) else (none, next)
    match opened.1 with
    | some c =>
      let r := sendAll rec a.sends
      if r.1 then { conn := c, wrote := r.2, syslog := false } :: sender (some c) opened.2 rest
      else { conn := c, wrote := r.2, syslog := true } :: sender none opened.2 rest
    | none => { conn := opened.2, wrote := [], syslog := !rec.isEmpty } :: sender none opened.2 rest

/-! ## Adding to the whitelist: `SWhitelistLogParams`, SLog.cpp:126-136 -/

/-- A call: the snapshot it holds in `current`, and what it adds. -/
structure Call where
  version : Nat
  snap : List Bytes
  adds : List Bytes
deriving DecidableEq, Repr

/-- `PARAMS_WHITELIST` is a pointer to a set that is never changed: the pointer is `version`, and no pointer
is used again while a call holds it.  `finished` are the additions of the calls that have returned. -/
structure White where
  version : Nat := 0
  next : Nat := 1
  set : List Bytes := initial
  calls : Nat → Option Call := fun _ => none
  finished : List (List Bytes) := []

inductive WEv where
  /-- thread `i` calls the function and loads the pointer, SLog.cpp:128 -/
  | start (i : Nat) (adds : List Bytes)
  /-- thread `i` copies, inserts and exchanges, SLog.cpp:130-134 -/
  | exchange (i : Nat)
deriving DecidableEq, Repr

def White.put (w : White) (i : Nat) (c : Option Call) : White :=
  { w with calls := fun j => if j = i then c else w.calls j }

def White.step (w : White) : WEv → White
  | .start i adds => match w.calls i with
    | none => w.put i (some { version := w.version, snap := w.set, adds := adds })
    | some _ => w
  | .exchange i => match w.calls i with
    | none => w
    | some c =>
      if c.version = w.version then
        { w with version := w.next, next := w.next + 1, set := c.snap ++ c.adds, finished := c.adds :: w.finished }.put i none
      else w.put i (some { c with version := w.version, snap := w.set })

def White.run (w : White) (es : List WEv) : White := es.foldl White.step w

end Bedrock.Log
