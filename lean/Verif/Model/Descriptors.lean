import Verif.Model.Address

/-!
# Descriptors of sockets

`S_socket` and `S_close` (libstuff/libstuff.cpp:1958-2093), `S_accept` (2152-2201), the constructor and the destructor of
`SSSLState` (libstuff/SSSLState.cpp:70-125), the objects that own a descriptor: `Socket` (libstuff/STCPManager.cpp:191-239),
`Port` and `openPort` (315-344), `SHTTPSProxySocket` (libstuff/SHTTPSProxySocket.cpp:8-32, 115-135) and the two places that
accept (BedrockServer.cpp:2108-2119, sqlitecluster/SQLiteNode.cpp:2115-2135).

What the kernel, the resolver and the TLS library answer is given to each call.  Left out: the addresses, logging, the memory of
the objects, and what is sent and received (`Bedrock.Sockets`).
-/

namespace Bedrock.Descriptors
open Bedrock

/-- What `S_socket` asks of the kernel, as far as it matters for the descriptor. -/
inductive Call where
  | opened (fd : Nat)
  /-- `FD_CLOEXEC` is asked for -/
  | cloexec (fd : Nat)
  | nonblock (fd : Nat)
  | bound (fd : Nat)
  | listening (fd : Nat)
  | connecting (fd : Nat)
  | closed (fd : Nat)
  deriving DecidableEq, Repr

/-- The errors of `connect` that libstuff.cpp:2046-2058 distinguishes. -/
inductive Errno where
  | wouldBlock | already | inProgress | intr | isConn | other
  deriving DecidableEq, Repr

/-- libstuff.cpp:2047-2053. -/
def Errno.harmless : Errno → Bool
  | .other => false
  | _ => true

/-- Answers to the calls of one `S_socket`. -/
structure Net where
  /-- the domain is an address: `inet_addr` -/
  literal : Bool := false
  /-- `getaddrinfo` finds one -/
  resolves : Bool := true
  /-- `socket` -/
  fd : Option Nat
  nonblock : Bool := true
  reuse : Bool := true
  bind : Bool := true
  listen : Bool := true
  /-- the error of `connect` -/
  connect : Option Errno := none

/-- `S_socket`, libstuff.cpp:1958-2076: the calls that had an effect, and the result (`none`: -1). -/
def socket (host : Bytes) (tcp port blocking : Bool) (e : Net) : List Call × Option Nat :=
  if (Address.parseHost host).isNone then ([], none)
  else if !e.literal && !e.resolves then ([], none)
  else match e.fd with
  | none => ([], none)
  | some n =>
    let a := [.opened n, .cloexec n]
    if !blocking && !e.nonblock then (a ++ [.closed n], none)
    else
      let b := a ++ if blocking then [] else [.nonblock n]
      if port then
        if !e.reuse then (b ++ [.closed n], none)
        else if !e.bind then (b ++ [.closed n], none)
        else if tcp && !e.listen then (b ++ [.bound n, .closed n], none)
        else (b ++ [.bound n] ++ (if tcp then [.listening n] else []), some n)
      else match e.connect with
        | none => (b ++ [.connecting n], some n)
        | some x => if x.harmless then (b ++ [.connecting n], some n) else (b ++ [.connecting n, .closed n], none)

/-- What a call does to the open descriptors. -/
def Call.effect (fds : List Nat) : Call → List Nat
  | .opened n => n :: fds
  | .closed n => fds.erase n
  | _ => fds

def effects (fds : List Nat) (cs : List Call) : List Nat := cs.foldl Call.effect fds

/-- Answers to the calls of a constructor of `SSSLState`. -/
structure Tls where
  hostname : Bool := true
  /-- `mbedtls_net_connect`, when there is no descriptor yet -/
  connect : Option Nat := none
  nonblock : Bool := true
  setup : Bool := true

/-- The constructor of `SSSLState`, SSSLState.cpp:70-118: the open descriptors and, unless it throws, the one that the object will
close.  Nothing is closed when it throws, and the destructor does not run then. -/
def tls (fds : List Nat) (fd : Option Nat) (e : Tls) : List Nat × Option Nat :=
  if !e.hostname then (fds, none)
  else match fd with
  | some n => if e.setup then (fds, some n) else (fds, none)
  | none =>
    match e.connect with
    | none => (fds, none)
    | some n => if !e.nonblock || !e.setup then (n :: fds, none) else (n :: fds, some n)

/-- A `Socket`, `Port` or `SHTTPSProxySocket`: the descriptor its destructor closes, `s` or that of `ssl`
(STCPManager.cpp:232-239, 338-344; SSSLState.cpp:120-125).  They are the same, except in an object that was moved from. -/
abbrev Obj := Option Nat

structure St where
  fds : List Nat
  objs : List Obj := []

inductive Op where
  /-- `Socket(host, https)` -/
  | connect (host : Bytes) (https : Bool) (e : Net) (t : Tls)
  /-- `SHTTPSProxySocket` -/
  | proxy (host : Bytes) (e : Net)
  /-- `openPort` -/
  | port (host : Bytes) (e : Net)
  /-- `S_accept` and what its callers make of the answer: `fd` what `accept` says, `nonblock` whether that can be set -/
  | accept (blocking : Bool) (fd : Option Nat) (nonblock : Bool)
  /-- the proxy said 200: `ssl = new SSSLState(hostname, s)` -/
  | negotiate (i : Nat) (t : Tls)
  /-- the move constructor -/
  | move (i : Nat)
  /-- the destructor -/
  | destroy (i : Nat)

/-- The object of `S_socket`'s result, if there is one: constructors that throw and `openPort` that answers null leave none. -/
def St.make (s : St) (r : List Call × Option Nat) : St :=
  match r.2 with
  | none => { s with fds := effects s.fds r.1 }
  | some n => { fds := effects s.fds r.1, objs := s.objs ++ [some n] }

/-- `Socket(host, https)`, STCPManager.cpp:198-212: `SSSLState` is made before `s` is looked at. -/
def St.connect (s : St) (host : Bytes) (https : Bool) (e : Net) (t : Tls) : St :=
  let r := socket host true false false e
  if !https then s.make r
  else
    let x := tls (effects s.fds r.1) r.2 t
    match x.2, r.2 with
    | none, _ => { s with fds := x.1 }
    | some _, none => { s with fds := x.1 }
    | some n, some _ => { fds := x.1, objs := s.objs ++ [some n] }

/-- `S_accept`, libstuff.cpp:2152-2175, and `s > 0` of its callers, BedrockServer.cpp:2112 and SQLiteNode.cpp:2124. -/
def St.accept (s : St) (blocking : Bool) (fd : Option Nat) (nonblock : Bool) : St :=
  match fd with
  | none => s
  | some n =>
    let t : St := { s with fds := n :: s.fds }
    if !blocking && !nonblock then t
    else if n = 0 then t
    else { t with objs := t.objs ++ [some n] }

def St.step (s : St) : Op → St
  | .connect host https e t => s.connect host https e t
  | .proxy host e => s.make (socket host true false false e)
  | .port host e => s.make (socket host true true false e)
  | .accept b fd nb => s.accept b fd nb
  | .negotiate i t =>
    match s.objs[i]? with
    | some (some n) => { s with fds := (tls s.fds (some n) t).1 }
    | _ => s
  | .move i =>
    match s.objs[i]? with
    | some o => { s with objs := s.objs.set i none ++ [o] }
    | none => s
  | .destroy i =>
    match s.objs[i]? with
    | some (some n) => { fds := s.fds.erase n, objs := s.objs.eraseIdx i }
    | some none => { s with objs := s.objs.eraseIdx i }
    | none => s

def St.run (s : St) (os : List Op) : St := os.foldl St.step s

/-- Descriptors that the kernel hands out with an operation. -/
def Op.given : Op → List Nat
  | .connect _ _ e t => e.fd.toList ++ t.connect.toList
  | .proxy _ e | .port _ e => e.fd.toList
  | .accept _ fd _ => fd.toList
  | _ => []

end Bedrock.Descriptors
