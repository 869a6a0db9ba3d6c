import Verif.Model.Http
import Verif.Model.Search

/-!
# Sockets: `libstuff/STCPManager.cpp`, `libstuff/SSSLState.cpp`, `libstuff/SHTTPSProxySocket.cpp`

One socket with its buffers, and the calls made on it.  Every function holds `sendRecvMutex` while it touches the send
buffer, so calls on the same socket are steps.  What the kernel and the TLS library answer is given to each step, so the
theorems range over every answer: short writes, errors, end of file at any moment.  What was written is kept as `wire`
(bytes given to the kernel as they are) and as the `stream` of the TLS session.

The kernel: after `::shutdown(s, SHUT_RDWR)` a `send` fails with EPIPE, and a `recv` ends with end of file once what
had arrived is read.  TLS (`mbedtls_ssl_write`, not part of the repository): at most `maxLen` bytes go into a record; if
the record cannot be flushed the call answers WANT_WRITE, and the next call flushes that record *instead of* looking at
the bytes passed, and answers the length passed (up to `maxLen`): the library asks its callers to repeat the call with
the same arguments.

Not modelled: encryption, certificates, the bytes of the handshake, the times of the last traffic, the addresses.
-/

namespace Bedrock.Sockets
open Bedrock Bedrock.Text Bedrock.Http

/-- `Socket::State`, STCPManager.h:23. -/
inductive State where
  | connecting | connected | shuttingDown | closed
  deriving DecidableEq, Repr

/-- `state < SHUTTINGDOWN`, STCPManager.cpp:267. -/
def State.sendable : State → Bool
  | .connecting | .connected => true
  | .shuttingDown | .closed => false

/-- The error numbers `SCheckNetworkErrorType` distinguishes. -/
inductive Errno where
  | connAborted | timedOut | notConn | connRefused | connReset | pipe
  | intr | inProgress | eshutdown | wouldBlock
  | other
  deriving DecidableEq, Repr

/-- `SCheckNetworkErrorType`, libstuff.cpp:2204-2229: is the socket still alive? -/
def Errno.alive : Errno → Bool
  | .intr | .inProgress | .eshutdown | .wouldBlock => true
  | _ => false

/-- The answer of `send(2)`. -/
inductive Sent where
  | sent (n : Nat)
  | failed (e : Errno)
  deriving DecidableEq, Repr

/-- How a series of `recvfrom` ends: 0 or an error. -/
inductive Fin where
  | eof
  | failed (e : Errno)
  deriving DecidableEq, Repr

def Fin.alive : Fin → Bool
  | .eof => false
  | .failed e => e.alive

/-- `S_sendconsume`, libstuff.cpp:2279-2326: what stays in the buffer, what went out, alive? -/
def plainSend (buf : Bytes) (r : Sent) : Bytes × Bytes × Bool :=
  if buf = [] then (buf, [], true)
  else match r with
    | .sent n => (buf.drop n, buf.take n, true)
    | .failed e => if 1024 * 1024 * 1024 < buf.length then (buf, [], false) else (buf, [], e.alive)

/-- The reading loops of `S_recvappend` (libstuff.cpp:2251-2263, `cap` 4096) and `SSSLState::recvAppend`
(SSSLState.cpp:225-230, `cap` 16384): each read takes some bytes of what has arrived.  What is left, the receive buffer,
and whether the function returned from inside the loop (a blocking socket reads once). -/
def readLoop (cap : Nat) (blocking : Bool) : List Nat → Bytes → Bytes → Bytes × Bytes × Bool
  | [], inbox, buf => (inbox, buf, false)
  | k :: ks, inbox, buf =>
    let n := min (min k cap) inbox.length
    if n = 0 then (inbox, buf, false)
    else if blocking then (inbox.drop n, buf ++ inbox.take n, true)
    else readLoop cap blocking ks (inbox.drop n) (buf ++ inbox.take n)

/-- A TLS session: what was put into records, and whether a record waits to be flushed. -/
structure Tls where
  maxLen : Nat
  pending : Bool := false
  stream : Bytes := []
  deriving DecidableEq, Repr

/-- What happens in `mbedtls_ssl_write`. -/
inductive TlsSent where
  /-- everything could be written -/
  | done
  /-- the record is (still) not flushed: WANT_WRITE -/
  | blocked
  /-- WANT_READ, WANT_WRITE in the handshake, PEER_CLOSE_NOTIFY: nothing was taken -/
  | notReady
  /-- any other error -/
  | dead
  deriving DecidableEq, Repr

/-- `SSSLState::send`, SSSLState.cpp:127-156: the number of bytes reported, `none` for -1. -/
def Tls.send (t : Tls) (buf : Bytes) (r : TlsSent) : Tls × Option Nat :=
  match r with
  | .dead => (t, none)
  | .notReady => (t, some 0)
  | .done =>
    if t.pending then ({ t with pending := false }, some (min buf.length t.maxLen))
    else ({ t with stream := t.stream ++ buf.take t.maxLen }, some (min buf.length t.maxLen))
  | .blocked =>
    if t.pending then (t, some 0)
    else ({ t with stream := t.stream ++ buf.take t.maxLen, pending := true }, some 0)

/-- `SSSLState::sendConsume`, SSSLState.cpp:206-221. -/
def Tls.sendConsume (t : Tls) (buf : Bytes) (r : TlsSent) : Tls × Bytes × Bool :=
  if buf = [] then (t, buf, true)
  else match t.send buf r with
    | (t', none) => (t', buf, false)
    | (t', some n) => (t', buf.drop n, true)

/-- The fields of `SHTTPSProxySocket`, SHTTPSProxySocket.h:26-38. -/
structure Proxy where
  host : Bytes
  requestID : Bytes
  pre : Bytes := []
  filled : Bool := false
  negotiated : Bool := false
  deriving DecidableEq, Repr

/-- A socket. -/
structure Sock where
  /-- `s > 0` -/
  fd : Bool := true
  blocking : Bool := false
  state : State := .connecting
  connectFailure : Bool := false
  tls : Option Tls := none
  proxy : Option Proxy := none
  sendBuf : Bytes := []
  recvBuf : Bytes := []
  /-- `::shutdown(s, SHUT_RDWR)` was called -/
  shut : Bool := false
  /-- bytes given to the kernel by `S_sendconsume` -/
  wire : Bytes := []
  /-- bytes that have arrived and were not read yet, outside and inside the TLS session -/
  inRaw : Bytes := []
  inTls : Bytes := []
  deriving DecidableEq, Repr

/-- The answers to one attempt to send. -/
structure Wr where
  plain : Sent
  tls : TlsSent
  deriving DecidableEq, Repr

/-- The answers to one attempt to receive. -/
structure Rd where
  sizes : List Nat
  fin : Fin
  /-- how `mbedtls_ssl_read` ends: WANT_READ and WANT_WRITE leave the socket alive, SSSLState.cpp:158-198 -/
  tlsAlive : Bool
  /-- the constructor of `SSSLState` throws -/
  sslThrows : Bool
  maxLen : Nat
  deriving DecidableEq, Repr

/-- The kernel after `::shutdown` or without a file descriptor (EBADF). -/
def Sock.answer (s : Sock) (r : Sent) : Sent :=
  if !s.fd then .failed .other else if s.shut then .failed .pipe else r

def Sock.tlsAnswer (s : Sock) (r : TlsSent) : TlsSent := if !s.fd || s.shut then .dead else r

def Sock.ending (s : Sock) (f : Fin) : Fin := if s.shut then .eof else f

/-- The result of a call: the socket and the value, an exception, or undefined behaviour (a null pointer). -/
inductive Out where
  | ok (s : Sock) (alive : Bool)
  | throws (s : Sock)
  | ub
  deriving DecidableEq, Repr

/-- `S_sendconsume(s, sendBuffer)`. -/
def Sock.sendPlain (s : Sock) (w : Wr) : Out :=
  let r := plainSend s.sendBuf (s.answer w.plain)
  .ok { s with sendBuf := r.1, wire := s.wire ++ r.2.1 } r.2.2

/-- `ssl->sendConsume(sendBuffer)`. -/
def Sock.sendTls (s : Sock) (t : Tls) (w : Wr) : Out :=
  let r := t.sendConsume s.sendBuf (s.tlsAnswer w.tls)
  .ok { s with tls := some r.1, sendBuf := r.2.1 } r.2.2

/-- `Socket::send(size_t*)`, STCPManager.cpp:241-260, and `SHTTPSProxySocket::send(size_t*)`,
SHTTPSProxySocket.cpp:34-64. -/
def Sock.flush (s : Sock) (w : Wr) : Out :=
  match s.proxy with
  | none =>
    match s.tls with
    | some t => s.sendTls t w
    | none => if s.fd then s.sendPlain w else .ok s false
  | some p =>
    if p.pre ≠ [] then
      let r := plainSend p.pre (s.answer w.plain)
      .ok { s with proxy := some { p with pre := r.1 }, wire := s.wire ++ r.2.1 } r.2.2
    else if p.negotiated then
      match s.tls with
      | some t => s.sendTls t w
      | none => .ub
    else .ok s true

/-- The message that asks the proxy for a connection, SHTTPSProxySocket.cpp:72-78; `none`: `serialize` throws. -/
def connectText (host requestID : Bytes) : Option Bytes :=
  let t : Table := Table.set (str "Host") host []
  compose (fun b => b)
    { methodLine := str "CONNECT " ++ host ++ str " HTTP/1.1"
      table := if requestID ≠ [] then Table.set (str "X-Request-ID") requestID t else t }

/-- `Socket::send(const string&, size_t*)`, STCPManager.cpp:262-275, and `SHTTPSProxySocket::send(const string&, size_t*)`,
SHTTPSProxySocket.cpp:66-89. -/
def Sock.send (s : Sock) (b : Bytes) (w : Wr) : Out :=
  if s.state.sendable then
    match s.proxy with
    | none => ({ s with sendBuf := s.sendBuf ++ b } : Sock).flush w
    | some p =>
      if p.filled then ({ s with sendBuf := s.sendBuf ++ b } : Sock).flush w
      else match connectText p.host p.requestID with
        | none => .throws s
        | some c =>
          ({ s with proxy := some { p with pre := p.pre ++ c, filled := true }, sendBuf := s.sendBuf ++ b } : Sock).flush w
  else s.flush w

/-- `S_recvappend(s, recvBuffer)`, libstuff.cpp:2234-2276. -/
def Sock.recvPlain (s : Sock) (r : Rd) : Sock × Bool :=
  let x := readLoop 4096 s.blocking r.sizes s.inRaw s.recvBuf
  ({ s with inRaw := x.1, recvBuf := x.2.1 }, x.2.2 || (s.ending r.fin).alive)

/-- `ssl->recvAppend(recvBuffer)`, SSSLState.cpp:223-234. -/
def Sock.recvTls (s : Sock) (r : Rd) : Sock × Bool :=
  let x := readLoop (1024 * 16) false r.sizes s.inTls s.recvBuf
  ({ s with inTls := x.1, recvBuf := x.2.1 }, r.tlsAlive && !s.shut)

/-- The reply of the proxy, SHTTPSProxySocket.cpp:100-125; `alive` is what `S_recvappend` returned. -/
def Sock.proxyReply (s : Sock) (p : Proxy) (r : Rd) (alive : Bool) : Out :=
  if s.recvBuf = [] then .ok s alive
  else match parse s.recvBuf with
    | .incomplete => .ok s alive
    | .throws => .throws s
    | .ub => .ub
    | .ok _ m =>
      if m.methodLine = [] ∧ m.table = [] ∧ m.content = [] then .ok s alive
      else if sContains m.methodLine (str " 200 ") then
        if r.sslThrows then .throws { s with proxy := some { p with negotiated := true }, recvBuf := [] }
        else .ok { s with proxy := some { p with negotiated := true }, recvBuf := [], tls := some { maxLen := r.maxLen } } alive
      else .ok { s with fd := false, state := .closed } alive

/-- `Socket::recv`, STCPManager.cpp:295-313, and `SHTTPSProxySocket::recv`, SHTTPSProxySocket.cpp:91-136. -/
def Sock.recv (s : Sock) (r : Rd) : Out :=
  match s.proxy with
  | none =>
    match s.tls with
    | some _ => let x := s.recvTls r; .ok x.1 x.2
    | none => if s.fd then let x := s.recvPlain r; .ok x.1 x.2 else .ok s false
  | some p =>
    if !s.fd then .ok s false
    else if !p.negotiated then let x := s.recvPlain r; x.1.proxyReply p r x.2
    else match s.tls with
      | some _ => let x := s.recvTls r; .ok x.1 x.2
      | none => .ub

/-- `Socket::shutdown`, STCPManager.cpp:184-189. -/
def Sock.shutdown (s : Sock) (to : State) : Sock := { s with shut := true, state := to }

/-- What `poll` reported for the socket: POLLIN/POLLPRI, POLLOUT, POLLHUP, POLLERR. -/
structure Flags where
  inp : Bool := false
  out : Bool := false
  hup : Bool := false
  err : Bool := false
  deriving DecidableEq, Repr

/-- `SREADEVTS`, libstuff.h:624. -/
def Flags.read (f : Flags) : Bool := f.inp || f.hup

/-- Run `g` on the result of a call. -/
def Out.bind (o : Out) (g : Sock → Bool → Out) : Out :=
  match o with
  | .ok s a => g s a
  | .throws s => .throws s
  | .ub => .ub

/-- `if (cond) alive = call`. -/
def Sock.when (s : Sock) (c : Bool) (f : Sock → Out) : Out := if c then f s else .ok s true

/-- `case CONNECTED`, STCPManager.cpp:97-130. -/
def Sock.onConnected (s : Sock) (f : Flags) (r : Rd) (w : Wr) : Out :=
  let canRecv := if s.tls.isSome then f.read || f.out else f.read
  let canSend := if s.tls.isSome then f.read || f.out else f.out
  (s.when canRecv (·.recv r)).bind fun s1 a1 =>
    (s1.when canSend (·.flush w)).bind fun s2 a2 =>
      if !a1 || !a2 then .ok { s2 with state := .closed } true else .ok s2 true

/-- `case SHUTTINGDOWN`, STCPManager.cpp:132-173. -/
def Sock.onShuttingDown (s : Sock) (r : Rd) (w : Wr) : Out :=
  if s.tls.isSome then
    (s.recv r).bind fun s1 a1 =>
      (s1.flush w).bind fun s2 a2 =>
        if !a2 || (!a1 && s2.sendBuf == []) then .ok (s2.shutdown .closed) true else .ok s2 true
  else
    (s.when (s.sendBuf != []) (·.flush w)).bind fun s1 a1 =>
      let s2 := if a1 then s1 else { s1.shutdown .shuttingDown with sendBuf := [] }
      if s2.sendBuf = [] then
        (s2.recv r).bind fun s3 a3 => if a3 then .ok s3 true else .ok (s3.shutdown .closed) true
      else .ok s2 true

/-- `postPoll`, STCPManager.cpp:62-182; `soError`: SO_ERROR is set. -/
def Sock.postPoll (s : Sock) (f : Flags) (soError : Bool) (r : Rd) (w : Wr) : Out :=
  match s.state with
  | .connecting =>
    if !(f.out || f.hup || f.err) then .ok s true
    else
      let s := if f.hup then s.shutdown .closed else s
      if soError then .ok { s with state := .closed, connectFailure := true } true
      else ({ s with state := .connected } : Sock).onConnected f r w
  | .connected => s.onConnected f r w
  | .shuttingDown => s.onShuttingDown r w
  | .closed => .ok s true

/-- The answer of `mbedtls_ssl_handshake` when it is called. -/
inductive Shake where
  | finished | wantWrite | wantRead | failed
  deriving DecidableEq, Repr

/-- `prePoll`, STCPManager.cpp:12-60: the events asked for, reading and writing; `none`: not polled.  `over`: the
handshake is over. -/
def Sock.prePoll (s : Sock) (over : Bool) (h : Shake) : Option (Bool × Bool) :=
  if s.state = .closed then none
  else if s.state = .connecting then some (true, true)
  else if s.tls.isNone then some (true, s.sendBuf != [])
  else if over then some (true, s.sendBuf != [])
  else some (true, h == .wantWrite)

/-- The calls on a socket, and the arrival of bytes. -/
inductive Op where
  /-- `send(buffer)` -/
  | send (b : Bytes) (w : Wr)
  /-- `postPoll` -/
  | poll (f : Flags) (soError : Bool) (r : Rd) (w : Wr)
  /-- the owner takes bytes from the front of `recvBuffer` (`consumeFront`) -/
  | take (n : Nat)
  /-- `shutdown()`; `hard`: `shutdown(CLOSED)` -/
  | shutdown (hard : Bool)
  /-- bytes arrive, outside or inside the TLS session -/
  | arriveRaw (b : Bytes)
  | arriveTls (b : Bytes)
  deriving DecidableEq, Repr

/-- The socket after a call, whatever the value and whether or not an exception is thrown; `none`: undefined behaviour. -/
def Out.sock : Out → Option Sock
  | .ok s _ | .throws s => some s
  | .ub => none

def Sock.step (s : Sock) : Op → Option Sock
  | .send b w => (s.send b w).sock
  | .poll f e r w => (s.postPoll f e r w).sock
  | .take n => some { s with recvBuf := s.recvBuf.drop n }
  | .shutdown hard => some (s.shutdown (if hard then .closed else .shuttingDown))
  | .arriveRaw b => some { s with inRaw := s.inRaw ++ b }
  | .arriveTls b => some { s with inTls := s.inTls ++ b }

def Sock.run (s : Sock) : List Op → Option Sock
  | [] => some s
  | op :: ops => (s.step op).bind (·.run ops)

/-- `Socket(host, false)` or an accepted connection, STCPManager.cpp:191-212. -/
def plain (blocking : Bool) (state : State) : Sock := { blocking, state }

/-- `Socket(host, true)`. -/
def secure (maxLen : Nat) : Sock := { tls := some { maxLen } }

/-- `SHTTPSProxySocket(proxy, host, requestID)`, SHTTPSProxySocket.cpp:8-19. -/
def proxied (host requestID : Bytes) : Sock := { proxy := some { host, requestID } }

/-- The move constructor, STCPManager.cpp:214-230: the buffers are not moved. -/
def Sock.moved (s : Sock) : Sock := { s with sendBuf := [], recvBuf := [] }

end Bedrock.Sockets
