import Verif.Model.Address
import Verif.Model.Sockets
import Verif.Model.Https

/-!
# Sending a request to another server: `SStandaloneHTTPSManager::_httpsSend`

libstuff/SHTTPSManager.cpp 10-19 and 177-263, the constructors of `Socket` and `SHTTPSProxySocket`.  What becomes of the socket
afterwards is in `Verif.Model.Sockets`, and of the answer in `Verif.Model.Https`.

Not modelled: opening the connection (whether a constructor throws is an input; see `Verif.Model.Descriptors`) and checking the
certificate (done by the library for the name given to it).
-/

namespace Bedrock.Outgoing
open Bedrock.Text Bedrock.Http Bedrock.Address
open Bedrock.Sockets (Sock Wr)

structure Env where
  /-- `proxyAddressHTTPS`: the environment variable HTTPS_PROXY, SHTTPSManager.cpp:10-19 -/
  proxy : Bytes := []
  /-- `isBlockingCommitThread` -/
  blockingCommit : Bool := false
  /-- `transaction->requestID`: the log prefix of the thread -/
  requestID : Bytes := []
  /-- a connection to this address can be opened (and, for TLS, the session be set up): the constructor does not throw -/
  opens : Bytes → Bool
  /-- how much TLS takes in one record -/
  maxLen : Nat := 16384

/-- `if (!SContains(host, ":")) host += ":443"`, SHTTPSManager.cpp:221-223. -/
def withPort (host : Bytes) : Bytes := if 58 ∈ host then host else host ++ str ":443"

/-- How the server is reached. -/
inductive Route where
  /-- a connection to the host; `tls`: encrypted, for that host -/
  | direct (host : Bytes) (tls : Bool)
  /-- a connection to the address of the proxy, which is asked to connect to the host -/
  | proxy (address host : Bytes)
  deriving DecidableEq, Repr

/-- The address the connection is opened to. -/
def Route.address : Route → Bytes
  | .direct h _ => h
  | .proxy a _ => a

/-- The choice of SHTTPSManager.cpp:215-241; `none`: the URL cannot be read.  The result of `SParseURI` for the proxy is not looked at:
the host is then empty. -/
def route (e : Env) (url : Bytes) (allowProxy : Bool) : Option Route :=
  match parseUri url with
  | none => none
  | some (host, _) =>
    let isHttps := sHttps.isPrefixOf url
    if isHttps && allowProxy && e.proxy != [] then some (.proxy ((parseUri e.proxy).elim [] (·.1)) (withPort host))
    else some (.direct (withPort host) isHttps)

/-- The socket made for it. -/
def Route.sock (e : Env) : Route → Sock
  | .direct _ true => Sockets.secure e.maxLen
  | .direct _ false => Sockets.plain false .connecting
  | .proxy _ host => Sockets.proxied host e.requestID

def sConnection : Bytes := str "Connection"

/-- `modifiedRequest`, SHTTPSManager.cpp:247-255. -/
def Route.request (req : Msg) : Route → Msg
  | .direct .. => req
  | .proxy .. => { req with table := req.table.erase sConnection }

/-- The outcome of `_httpsSend`. -/
inductive Out where
  /-- the constructor of `Transaction` throws, SHTTPSManager.cpp:192-194 -/
  | refused
  /-- `_createErrorTransaction`, SHTTPSManager.cpp:202-211: no socket, finished, response 503 -/
  | failed
  /-- `SASSERT(SHostIsValid(…))`, STCPManager.cpp:202 and SHTTPSProxySocket.cpp:14: the process ends -/
  | aborts
  /-- `serialize` throws -/
  | throws
  | ub
  /-- a transaction with its request, how it goes, and the socket after the first attempt to send -/
  | sent (r : Route) (req : Msg) (s : Sock)
  deriving DecidableEq, Repr

/-- `_httpsSend`, SHTTPSManager.cpp:213-263. -/
def httpsSend (e : Env) (gz : Bytes → Bytes) (url : Bytes) (req : Msg) (allowProxy : Bool) (w : Wr) : Out :=
  match route e url allowProxy with
  | none => if e.blockingCommit then .refused else .failed
  | some r =>
    if e.blockingCommit then .refused
    else if !hostIsValid r.address then .aborts
    else if !e.opens r.address then .failed
    else match compose gz (r.request req) with
    | none => .throws
    | some b => match (r.sock e).send b w with
      | .ok s _ => .sent r (r.request req) s
      | .throws _ => .throws
      | .ub => .ub

/-- The response of the transaction that is returned: 0 while it is under way. -/
def Out.response : Out → Option Int
  | .failed => some 503
  | .sent .. => some 0
  | _ => none

end Bedrock.Outgoing
