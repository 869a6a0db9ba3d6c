import Verif.Model.Http
import Verif.Model.Search

/-!
# Addresses, URLs, forms, peer lists and start options

`libstuff/libstuff.cpp` 856-890, 1236-1335, 1389-1430, 3492-3510, 3551-3572; `sqlitecluster/SQLiteNode.cpp` 77-112;
`main.cpp` 160-330 (the options with defaults).
-/

namespace Bedrock.Address
open Bedrock.Text Bedrock.Http

/-! ## URLs -/

/-- One of the three loops of `SParseURIPath`, libstuff.cpp:1289-1294, 1305-1310 and 1318-1323: what is decoded up to the
stop character, and what is left from it on. -/
def decodeUntil (stop : UInt8) : Bytes → Bytes × Bytes
  | [] => ([], [])
  | c :: rest =>
    if c = stop then ([], c :: rest)
    else
      ((uriDecodeChar (c :: rest)).1 ++ (decodeUntil stop ((c :: rest).drop (uriDecodeChar (c :: rest)).2)).1,
       (decodeUntil stop ((c :: rest).drop (uriDecodeChar (c :: rest)).2)).2)
  termination_by s => s.length
  decreasing_by
    all_goals
      have := uriDecodeChar_consumes (c :: rest)
      simp only [List.length_drop, List.length_cons]; omega

theorem decodeUntil_shrinks (stop : UInt8) (s : Bytes) : (decodeUntil stop s).2.length ≤ s.length := by
  fun_induction decodeUntil stop s with
  | case1 => simp
  | case2 => simp
  | case3 c rest h ih =>
    refine Nat.le_trans ih ?_
    simp only [List.length_drop]; omega

/-- The loop over name/value pairs, libstuff.cpp:1302-1331.  A length that has become negative ends the loop, as an empty
rest does here. -/
def parsePairs (t : Table) : Bytes → Table
  | [] => t
  | c :: rest =>
    parsePairs (t.set (decodeUntil 61 (c :: rest)).1 (decodeUntil 38 ((decodeUntil 61 (c :: rest)).2.drop 1)).1)
      ((decodeUntil 38 ((decodeUntil 61 (c :: rest)).2.drop 1)).2.drop 1)
  termination_by s => s.length
  decreasing_by
    have h1 := decodeUntil_shrinks 61 (c :: rest)
    have h2 := decodeUntil_shrinks 38 ((decodeUntil 61 (c :: rest)).2.drop 1)
    simp only [List.length_drop, List.length_cons] at h1 h2 ⊢
    omega

/-- `SParseURIPath`, libstuff.cpp:1282-1335: the path and the table; `none` for the result `false`. -/
def parseUriPath (s : Bytes) : Option (Bytes × Table) :=
  if (decodeUntil 63 s).1 = [] then none
  else some ((decodeUntil 63 s).1, parsePairs [] ((decodeUntil 63 s).2.drop 1))

/-- `http://` and `https://`. -/
def sHttp : Bytes := str "http://"
def sHttps : Bytes := str "https://"

/-- `SParseURI`, libstuff.cpp:1241-1275: host and path; `none` for the result `false`. -/
def parseUri (s : Bytes) : Option (Bytes × Bytes) :=
  if sHttp.isPrefixOf s then go (s.drop 7) else if sHttps.isPrefixOf s then go (s.drop 8) else none
where
  go (r : Bytes) : Option (Bytes × Bytes) :=
    some (r.takeWhile (· ≠ 47), if r.dropWhile (· ≠ 47) = [] then [47] else r.dropWhile (· ≠ 47))

/-- `SComposePOST`, libstuff.cpp:1389-1411.  `none`: nothing was written, and `outStr.resize(outStr.size() - 1)` throws. -/
def composePost (t : Table) : Option Bytes :=
  let out := t.flatMap fun e =>
    if e.2 = [] then uriEncode e.1 ++ [61, 38]
    else (parseList e.2 cookieSep).1.flatMap fun v => uriEncode e.1 ++ [61] ++ uriEncode v ++ [38]
  if out = [] then none else some out.dropLast

/-! ## Hosts -/

/-- `SBefore`, libstuff.cpp:3492-3500. -/
def sBefore (s needle : Bytes) : Bytes := match findSub needle s with
  | none => []
  | some i => s.take i

/-- `SAfter`, libstuff.cpp:3502-3510. -/
def sAfter (s needle : Bytes) : Bytes := match findSub needle s with
  | none => []
  | some i => s.drop (i + needle.length)

/-- `SParseHost`, libstuff.cpp:1414-1430.  `atoi` of glibc is `strtol` converted to `int`. -/
def parseHost (s : Bytes) : Option (Bytes × Nat) :=
  if sBefore s [58] = [] ∨ sAfter s [58] = [] then none
  else
    let port := toInt32 (strtoll (sAfter s [58]))
    if port < 0 ∨ 65535 < port then none else some (sBefore s [58], port.toNat)

/-- `SComposeHost`, libstuff.cpp:3551-3554. -/
def composeHost (domain : Bytes) (port : Nat) : Bytes := domain ++ [58] ++ natDec port

/-- `SHostIsValid`, libstuff.cpp:3556-3561. -/
def hostIsValid (s : Bytes) : Bool := (parseHost s).isSome

/-- `SGetDomain`, libstuff.cpp:3563-3572. -/
def getDomain (s : Bytes) : Bytes := match parseHost s with
  | some (d, _) => d
  | none => s

/-! ## The peer list -/

/-- What a peer is made from, SQLitePeer.cpp:14-20. -/
structure Peer where
  name : Bytes
  host : Bytes
  params : Table
  id : Nat
deriving DecidableEq, Repr

def sNodeName : Bytes := str "nodeName"

/-- One turn of the loop of `_initPeers`, SQLiteNode.cpp:85-98; `none` for a failed `SASSERT`. -/
def initPeer (s : Bytes) (id : Nat) : Option Peer :=
  match parseUriPath s with
  | none => none
  | some (host, params) =>
    if hostIsValid host then
      some { name := (match params.find sNodeName with
                      | some n => n
                      | none => getDomain host)
             host := host, params := params, id := id }
    else none

/-- The peers from the number `id` on. -/
def initPeersFrom (id : Nat) : List Bytes → Option (List Peer)
  | [] => some []
  | s :: rest => match initPeer s id, initPeersFrom (id + 1) rest with
    | some p, some ps => some (p :: ps)
    | _, _ => none

/-- `_initPeers`, SQLiteNode.cpp:77-102, before the list is sorted (which is in `Model/Lookup.lean`). -/
def initPeers (s : Bytes) : Option (List Peer) := initPeersFrom 1 (parseList s 44).1

/-- `isPermafollower`, SQLitePeer.cpp:285-292. -/
def isPermafollower (params : Table) : Bool := params.find (str "Permafollower") = some (str "true")

/-! ## Start options -/

/-- The state of the loop of `SParseCommandLine`: the table and the working name (empty: none). -/
structure Args where
  results : Table := []
  name : Bytes := []
deriving DecidableEq, Repr

/-- One turn, libstuff.cpp:861-881. -/
def Args.step (a : Args) (arg : Bytes) : Args :=
  let isName := [45].isPrefixOf arg
  if a.name = [] then if isName then { a with name := arg } else a
  else if isName then { results := a.results.set a.name [], name := arg }
  else { results := a.results.set a.name arg, name := [] }

/-- `SParseCommandLine`, libstuff.cpp:856-890, of the arguments after the first. -/
def parseCommandLine (args : List Bytes) : Table :=
  let a := args.foldl Args.step {}
  if a.name = [] then a.results else a.results.set a.name []

/-- `SETDEFAULT`, main.cpp. -/
def setDefault (t : Table) (name value : Bytes) : Table := if (t.find name).isSome then t else t.set name value

/-- The defaults of main.cpp: all but `-nodeName`, which is the host name. -/
def defaults (hostName : Bytes) : List (Bytes × Bytes) :=
  [(str "-db", str "bedrock.db"), (str "-serverHost", str "localhost:8888"), (str "-nodeHost", str "localhost:8889"),
   (str "-commandPortPrivate", str "localhost:8890"), (str "-controlPort", str "localhost:9999"),
   (str "-nodeName", hostName), (str "-cacheSize", str "0"), (str "-plugins", str "db,jobs,cache,mysql,compression"),
   (str "-priority", str "100"), (str "-maxJournalSize", str "1000000"), (str "-queryLog", str "queryLog.csv"),
   (str "-journalZstdDictionaryID", str "0"), (str "-checkpointMode", str "PASSIVE")]

/-- The options the server is started with. -/
def options (hostName : Bytes) (args : List Bytes) : Table :=
  (defaults hostName).foldl (fun t d => setDefault t d.1 d.2) (parseCommandLine args)

end Bedrock.Address
