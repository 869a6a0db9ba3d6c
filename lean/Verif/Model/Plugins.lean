import Verif.Model.Http
import Verif.Model.Address

/-!
# Plugins: which are enabled, which one runs a request, and the names of commands

`loadPlugins` (main.cpp:86-157), the constructor of the server (BedrockServer.cpp:1035-1073), `getCommandFromPlugins`
(1281-1341), `generateCommandID` (2182-2185), `getCommand` of the bundled plugins.

Not modelled: what a constructor of a command does besides throwing or not; that a plugin might return nothing although it
has moved the request out of the object it was given.
-/

namespace Bedrock.Plugins
open Bedrock.Text Bedrock.Http

/-- What `getCommand` of a plugin does with a request: nothing, a command, or an exception. -/
inductive Claim where
  | no
  | yes
  /-- `SException`: `what()`, headers, body -/
  | throws (what : Bytes) (headers : Table) (body : Bytes)
  /-- any other exception -/
  | fails
  deriving DecidableEq, Repr

/-- A plugin: `getName`, the `version` of `getInfo`, `getCommand`. -/
structure Plugin where
  name : Bytes
  version : Option Bytes := none
  claim : Msg → Claim

/-! ## Which plugins are enabled -/

/-- `std::map::emplace` and `std::set::emplace` with keys compared as strings: an entry that is there stays. -/
def emplace {α : Type} (k : Bytes) (v : α) : List (Bytes × α) → List (Bytes × α)
  | [] => [(k, v)]
  | (m, w) :: t =>
    if lexLt k m then (k, v) :: (m, w) :: t
    else if lexLt m k then (m, w) :: emplace k v t
    else (m, w) :: t

/-- `find` in such a map. -/
def lookup {α : Type} (k : Bytes) : List (Bytes × α) → Option α
  | [] => none
  | (m, w) :: t => if m = k then some w else lookup k t

/-- The base name of a plugin, main.cpp:125-127: `rfind('/')`, then `find('.', slash)`, which finds nothing when there is no
slash (`npos`); then everything is the name. -/
def baseName (n : Bytes) : Bytes :=
  if 47 ∈ n then ((n.reverse.takeWhile (· != 47)).reverse).takeWhile (· != 46) else n

/-- What `dlopen` and `dlsym` find: a file and a symbol to a plugin. -/
abbrev Libraries := Bytes → Bytes → Option Plugin

/-- The file that is opened, main.cpp:138-140. -/
def fileName (n : Bytes) : Bytes := if (str ".so").isSuffixOf n then n else n ++ str ".so"

/-- What `loadPlugins` has so far: the registered plugins, and the names to enable. -/
structure Loaded where
  registered : List (Bytes × Plugin)
  names : List (Bytes × Unit) := []

/-- One name of the list, main.cpp:111-155. -/
def load (libs : Libraries) (l : Loaded) (n : Bytes) : Loaded :=
  if (lookup (sToUpper n) l.registered).isSome then { l with names := emplace (sToUpper n) () l.names }
  else
    let name := sToUpper (baseName n)
    if (lookup name l.names).isSome then l
    else
      let l := { l with names := emplace name () l.names }
      match libs (fileName n) (str "BEDROCK_PLUGIN_REGISTER_" ++ name) with
      | none => l
      | some p => { l with registered := emplace name p l.registered }

/-- `loadPlugins`, main.cpp:86-157. -/
def loadAll (bundled : List Plugin) (libs : Libraries) (arg : Bytes) : Loaded :=
  (parseList arg 44).1.foldl (load libs)
    { registered := bundled.foldl (fun r p => emplace (sToUpper p.name) p r) [] }

/-- The plugins of the server and the parts of its version. -/
structure Enabled where
  plugins : List (Bytes × Plugin) := []
  versions : List Bytes
  deriving Inhabited

/-- One name, BedrockServer.cpp:1040-1055; `none`: `SERROR` ends the process. -/
def enable (registered : List (Bytes × Plugin)) (e : Enabled) (n : Bytes) : Option Enabled :=
  match lookup (sToUpper n) registered with
  | none => none
  | some p => some {
      plugins := emplace p.name p e.plugins
      versions := match p.version with
        | none => e.versions
        | some v => e.versions ++ [p.name ++ [95] ++ v] }

/-- Insertion into a sorted list. -/
def insertSorted (x : Bytes) : List Bytes → List Bytes
  | [] => [x]
  | y :: l => if lexLt y x then y :: insertSorted x l else x :: y :: l

/-- `sort` of strings: the result of any correct algorithm. -/
def sorted (l : List Bytes) : List Bytes := l.foldr insertSorted []

/-- Enabling all, BedrockServer.cpp:1037-1056. -/
def enableAll (registered : List (Bytes × Plugin)) (own : Bytes) (names : List Bytes) : Option Enabled :=
  names.foldlM (enable registered) { versions := [own] }

/-- The version of the server, BedrockServer.cpp:1057-1073. -/
def version (e : Enabled) (override : Option Bytes) : Bytes :=
  match override with
  | some o => composeList (sorted (parseList o 58).1) [58]
  | none => composeList (sorted e.versions) [58]

/-- `main` (main.cpp:357) and the constructor: the plugins and the version, or the end of the process. -/
def boot (bundled : List Plugin) (libs : Libraries) (own arg : Bytes) (override : Option Bytes) :
    Option (List (Bytes × Plugin) × Bytes) :=
  let l := loadAll bundled libs arg
  -- `SComposeList` of the set, then `SParseList`
  let names := (parseList (composeList (l.names.map Prod.fst) [44, 32]) 44).1
  (enableAll l.registered own names).map fun e => (e.plugins, version e override)

/-! ## Which plugin runs a request -/

/-- What `getCommandFromPlugins` makes: the request and plugin of the command, or a complete command without either. -/
inductive Made where
  | command (plugin : Option Bytes) (req : Msg)
  | error (resp : Msg)
  deriving DecidableEq, Repr

/-- The command made of an exception, BedrockServer.cpp:1314-1336: its request is empty. -/
def errorCommand : Claim → Made
  | .throws what headers body => .error { methodLine := what, table := headers, content := body }
  | _ => .error { methodLine := str "500 Internal server error" }

/-- `getCommandFromPlugins`, BedrockServer.cpp:1301-1341. -/
def fromPlugins : List (Bytes × Plugin) → Msg → Made
  | [], m => .command none m
  | (_, p) :: ps, m => match p.claim m with
    | .no => fromPlugins ps m
    | .yes => .command (some p.name) m
    | c => errorCommand c

/-- `SData::getVerb`, SData.cpp:107-110. -/
def verb (m : Msg) : Bytes := m.methodLine.takeWhile (· != 32)

/-- `count` in a `set<string, STableComp>`. -/
def among (names : List Bytes) (v : Bytes) : Bool := names.any fun n => !(keyLt n v || keyLt v n)

def cacheVerbs : List Bytes := [str "ReadCache", str "WriteCache"]

/-- Jobs.cpp:58-73. -/
def jobsVerbs : List Bytes := [str "GetJob", str "GetJobs", str "QueryJob", str "CreateJob", str "CreateJobs", str "CancelJob",
  str "UpdateJob", str "RetryJob", str "FinishJob", str "FailJob", str "DeleteJob", str "RequeueJobs", str "CrashBedrockJob",
  str "ClearCrashedBedrockJobs"]

def claimIf (b : Bool) : Claim := if b then .yes else .no

/-- Cache.cpp:6-10, 22-28. -/
def cache : Plugin := { name := str "Cache", claim := fun m => claimIf (among cacheVerbs (verb m)) }
/-- Jobs.cpp:16-20, 117-123.  (`getInfo` has no version.) -/
def jobs : Plugin := { name := str "Jobs", claim := fun m => claimIf (among jobsVerbs (verb m)) }
/-- DB.cpp:15-19, 48-54. -/
def db : Plugin := { name := str "DB", claim := fun m => claimIf ((str "query:").isPrefixOf (sToLower m.methodLine) ||
    sIEquals (verb m) (str "Query")) }
/-- MySQL.cpp:122-126, 363-366. -/
def mysql : Plugin := { name := str "MySQL", claim := fun _ => .no }
/-- Compression.cpp:7-13, 33-36. -/
def compression : Plugin := { name := str "Compression", claim := fun _ => .no }

/-- main.cpp:95-109. -/
def bundled : List Plugin := [db, jobs, cache, mysql, compression]

/-! ## The name of a command -/

/-- `generateCommandID`, BedrockServer.cpp:2182-2185; `count` is an atomic 64 bit number. -/
def mint (node : Bytes) (count : Nat) : Bytes := node ++ [35] ++ natDec (count % 2 ^ 64)

/-- The name a request gets, and the counter after it, BedrockServer.cpp:1290-1298.  One atomic step of one thread. -/
def name (node : Bytes) (count : Nat) (m : Msg) : Bytes × Nat :=
  match m.table.find (str "ID") with
  | some i => (i, count)
  | none => (mint node count, count + 1)

/-- The names of requests, in the order in which their threads reach the counter. -/
def namesFrom (node : Bytes) : Nat → List Msg → List Bytes
  | _, [] => []
  | c, m :: ms => (name node c m).1 :: namesFrom node (name node c m).2 ms

end Bedrock.Plugins
