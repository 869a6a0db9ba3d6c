# Formal model of Expensify/Bedrock in Lean 4

## Layout

* `lean/Verif/Model/*.lean` – executable models: total, computable Lean functions. Every
  definition cites the file and lines in `/repo` it models and says where it simplifies.
* `lean/Verif/Lemmas/*.lean` – helper lemmas; nothing here is a claim.
* `lean/Verif/Props/*.lean` – the property theorems, with the small independent
  specification each is stated against and, beside it, `example`s showing that concrete
  non-trivial cases meet the hypotheses.
* `properties.jsonl` – the property list; `MANIFEST.json` – property → theorems;
  `seeded/LOG.jsonl` – the log of seeded-bug experiments.

## Plan per property

| id | what is modelled | how it is proved |
|----|------------------|------------------|
| C01 | hash chain `H(prev ++ query)` over a list of queries, digest function a parameter | induction from the end of the two lists; conclusion "equal, or here is a collision" |
| C02 | leader log, per-follower FIFO channel, follower log; steps commit/send/deliver/drop/subscribe | inductive invariant over all step lists |
| C03 | `_recvSynchronize` as a fold over arbitrary response elements with an explicit failure outcome | induction over the response |
| C04 | `_queueSynchronize`, `_recvSynchronize`, journal as list | range equation + strong induction on the distance to the source |
| C05 | begin/prepare/commit handlers of a TRANSACTION message | case analysis over all messages/states |
| C06 | `SharedData` prepared/committed maps, any number of handles | inductive invariant: feed so far ++ pending = committed suffix |
| C07 | leader state (commit count, last sent, committed map), subscription | inductive invariant |
| C08 | `commit` with the commit-enabled flag, `_changeState` side effects | invariant over traces |
| C09 | journal tables as lists of ids, trimming with LIMIT 10, restart | invariant + restart function |
| C10 | commit lock owner/recursion count, handle flags | invariant; leak paths shown by witness |
| C11 | STANDINGUP branch of `update` | counting argument over finite lists of peers |
| C12 | `_sendStandupResponse` as a function of node + peer table | case analysis, all peer tables |
| C13 | whole `update` with a permafollower flag on peers and self | invariance lemma, invariant over traces |
| C14 | `update`, `_onMESSAGE`, `_onDisconnect`, `_changeState` as a step function | induction over event lists |
| C15 | state-change counter in requests and responses | invariant over traces |
| C16 | LEADING branch of `update` | iff over all peer tables |
| C17 | `_dieIfForkedFromCluster` | arithmetic over all sizes |
| C18 | `setPriority` | case analysis + invariant |
| C19 | `_onDisconnect` | arithmetic; violation for even sizes as witness |
| C20 | lag hysteresis | invariant over histories |
| C21 | `write`/noop mode | invariant over histories |
| C22–C24 | `SComposeHTTP`, `SParseHTTP` on byte lists | round-trip by structural induction over headers and content |
| C25, C51 | `SEscape`, `SUnescape` | induction over bytes; UTF-8 by arithmetic/complete table |
| C26, C27 | URI and hex codecs | induction; per-byte step by complete table over 256 bytes |
| C28 | loop with trace of positions read | induction |
| C29, C30 | list and JSON composition and parsing | induction |
| C31 | `SQ` and an independent SQL string-literal lexer | induction |
| C32 | `SQliteParameter` codec | round-trip |
| C33, C34 | `SFastBuffer` with front/nextToCheck offsets | refinement to a byte list |
| C35 | ring buffer with program counters per producer | inductive invariant over all interleavings |
| C36 | queue + pipe counter | refinement to FIFO |
| C37 | two multimaps | invariant + refinement |
| C38 | sample windows | characterisation + invariant |
| C39, C40 | lock table, handle pool | invariants over traces |
| C41–C43 | command/commit decision logic with outcome of plugin/SQLite as parameters | case analysis |
| C44–C49 | jobs table as a list of records, each command a step | invariants over command histories |
| C50 | cache table, triggers, LRU | invariant; violation shown by witness |
| C56, C59, C65, C66 | one database handle over an abstract SQL engine | invariants over histories of calls; non-interference by a twin run |
| C52–C55, C57, C58, C60 | pure functions | round-trip / iff theorems |
| C61, C62, C64 | `runCommand` as a function of everything it meets (stage results, commit results, node state at each reading, sockets) | invariants over the turns of a call and the calls of a life |
| C67, C68 | JSON, Base64 and HTTP codecs composed; polling and waiting over arbitrary turns | round trip from C22 and C30; invariant of the cursor over all histories |
| C69 | codec of reports, map of refusals | round trip from C22; case analysis of the list |
| C70 | dispatch and effects of control commands over arbitrary headers | case analysis; invariant over sequences of requests |
| C71, C74 | the ports as flags, every event a step | invariant over all histories; counting of blocks |
| C72 | two multimaps | invariant tying both maps together; permutation over all histories |
| C73 | one function over request, response and server | codec of C22 |
| C75 | main thread, sync thread and commands as interleaved steps | invariants; closed sets of stuck states for the negations |
| C76 | the jobs table of C44–C49 | invariant over all histories of commands |
| C77 | texts of schedules as bytes | iff with a grammar; refinement of `Model/JobsSchedule.lean` |
| C78, C79 | the parser of C22 over cookies and chunked bodies | round trip; induction over chunks |
| C80 | bytes, with a table of code points | refinement to a function on characters |
| C81–C84 | a result as names and rows of strings | round trip with independent readers (CSV, SQL, lines) and the JSON of C30; additivity of display widths |
| C85 | log lines as byte strings, the whitelist, the pieces of a message, syslog and Fluentd records, queue and sender thread | induction over the message and over histories of the queue |
| C86 | pool, sockets under check, in use and closed, timer thread, notifications on their way | inductive invariant over all interleavings |
| C87, C88 | URLs, forms, hosts, the command line and the peer list as functions on byte strings | round trip with an independent writer; decomposition of every command line |
| C89, C90 | one socket (plain, TLS, through a proxy) with its buffers; every answer of the kernel and of the TLS library is an argument | invariants over every sequence of calls; what was handed over is read off the calls |
| C91, C92 | `postPoll` of a node as a function of what each socket received and found; message handlers are an arbitrary function of the history | inductive invariant tying the log to the sockets; decomposition of a round into small steps |
| C93 | `handleSocket` as a machine whose steps are what the client, the clock and the command's thread do | inductive invariant over the log (`Legal` for each event), composed with the parser theorems of C33/C34 for whole conversations |
| C94 | the Query command over an abstract engine (`pieces`, `readonly`, `exec`) | inverse of the splitter on quoted lists; loop specification of the window search; case analysis of `peek` with an `Honest` engine |
| C95 | editing functions on byte strings | inductive relations (`Replaced`, `Collapsed`) proved equivalent to the functions; digit arithmetic in bases 16 and 32 |
| C96 | schema checks over an abstract catalogue and engine | case analysis with the relations of C95; the loop of the cache table ends after two rounds |
| C97 | the sync thread, the main thread and the threads running commands as one machine, a step per read or write of a shared flag | inductive invariant (every command in exactly one place; upgrades under way = the flag); counting for permutations |
| C98 | the node's thread and the replication thread as one machine, a step per critical section and per read of `_leadPeer` | inductive invariant (what was received = applied, in hand, dropped, queued, in this order; a sleeping thread has nothing to do or is about to be notified); progress by running the thread alone |
| C99 | `finalizeTimingInfo` on the headers of an answer, with the wrapping sums; `preprocessRequest` | induction over the list of names and over the life of a command; sums over pieces of time |
| C100 | the sixteen tests of `onPortRecv` in order, the readers of table names, the 292 variables, `onPortRequestComplete` | case analysis along the tests with contradicting beginnings; a reader of SQL literals and statements (`Spec/MySQLQuery.lean`); the client's reader of C52 |
| C101 | `loadPlugins` and the constructor of the server on sorted maps, `getCommandFromPlugins`, the counter of names | induction over the list of plugins, extensionality of sorted maps, sorting and permutations, disjoint beginnings of method lines |
| C102 | the four patterns of `SRedactSensitiveValues` as lengths of matches, global replacement from the left | strong induction over the text before a secret; what a replacement can create (a pattern in the result was in the text, or touches a replacement); splitting at bytes no match contains |
| C103 | the handler SQLite calls during a query, the check after it and the cache, against arbitrary clocks and flags | invariant over all calls on a handle (limits sane, what is cached is whole); a query is either undisturbed or leaves a mark the check finds |
| C104 | padding, chaining, stripping and the two pads of HMAC, for any cipher and hash | round trip by induction on the blocks; the pads against the definition in RFC 2104 |
| C105 | the read and write loops, save, copy, delete, the backup and `-clean` over file systems and failing calls | the loops by induction on what is left; frame conditions for every path; sources are never targets |
| C106 | results as a heap of rows that point to the result they belong to; creating, copying, assigning, reading | rows of a result point to it: an invariant of assignment and queries; witnesses for the copy constructor |
| C107 | each node's patterns and a bag of messages between the nodes, under requests, deliveries, losses, logins, restarts | an invariant on patterns and messages over all histories; patterns survive being sent as a list |
| C108 | the log callback's patterns, the thread's variables, what a commit copies, the lock of each attempt | patterns find the last match: lemmas on suffixes; threads by induction on what is logged; locks by induction on attempts |
| C109 | `sqlite_master` under starts with any number of journals and changes by users; format; the loop that waits for the lock | an invariant of the schema over all histories; names of journals are injective; the commit count through `DB.restart` |
| C110 | the mask and counter of signals, the thread that receives them, the main loop; any schedule | an invariant over all schedules; a rank that falls with every step of the main thread; bit lemmas for the mask |
| C111 | one client's commands on any nodes, any other writers, followers that lag; the commit count in requests and answers | an invariant that ties what was answered to the leader's history; a relation between every two entries of the client's log |
| C112 | any number of nodes, their connections and messages under way; connections lost by either side, restarts, priorities | an invariant that ties every vote, counted or under way, to what the voter believes; two majorities share a voter |
| C113 | the same network, a majority of it connected and left alone, under every fair order of work and deliveries | an invariant over each pair of nodes and the messages between them; a measure no event increases; what has not settled still decreases it |
| C114 | the steps of a leader that stands down, commits of workers between any two of them, peers that subscribe, are lost or slow to read | an invariant over the steps; two runs in which a shutdown loses commits |
| C115 | the network of C112, with all nodes connected | invariant over the messages under way: there is a node with all commits, and whoever could stand up without them hears of them first; induction over the events of the network |
| C116 | `buildCommandFromRequest`, the message a node sends to the leader, and the way of a request through any number of nodes | invariant over the steps of the way; forging and ending the process as witnesses |
| C117 | the locks `commitLock`, `writeLock`, `_stateMutex` and the threads that take them, as lists of calls, in any number and order | invariant over all schedules: lock order, no deadlock, nothing changes while blocked; two counterexamples |
| C118 | `waitForReady`, `_sendCommandOnSocket` with the clock, `runOnPeer` by name, the threads of `runOnAll` | invariants on the clock over every wait; refinement of C63's loops; invariant over interleavings |
| C119 | `_status` with each look at the node's state separate, the composition of the `Status` answer, state names | case analysis over all states; round trip through C30's composer and parser |
| C120 | `_acceptSockets` iteration by iteration, between other threads, clients and operators | invariants over all event sequences for counter, limit, order and control port; exact result of a call by induction on ports and queues |
| C121 | the text of jobs: what `CreateJob(s)` accept and store, the name condition of `GetJob(s)`, the answers of `GetJob(s)` and `QueryJob`, `handleFailedReply` | round trip through the JSON grammar of C30; composition with the table of jobs |
| C122 | `SGZip`, `SGUnzip` around an abstract zlib; the compressed answer of `SComposeHTTP` read by `SParseHTTP` | laws of the gzip format as hypotheses, proved for a library of stored blocks; induction over pieces and blocks |
| C31 (lists given as text) | `SQList` on a text, with and without `integersOnly` | filter of the parsed list; counting |
| C123 | `SQLite::commit` after `COMMIT`: callbacks and checkpoint, any number of threads | invariant over every schedule |
| C124 | the texts of times: `SComposeTime` with libstuff's format, `STIMESTAMP_MS`, `STimestampToEpoch`, `STimeThisMorning` | calendar arithmetic, order of texts, round trip |
| C125 | the descriptors of sockets: `S_socket`, `S_accept`, the objects that own them | invariant over every history, every answer of the kernel |
| C126 | the map of polled descriptors, `S_poll`, the times the three loops ask to sleep | induction over registrations and over turns of a loop; bit by bit for events |
| C127 | the choice between TLS, plain and proxy for an outgoing request; what is sent on it | case analysis, composed with C87, C89 and C90 |
| C128 | the list and map of the cache's order of use, with pointers and iterators; the configured size | representation invariant by induction over calls, refinement to a list of names, a specification by the history |
| C129 | the die function of each thread and what it refers to, the handler of fatal signals, `kill` beside the sync thread | invariant over all sequences of steps of a thread, exact description of when a report is sent; invariant over interleavings |
| C130 | the handler a command can have called inside `prepare`: who installs it, when it is called, what happens to what it writes | refinement to runs of the database layer without handlers (C01, C06, C09, C10, C41 carry over); invariant that no handler stays installed |
| C131 | the user's data under the journal: replicated transactions and `writeLocalUnreplicated`, thread by thread | invariant over all interleavings and crashes (every open transaction equals its text run on any data that agrees on the pages it looked at); refinement to runs of the database layer without local writes; two-node comparison over the list of events |
| C132 | the numbers and the text of `ConflictReport` | invariant over all interleavings (counts from the history alone); commutation of concurrent commits; injectivity of the text |
| C133 | the connections kept to other nodes (`SMultiHostSocketPool`) and the forwarded commands that share them, with the real parser on the bytes that arrive | invariant over all interleavings (ownership of connections, fate of calls), composed with the framing lemmas of C23 |
| C134 | `SParseRequestMethodLine` and `SParseResponseMethodLine` on a C string, reads outside of it a distinct outcome | decision logic by the shape of the line; round trip |
| C135 | the timers of plugins (`SStopwatch`) and the loop that asks them | invariant over all histories of questions and restarts; bound on the rate; decision logic |
| C136 | comparing the values of a result | equivalence on all values but real numbers; decision logic; counterexamples |
| C137 | the performance lines (`SPerformanceTimer`, `AutoTimer`) | conservation and bounds by induction over all measurements |
| C138 | random texts (`SRandom::randStr`) | termination and length by induction; every text reachable |
| C139 | a worker's request, from its headers to the jobs it gets | decision logic; composed with C45 and C121 |
| C140 | what a node tells of its peers, whatever the peer list says | table algebra; decision logic |
| C141 | loading the database into memory: every page, once, by any number of threads | induction over the threads; permutations of their order |
| C142 | the node a command is sent on to | decision logic; composed with the search of C55 |
| C143 | workers that wait for commands: no wake-up is lost | invariant over all schedules; on top of the queue of C37 |
| C144 | dictionaries after a start; what was compressed before is read back | induction over the rows; composed with C60 |
| C145 | the fields of a message: written, read, merged, as numbers and as bools | refinement to a map, by induction over the operations |
| C146 | the last answers of a node that stops | invariant of an interleaving of the check, the answering threads and the sockets |
| C147 | all matches of a pattern | induction over the rounds of the search; the language of the pattern is a parameter |
| C148 | the query log | round trip by an independent reader of the file; induction over histories of opening, closing and queries |
| C149 | the times logged for a transaction | induction over what is done in a transaction; durations are parameters |
| C63 | the send and receive loops over arbitrary socket behaviour | induction over the socket results |

## Trusted base

* Lean 4.33.0 kernel; axioms at most `propext`, `Classical.choice`, `Quot.sound`.
* The reading of the C++ sources cited in each definition.
* SQLite itself, the OS, zlib/zstd/mbedTLS and the C++ runtime are not modelled; where a
  model needs them they are parameters or their assumed behaviour is written in the comment
  of the definition.

Every theorem depends on no axioms beyond the three named above (`vcheck` and `#print axioms`
confirm it). `decide +kernel` is used only for concrete witnesses and for complete finite tables
(all 256 bytes, all node states); it is evaluated by the kernel and adds no axiom.

## What is modelled

| part of the code | model | not modelled |
|---|---|---|
| `sqlitecluster/SQLite.cpp` journal, prepare/commit/rollback, shared data, commit lock | `Model/DB.lean` | SQL execution (a query is an opaque text whose effect is a parameter), WAL checkpoints, page cache, mmap |
| `SQLiteNode.cpp` synchronisation (`_queueSynchronize`, `_recvSynchronize`) | `Model/Sync.lean` | timeouts of the sync peer |
| `SQLiteNode.cpp` replication (`_sendOutstandingTransactions`, `_replicate`) | `Model/Cluster.lean` | the number of replication threads is abstracted into arbitrary interleavings of deliveries |
| `SQLiteNode.cpp` state machine (`update`, `_onMESSAGE`, `_onConnect`, `_onDisconnect`, `_changeState`, `_sendStandupResponse`, `_dieIfForkedFromCluster`, `setPriority`, lag control) | `Model/Node.lean` | sockets, wall clock (elapsed time is an event argument), logging |
| `libstuff.cpp` text helpers | `Model/Text.lean` | locale dependent behaviour of `isspace`/`tolower` (C locale assumed) |
| `libstuff.cpp` `SComposeHTTP`/`SParseHTTP`, `SData`, receive loops | `Model/Http.lean` | gzip (a parameter of `compose`); allocation failure |
| `libstuff/SFastBuffer.cpp` | `Model/Buffer.lean` | capacity of the underlying string, allocation failure |
| `libstuff/SRingBuffer.h` | `Model/Ring.lean` | wrap-around of the 64 bit indices; memory order weaker than "index loads may be stale" |
| `libstuff/SSynchronizedQueue.h` | `Model/SyncQueue.lean` | errors of the pipe system calls |
| `BedrockCommandQueue.cpp` | `Model/CmdQueue.lean` | the condition variable of `get` (each wake-up is an attempt with its own clock reading) |
| `BedrockBlockingCommandQueue.cpp` | `Model/RateLimit.lean` | wrap-around of 64 bit times; `getState` |
| `ConflictLockGuard.cpp` | `Model/ConflictLock.lean` | two guards of one thread for one page (self-deadlock); list iterators (an iterator is its page) |
| `sqlitecluster/SQLiteCore.cpp` | `Model/CoreCommit.lean` | `writeLocal`; logging |
| `BedrockCore.cpp` (all stages), `BedrockCommand.cpp` (stage bookkeeping) | `Model/Command.lean` | what plugins compute; timing of stages |
| `BedrockCommand.cpp` (`_getTimeout`), `BedrockCore.cpp` (`getRemainingTime`, `isTimedOut`, `decreaseCommandTimeout`), `SQLiteClusterMessenger.cpp` (timeout header) | `Model/Deadline.lean` | clock changes |
| `sqlitecluster/SQLiteClusterMessenger.cpp` | `Model/Forward.lean` | `runOnAll`; the socket pool (a fresh or pooled socket is an arbitrary socket); `poll` details |
| `BedrockServer.cpp` `runCommand` | `Model/RunCommand.lean` | timers, logging, page locks between attempts (C39), crash handling, `_reply` itself |
| `plugins/Jobs.cpp` all commands but QueryJob | `Model/Jobs.lean` | SQL and JSON texts (the three data fields the plugin reads are modelled); `handleFailedReply` (a RequeueJobs) |
| `plugins/Jobs.cpp` `_constructNextRunDATETIME` | `Model/JobsSchedule.lean` | calendar arithmetic of SQLite for months, years and snapping modifiers (parameters) |
| `plugins/Jobs.cpp` `_validateRepeat`, `_constructNextRunDATETIME` on texts; `SIsValidSQLiteDateModifier` | `Model/RepeatText.lean` | SQLite's date modifiers, taken as documented |
| `plugins/Cache.cpp` | `Model/Cache.lean` | GLOB patterns (a predicate), which match `LIMIT 1` picks (any), the size option at start |
| `sqlitecluster/SQLite.cpp` `read`, `write*`, `_authorize`, no-op mode, rewriting, whitelist, query cache; `SQuery` with its retries | `Model/Handle.lean` | SQLite, which is a parameter: the actions a statement announces, what it does, its expanded text. What is assumed of it is in `Engine.Sound`, `ReadOnly`, `Announces` and is met by the small engine used for the cases. Not modelled: `sqlite3_expanded_sql` prints doubles with 15 digits and cuts texts at NUL; bound parameters |
| `libstuff/libstuff.cpp`, `libstuff.h`: `SToJSON`, `SComposeJSONArray`, `SComposeJSONObject`, `SParseJSONArray`, `SParseJSONObject` | `Model/Json.lean` | recursion depth; which texts are floats (a predicate, assumed to hold of JSON numbers only); the callback of `SParseJSONObject` |
| `libstuff/libstuff.cpp`: `SEncodeBase64`, `SDecodeBase64` | `Model/Base64.lean` | the encoder and decoder of mbedtls, whose source is not in the repository: taken to be the Base64 of RFC 4648 with padding |
| `libstuff/SQliteParameter.cpp`; `plugins/DB.cpp`: collection of parameters; `test/lib/RemoteSQLite.cpp`: the client's loop | `Model/Param.lean` | text of doubles (two functions, assumed inverse to each other, without NUL and blank); binding to a statement |
| `libstuff/libstuff.cpp`: `SRedactSensitiveValues`, `SREReplace` for its patterns, what `SQuery` logs | `Model/Redact.lean` | PCRE2 itself: the four patterns are given by hand as the length of a match; its limits on depth and the size of a result |
| `sqlitecluster/SQLite.cpp`: `setTimeout`, `clearTimeout`, `setAbortRef`, `clearAbortRef`, `_progressHandlerCallback`, `_checkInterruptErrors`, their use in `read`, `_writeIdempotent`, `getCompressedCommits` | `Model/Interrupt.lean` | when SQLite calls the handler (the environment decides); that the flag is never reset and the limit does not wrap is assumed |
| `libstuff/libstuff.cpp`: `SAESEncrypt`, `SAESDecrypt`, `SAESDecryptNoStrip`, `SHMACSHA1`, `SHMACSHA256` | `Model/Crypto.lean` | AES, SHA-1 and SHA-256 themselves (mbedtls, not in the repository): any block cipher and any hash function |
| `libstuff/libstuff.cpp`: `SFileLoad`, `SFileSave`, `SFileCopy`, `SFileDelete`; `main.cpp`: `BackupDB`, `-clean` | `Model/Files.lean` | links, directories, other users of the files, progress messages; which call fails is up to the environment |
| `sqlitecluster/SQResult.{h,cpp}`; values of rows in `SQuery` | `Model/Rows.lean` | which result a row asks for names is a number in a heap; a number that is freed is a distinct outcome |
| `plugins/Jobs.cpp`: `CrashBedrockJob`, `ClearCrashedBedrockJobs`, `onNodeLogin` | `Model/Blacklist.lean` | messages between nodes are a bag, any of which can be lost; `GLOB` is any relation |
| `sqlitecluster/SQLite.cpp`: `_sqliteLogCallback`, conflict place in `commit`; `BedrockServer.cpp`: its use in `runCommand` | `Model/Conflict.lean` | SQLite's messages are those in the comments; `std::hash` is any function |
| `sqlitecluster/SQLite.cpp`: `validateDBFormat`, `initializeDB`, `initializeJournal`; `SQVerifyTable`, `SQVerifyTableExists` | `Model/OpenDB.lean` | SQLite's own errors, except for names that exist |
| `libstuff/SSignal.cpp`: `SGetSignal`, `SCheckSignal`, `SClearSignals`, `STerminationSignalCount`, `_SSignal_signalHandlerThreadFunc`; `main.cpp`: the loops; `postPoll` on signals | `Model/Signal.lean` | the log of a crash, the counter's overflow |
| the header `commitCount` of requests and answers: `BedrockCore::peekCommand`, `_handleCommandException`, `BedrockServer::runCommand`; `SQLite::commit`, `incrementCommit` | `Model/Session.lean` | failed commands; how histories come to be prefixes (C02, C98) |
| `sqlitecluster/SQLiteNode.cpp`: `_onConnect`, `_sendToPeer`, `_sendToAllPeers`, `_addPeerHeaders`, `postPoll` of many nodes; `sqlitecluster/SQLitePeer.cpp`: `sendMessage`, `setSocket` | `Model/Net.lean` | messages in order per connection, no message lost while it lasts; connecting is one event; each side finds out by itself that a connection is gone; the answer to SYNCHRONIZE is sent at once |
| `SQLiteNode.cpp`: `update` in LEADING and STANDINGDOWN step by step, `_sendOutstandingTransactions`, `_changeState` to SEARCHING; `SQLitePeer::sendMessage`, `shutdownSocket` | `Model/StandDown.lean` | a transaction is its number; forked peers; the other peers' part |
| `BedrockServer.cpp`: `buildCommandFromRequest`, `runCommand` 671-703; `sqlitecluster/SQLiteClusterMessenger.cpp`: the message of `_sendCommandOnSocket`; `BedrockCommand.cpp`: `deserializeHTTPSRequests` with its exceptions | `Model/Origin.lean` | what a plugin packs for the leader is a text; headers changed by plugins; `isSynchronous` |
| `exclusiveLockDB`, `BlockWrites`, the locks in `beginTransaction`, `_writeIdempotent`, `prepare`, `commit`, `rollback`, `writeLocalUnreplicated`, `_changeState` | `Model/Locks.lean` | recursion of `commitLock`, limited waits, shared `_stateMutex`, pool and queue locks |
| SQLiteClusterMessenger.cpp:23-240, 298-311 with the clock | `Model/PeerWait.lean` | the clock moves only in `poll`; several ready descriptors; log |
| BedrockServer.cpp:1439-1448, 1497-1630, 2463-2473; SQLiteNode.cpp:2313-2356; BedrockBlockingCommandQueue.cpp:69-101 | `Model/Status.lean` | what plugins, peers, queues and the database report is given; the moments of the reads |
| `BedrockServer::_acceptSockets`, the end of `handleSocket`, `SetMaxSocketThreads`, the test that ends a shutdown | `Model/Accept.lean` | the plugins' greeting on a new connection; the retry after a thread could not be started is undefined behaviour before it is reached (C71); what a thread does meanwhile (`Model/Session.lean`) |
| `plugins/Jobs.cpp`: 250-345, 526-606, 745-766, 885-949, 1000-1016, 1640-1670, the text of jobs | `Model/JobText.lean` | `GLOB` and `JSON_EXTRACT` are parameters; the states of jobs are in `Model/Jobs.lean` |
| libstuff.cpp:1851-1950 `SGZip`, `SGUnzip` | `Model/Gzip.lean` | zlib itself (a parameter with two laws, `Spec/Gzip.lean`); memory; logging |
| libstuff.cpp:2759-2777 `SQList` on a text | `Model/SqlList.lean` | nothing |
| `sqlitecluster/SQLite.cpp`: `commit` 1079-1228, `_walHookCallback`, `runAfterCommitCallbacks`; `BedrockServer.cpp` 108-113 | `Model/AfterCommit.lean` | HC-tree, `preCheckpointCallback` (nobody gives one), callbacks that do not return |
| `libstuff/STime.cpp` 14-30, 53-98; `libstuff.cpp` 3666-3684 | `Model/Stamp.lean`, `Lemmas/Stamp.lean` | `STimestampMSToEpoch` (computes with `double`), other formats, leap seconds, daylight saving; the C library's functions are written out, not read |
| `libstuff/libstuff.cpp` 1958-2093, 2152-2201; `libstuff/SSSLState.cpp` 70-125; `libstuff/STCPManager.cpp` 191-239, 315-344; `libstuff/SHTTPSProxySocket.cpp` 8-32 | `Model/Descriptors.lean` | addresses, logging, memory, `S_recvfrom` (unused; it writes before its buffer when `recvfrom` fails) |
| libstuff.cpp: `SFDset`, `SFDAnySet`, `S_poll`; the loops of main.cpp, BedrockServer.cpp (`sync`) and BedrockCommand.cpp (`_waitForHTTPSRequests`) around it; `nextActivity` | `Model/Poll.lean` | `poll` itself (what POSIX says of it is taken); readings of the clock inside `postPoll` other than that of `_processPeerMessages` |
| SHTTPSManager.cpp: `_httpsSend`, `_createErrorTransaction`, constructor of `Transaction`, HTTPS_PROXY | `Model/Outgoing.lean` | opening the connection (an input), the check of the certificate |
| plugins/Cache.cpp: `LRUMap`, `initCacheSize` | `Model/Lru.lean` | the mutex (each call is one step), running out of memory |
| libstuff/SSignal.cpp (handler, die function), BedrockServer.cpp (who sets it), SQLiteNode.cpp `kill` | `Model/Dying.lean` | the stack trace and its file, safety of the calls inside a handler, two threads dying at once, connections that have not logged in |
| libstuff/AutoScopeOnPrepare.cpp, the call in SQLite.cpp `prepare`, SQLiteCore.cpp `commit`, BedrockServer.cpp 755-779, BedrockCore.cpp 282-371 | `Model/OnPrepare.lean` | what the handler reads, how long it takes, a handler that ends the transaction itself |
| SQLite.cpp `writeLocalUnreplicated` 823-851, with SQLite's `BEGIN CONCURRENT`/`COMMIT` of pages under `begin`, `write`, `commit` | `Model/LocalWrite.lean` | the pages of the journal tables, a failing text of several statements inside a replicated transaction (C65), the write lock (C09); what is taken from SQLite is `Spec.Lawful` |
| BedrockConflictManager.cpp 8-66, SQLite.cpp 57-60, 565, 1437-1445, BedrockServer.cpp 791-796, 1697-1700 | `Model/ConflictReport.lean` | counters are natural numbers; a statement is its calls of the authorizer |
| SMultiHostSocketPool.cpp; SQLiteClusterMessenger.cpp:160-262, 288-337 | `Model/PeerPool.lean` | a request is on the connection as a whole or not at all; the pool of one host is a queue (its threads: C86); `commandWillCloseSocket` is a parameter |
| libstuff.cpp:895-943, 1157-1186 | `Model/MethodLine.lean` | the loops over bytes are `takeWhile` and `trimEndSp`; a position before the text or behind its zero is undefined |
| libstuff.cpp:3341-3375; BedrockServer.cpp:1245-1252 | `Model/Stopwatch.lean` | `ringing` reads clock and members at one time; the time between turns of the loop is a parameter (C126) |
| libstuff/SQValue.cpp:52-156 | `Model/ValueEq.lean` | arithmetic of `double` exact, no NaN (SQLite stores it as NULL); the format of a real number is a parameter |
| libstuff/SPerformanceTimer.cpp:5-58; libstuff/AutoTimer.cpp:7-38 | `Model/PerfTimer.lean` | the text of the line and the percentages are not modelled, only the durations; the clock is never set back |
| libstuff/SRandom.cpp:23-33 | `Model/RandStr.lean` | the values of the generator are a parameter; nothing is said of how likely they are |
| plugins/Jobs.cpp:170, 209-248, 738-754; SData.cpp:71-90 | `Model/GetRequest.lean` | SQLite's `GLOB` is a parameter; the headers are those `peek` saw |
| SQLitePeer.cpp:14-33, 218-239, 255-283; SQLiteNode.cpp:383-397; BedrockServer.cpp:1450-1458; SQLiteClusterMessenger.cpp:85-90 | `Model/PeerInfo.lean` | the members of a peer are read as one snapshot |
| VMTouch.cpp:21-190; main.cpp:351-355 | `Model/VMTouch.lean` | the answers of the system and the order of the threads are inputs; the figure in percent is left out |
| SQLiteNode.cpp:326-335, 398-416, 2080-2098; SQLiteClusterMessenger.cpp:274-288 | `Model/Dest.lean` | state and version of all peers are one snapshot; the address may be read later |
| BedrockCommandQueue.cpp:44-93, 95-108; BedrockServer.cpp:440 | `Model/QueueWait.lean` | one clock, which does not go back; `get(0)` is left out |
| plugins/Compression.cpp:38-41, 56-72, 76-111; BedrockServer.cpp:118-121 | `Model/DictLoad.lean` | the compilation of a dictionary is a parameter |
| libstuff/SData.cpp:23-105, SData.h:30-75 | `Model/Fields.lean` | floating-point numbers are not modelled |
| sqlitecluster/SQLiteNode.cpp:232-292, 1194-1232; SQLitePeer.cpp:46-75, 294-305; BedrockServer.cpp:351 | `Model/Drain.lean` | messages are whole; forked peers are not modelled |
| libstuff/libstuff.cpp:3217-3279 | `Model/MatchAll.lean` | PCRE2 is a parameter |
| libstuff/libstuff.cpp:2779-2821, 3097-3106 | `Model/QueryLog.lean` | `fopen`/`fwrite` do not fail; one thread opens and closes |
| sqlitecluster/SQLite.cpp:516-580, 674-724, 851-912, 1018-1229, 1252-1325 (the times) | `Model/TxTimes.lean` | one clock that does not go back; `commitLockElapsed` is left out |
| `main.cpp`: `loadPlugins`; `BedrockServer.cpp`: plugins and version in the constructor, `getCommandFromPlugins`, `generateCommandID`; `getCommand` of the bundled plugins | `Model/Plugins.lean` | what constructors of commands do besides throwing |
| `plugins/MySQL.cpp`: packets, length-encoded integers, result sets, errors, the query port, the questions with answers or translations of their own, the variables | `Model/MySQL.lean`, `Model/MySQLQuery.lean`, `Model/MySQLVars.lean` (a client's reading: `Spec/MySQL.lean`) | the login exchange |
| `plugins/Compression.cpp` | `Model/Compression.lean` | zstd itself, a parameter: what is assumed of it is `Zstd.Sound`, met by a toy |
| `BedrockPlugin.cpp`: attribute checks; `plugins/DB.cpp`: the guard of UPDATE and DELETE in `process`; `SIsValidSQLiteDate…` | `Model/Attr.lean`, `Model/Search.lean` | the regular expression engine: the language of the pattern is modelled |
| `SQLiteNode.cpp` (`getPeerByName`), `SQLiteUtils.cpp` (`getRandomID`), `STime.cpp` (`SDaysInMonth`, `SFirstOfMonth`) | `Model/Lookup.lean` | `std::sort` (any sorted permutation); the random generator (any sequence); `strftime` outside its domain is an outcome of its own |
| `BedrockCommand.cpp`: `serializeHTTPSRequests`, `deserializeHTTPSRequests`, `areHttpsRequestsComplete`, `_waitForHTTPSRequests`; `libstuff/SHTTPSManager.cpp`: `postPoll`, `getHTTPResponseCode` | `Model/Https.lean` | request IDs (not transported), `_onRecv` of derived managers, sockets, scheduled starts (part of an arbitrary step) |
| `BedrockServer.cpp`: crash reports (`_generateCrashMessage`, `_wouldCrash`, `CRASH_COMMAND`, `onNodeLogin`) | `Model/Crash.lean` | the signal handler; the order of an unordered map (any) |
| `BedrockServer.cpp`: `buildCommandFromRequest` (headers), `_handleIfStatusOrControlCommand`, `_control` | `Model/Control.lean` | contents of answers; checks of other peers in `setPriority` (in `Model/Node.lean`); the thread of `BlockWrites` |
| `BedrockServer.cpp`: ports (`blockCommandPort`, `unblockCommandPort`, `postPoll`, `_beginShutdown`, `_acceptSockets`); `SQLiteNode.cpp` 994-1006 | `Model/Ports.lean` | opening a port never fails; the steps of `_beginShutdown` are one |
| `BedrockServer.cpp`: commands waiting for a commit | `Model/Waiting.lean` | wrap-around of 64 bit times |
| `BedrockServer.cpp`: `_reply`; header handling of `_sendCommandOnSocket` | `Model/Reply.lean` | timing headers; what plugins write |
| `BedrockServer.cpp`: `syncWrapper`, end of `sync`, `_resetServer`, `Detach`/`Attach`/`BeginBackup`; `main.cpp` main loop | `Model/Lifecycle.lean` | a second termination signal (aborts); signals other than SIGTERM and SIGINT |
| `libstuff/SDeburr.cpp`, `SDeburr.h` | `Model/Deburr.lean` | the warning on malformed text |
| `libstuff/SLog.cpp`, `SLog.h`, `libstuff.cpp` 200-300 (`SSyslogSocketDirect`), `SFluentdLogger.cpp` | `Model/Log.lean` | stack traces, journal and console output, the time in a record |
| `libstuff/STCPManager.cpp`, `libstuff/SHTTPSProxySocket.cpp`, `SSSLState.cpp` (`send`, `recv`, `sendConsume`, `recvAppend`), `libstuff.cpp`: `S_sendconsume`, `S_recvappend`, `SCheckNetworkErrorType` | `Model/Sockets.lean` | mbedtls (its `mbedtls_ssl_write` is modelled from its documentation), handshake and certificates, `S_socket`, `S_accept`, times of the last traffic |
| `SQLiteNode.cpp`: `postPoll`, `_processPeerMessages`, accepting on the node port; `SQLitePeer.cpp` | `Model/Peers.lean` | what the messages mean (an arbitrary function of the history), the order in which waiting sockets are looked at, send buffers |
| `BedrockServer.cpp`: `handleSocket`, `buildCommandFromRequest` | `Model/Conn.lean` | sockets of plugins, requests of 2^31 bytes and more, the number of socket threads; a second answer to the same command (C62) |
| `plugins/DB.cpp`: `getCommand`, `peek`, end of `process`, `parseSQLite3Args`, `generateErrorContextMessage` | `Model/Query.lean` | SQLite's parser and engine (parameters of the model), rendering of tables by `qrf.c`, limits of PCRE, a schema change between preparing and running |
| `libstuff/libstuff.cpp`: `SReplace`, `SReplaceAll(But)`, `SCollapse`, `SStrip…`, `SBefore`, `SAfter…`, `SEndsWith`, `SParseInteger…`, `SStateNameToInt`, base 32 | `Model/Edit.lean` | locales other than "C" |
| `sqlitecluster/SQLite.cpp`: `verifyTable`, `verifyIndex`, `addColumn`; `plugins/Cache.cpp`: the loop in `upgradeDatabase` | `Model/Schema.lean` | SQLite (its catalogue and what it stores are the hypothesis `Faithful`); failing reads of the catalogue |
| `BedrockServer.cpp`: `sync` (its loop and end), `worker`, `dbReadyToHandleRequests`, the end of `postPoll`; `BedrockCommand.cpp`: destructor | `Model/SyncLoop.lean` | what a command does (`Model/RunCommand.lean`), when waiting commands are due (`Model/Waiting.lean`), the node's own changes of state (`Model/Node.lean`), plugin timers |
| `sqlitecluster/SQLiteNode.cpp`: `_replicate`, the branch for TRANSACTION, leaving FOLLOWING in `_changeState`, the status in `_handlePrepareTransaction` | `Model/ReplQueue.lean` | applying one transaction (`Model/Sync.lean`); the lifetime of the peer a queued message came from; a queued message other than TRANSACTION (none is ever queued) |
| `BedrockCommand.cpp`: `startTiming`, `stopTiming`, `finalizeTimingInfo`; `BedrockCore.h`: `AutoTimer`; `SQLiteCommand.cpp`: `preprocessRequest` | `Model/Timing.lean` | the line that is logged; the random numbers (given) |
| `libstuff/SSocketPool.cpp` | `Model/SocketPool.lean` | what is sent on a socket |
| `libstuff.cpp`: `SParseURI`, `SParseURIPath`, `SComposePOST`, `SParseHost`, `SParseCommandLine`; `SQLiteNode.cpp` `_initPeers`; `main.cpp` defaults | `Model/Address.lean` | `SParseRequestMethodLine`, `SParseResponseMethodLine` (not used); what the options do |
| `libstuff/SQResult.cpp`, `SQResultFormatter.cpp`, `SQValue.cpp` (as strings) | `Model/Results.lean` | text of doubles (given); what is kept of a malformed row object in the array form |
| `sqlitecluster/SQLitePool.cpp` | `Model/Pool.lean` | destruction of the pool while in use |

## Where the code disagrees with the property

Entries that name a property or a theorem have a witness theorem in `Props/`; the property is then
stated with the restriction that makes it true, or kept as `_partial`. Entries without one are
observations from reading the code that no theorem here establishes.

Replication and election:

* An even cluster keeps leading with half of its full peers (C19).
* Approvals are not locks and do not look at the commit count: a peer approves a candidate with an
  older database (C12).
* `setShutdownPriority` lets a permafollower lead, and a waiting permafollower can depose a leader
  (C13).
* A STATE message or a first LOGIN can give two peers the same priority (C18).
* A lagging peer reopens the command port (C20).
* A response to a stand-up request that comes from a higher priority node carries no `Response`
  header; a LOGIN received while standing up is answered with an empty state change count.
* A TRANSACTION is not checked to come from the node that is being followed.
* A peer whose journal has been trimmed past the asked commit is marked as forked at LOGIN; in a
  cluster of two a single fork kills both nodes.
* `_recvSynchronize` ignores the result of the last commit.

Text and messages:

* `SParseList` keeps trailing blanks, and its result ignores elements already found (C29).
* Escaping with a character that is also a code letter does not round-trip; NUL cuts (C25).
* Surrogate pairs are decoded to two three-byte sequences, CESU-8 (C51).
* `SQ` truncates at NUL (C31).
* Header names and `Set-Cookie` values are written unescaped (C24).
* Values lose blanks at their ends; an empty method line promotes the first header to method line;
  `Transfer-Encoding: chunked` is sent without chunking the content; `Content-Encoding: gzip`
  without content is dropped (C22).
* A header line without a name overwrites the previous header (`c24_nameless_line_overwrites`).
* A chunk size of 80000000 or more, or a blank first line, makes the parser read or write outside
  its buffer (`c23_huge_chunk_is_undefined`, `c23_blank_first_line_is_undefined`). Both are reachable
  by any client of the command port.
* A message with empty content is accepted one byte before its end (`c23_one_byte_early`).

Queues and buffers:

* The request detector remembers consumed bytes: a buffer that begins with LF CR LF is reported as
  a complete request if the byte consumed before it was CR (C34).
* A push to the ring buffer can be rejected although the ring is empty (C35).
* A consumer that takes one item per wake-up loses the wake-up for the rest, and a push into a full
  pipe blocks while holding the mutex the consumer needs (C36).
* `abandonFutureCommands` leaves the timeouts of the abandoned commands behind, which delays commands
  that have really timed out (C37). A `get` that waits without a limit is not woken when a scheduled
  command becomes due.
* Clock readings are taken before the entry's lock, so they can arrive out of order and a block can be
  missed (C38).
* A pool configured for one handle never serves anybody (C40).

Commands:

* `SQLiteCore::commit` has a branch that returns success with the transaction still open; it cannot
  be reached because a prepared transaction always has a hash (C41).
* A plugin that opens a transaction in its pre-peek stage leaks it, a plugin can report that a commit is
  needed without a transaction, no-op mode set while peeking survives when the transaction is kept, and
  a failed exclusive `BEGIN` keeps the commit lock (C42).
* A requested timeout below the 32 bit range becomes 24.8 days (`c43_huge_negative_timeout`).
* Lowering the timeout of a command can extend it (`c43_decrease_extends`).
* Forwarding an expired command gives it the largest timeout there is (`c43_expired_forward`).
* The time until `commandExecuteTime` is charged twice when a scheduled command is forwarded
  (`c43_scheduled_forward_expires`).
* The blocking thread ignores the `processTimeout` a request asks for and allows its own five seconds
  (`c43_allowance_lost`).
* A node that stops leading between a successful commit and the check after it throws the success away:
  the command is run again, or answered as timed out although it is committed
  (`c61_stopped_leading_runs_twice`).
* A command whose answer from the leader was lost, and whose connection broke after all of it was sent, is
  sent again if the node is synchronizing when it comes out of the queue, or if it escalates immediately
  and the versions differ (`c61_lost_then_synchronizing`, `c61_lost_then_offered_again`).
* A forwarded request without content that loses its last byte is run by the peer and is also retried
  (`c63_one_byte_short_runs`).
* `runCommand` handles a result "not leading" of `processCommand` that `processCommand` never returns.

Jobs:

* CancelJob acts on a child that is already cancelled or has failed, and then puts its parent into the queue
  even if the parent is running: the parent is handed out twice (`c44_cancel_child_twice`).
* RetryJob stores the text of the priority as given: "500abc" passes the check and the job is never found
  again (`c45_text_priority`).
* DeleteJob on a job that a worker has with a retry time (RUNQUEUED), or that is queued or failed, leaves its
  children behind; paused ones stay for ever (`c46_delete_orphans`).
* A parent is not resumed when its last child fails or is deleted; it stays paused and can be neither finished nor
  deleted (`c46_failed_child_blocks`).
* RequeueJobs looks neither at the state nor at the family (`c46_requeue_parallel`).
* Mocked jobs are finished in any state (`c47_mocked_any_state`).
* A manual job with `retryAfter` and a SCHEDULED repeat can never be finished, because GetJob does not note its
  scheduled time (`c47_manual_scheduled_stuck`).
* GetJob notes the overwritten run time on every hand-out, so from the second automatic retry on the schedule of a
  SCHEDULED job moves (`c48_retry_moves_grid`).
* UpdateJob replaces the data and with it the retry count (`c49_update_resets`).
* A job without `retryAfter` whose data has a retry count of ten or more is set to RUNNING and given to nobody
  (`c49_lost_job`).
* A job whose next run cannot be computed is FAILED but returned to the worker (`c49_null_date`).
* Data that is not valid JSON (FailJob stores it unchecked, RequeueJobs brings it back) makes every GetJobs whose
  query touches the row fail.
* FailJob with new data removes the mark of a mocked job; once requeued it is handed to real workers
  (`c76_fail_unmarks`).
* A `retryAfter` that is a list of modifiers, a bare comma or has a leading blank is accepted; SQLite's DATETIME then
  gives NULL, so the first GetJob hands the job out and marks it FAILED (`c77_retry_list`).

Cache plugin:

* Sizes are counted in characters, so with multi-byte text the limit is exceeded (`c50_utf8_overflow`).
* `recursive_triggers` is set on one connection only: replacing an entry elsewhere leaves its old size in the counter,
  and when the entries run out before the counter does the plugin asserts (`c50_drift`).
* The order of use is kept in memory: a rollback or restart loses it (`c50_rollback_order`).
* Names and values are cut at NUL; a name that begins with NUL is stored empty and later asserts
  (`c50_nul_truncates`, `c50_nul_name_crash`).
* The documentation says names are case insensitive; they are not.

Database handle:

* `randomblob`, `unixepoch`, `timediff`, `total_changes`, `current_*` are neither kept out of the cache
  (`c56_randomblob_repeats`) nor, but for `current_timestamp`, refused in writes (`c65_randomblob_diverges`).
* A write of several statements that fails half-way, is rewritten half-way or meets `SQLITE_BUSY` half-way leaves
  effects that are not in the recorded text; if the caller goes on and commits, followers differ
  (`c65_failed_half_is_lost`, `c65_rewritten_half_is_lost`, `c65_busy_runs_twice`).
* The rewritten query is never cleared: any later refused write runs it again and reports success
  (`c65_stale_rewrite_runs`), or asserts if there is none (`c65_refused_write_crashes`).
* `read` runs statements that write, and does not record them (`c65_write_through_read`).
* An interrupted write leaves the handle "writing": reads of `random()` etc. are refused until some write ends
  normally (`c66_interrupted_sticks`).
* A result cached before a whitelist is set is served after it (`c59_cache_leak`). Columns that are not listed are not
  refused but read as `NULL`, and numbers of rows are not protected. Turning `query_only` or no-op mode on or off under
  a whitelist is refused without notice (`c59_query_only_stays`).
* `writeIdempotent` and `writeUnmodified` are executed in no-op mode (`c21_idempotent_write_happens`); if an authorizer
  refuses the no-op pragma, handle and followers disagree about the mode (`c21_pragma_refused_diverges`).
* An authorizer that refuses `PRAGMA schema_version` makes every write assert.

Bound parameters:

* An empty text or blob cannot be sent: `SEncodeBase64` of nothing throws `length_error` (`c32_empty_text_throws`).
* Names that differ only in letter case share one header, so one of the values is lost (`c32_case_collides`).

JSON:

* Arrays and objects that are cut off are accepted, so a string like `[[1]` is written as if it were JSON and swallows
  the elements after it (`c30_truncated_accepted`).
* A NUL byte at the start of a text, or where the name of a member should start, fails an assertion and ends the
  process (`c30_nul_ends_the_process`).
* Names of members are written without escaping (`c30_names_not_escaped`); `TRUE` comes back as `true`
  (`c30_literals_lose_case`).
* The parser recurses once or more per nesting level without a limit; values it does not know are read as empty.

Plugins and names:

* `-plugins libauth.so` (no slash) takes `libauth.so` for the name of the plugin, since `find('.', npos)` finds nothing;
  the symbol is not found and the node does not start (`c101_so_file`). `libauth` and `./libauth.so` work.
* A command whose constructor throws is answered, but its request is replaced by an empty one: `Connection: close` is not
  obeyed, and the answer does not go through the plugin that owns the connection (`c101_request_forgotten`).
* Names of commands are called unique in the cluster, but start again at 0 with the process (`c101_names_repeat`), and a
  client may send an `ID` of its own (`c101_name_chosen`).

Logged queries:

* A query is cut to 200000 bytes before it is searched: a chat cut off there has no closing quote and is logged
  (`c102_long_chat_logged`). So is a chat with a newline (`c102_html_not_hidden`), and what follows a closing bracket
  inside an edit (`c102_edits_not_hidden`).
* The pattern for tokens ends in `.*"?` and takes the rest of the line; the rest of the query is lost to the log. A NUL
  ends the logged text.
* Statements are logged without redaction by `SDEBUG`, by the warning for a statement that cannot be expanded, into the
  query log, and by `rollback` (the first 100 bytes).

Encryption:

* `SHMACSHA1` and `SHMACSHA256` write past their pads if the key has more than 64 bytes (`c104_long_key`).
* `SAESEncrypt` reads 16 bytes of a vector that may be shorter (`c104_short_vector`); `SAESDecrypt` checks it.
* `SAESDecrypt` ends the text at its first NUL, so texts that contain one do not come back whole.

Files and the backup:

* A read error ends `SFileCopy` and `SFileLoad` as the end of the file does: half a file is reported as a whole one
  (`c105_read_error`, `c105_load_partial`).  The assertion in `BackupDB` passes.
* The result of `fclose` is ignored; what was buffered and could not be written is lost silently (`c105_close_error`).
* The target is emptied before the source is read, so a copy onto itself leaves an empty file and reports success.  A
  backup of a database in `/var/tmp/` destroys the database (`c105_same_file`, `c105_backup_in_place`).
* `-clean` knows of `-wal2`, the backup does not (`c105_wal2`).  A `-wal` of an earlier backup stays beside a new copy that
  does not belong to it (`c105_stale_wal`).

Results:

* The copy constructor of `SQResult` (SQResult.h:44) copies rows that still point to the original: names are looked up in
  a result that may be gone or hold another query's columns (`c106_copy_dangles`, `c106_copy_misnames`).
* A query of several statements returns all rows with the names of the last (`c106_last_names`, `c106_wrong_name`).
* Text that contains a NUL is cut there (`c106_text_cut`).

Disabled jobs:

* `ClearCrashedBedrockJobs` does not reach a node that is not connected; when that node logs in, it sends the cleared
  names to the others, which disable them again (`c107_comes_back`).

Conflict places:

* A command that conflicts on a table and then on a journal keeps waiting for the table (`c108_stale`), though
  BedrockServer.cpp:808-810 says that it need not wait.
* Tables whose name begins with `journal` are taken for journals (`c108_journal_name`).
* HC-Tree keys are read up to the first white space (`c108_key_cut`); a key with a newline makes the whole message the
  place, so that conflicts on the same row do not share a lock (`c108_newline`).

Opening a database:

* A table with the name of the next journal is used as a journal without a look at its columns (`c109_any_columns`).
* A user's table `journalEntries`, or one whose name differs from that of a journal in case only, ends every process that
  opens the database (`c109_view_taken`, `c109_case`).
* `validateDBFormat` compares 31 bytes of a buffer of which only as many are set as the file has (`c109_short`).
* `SQLite::~SQLite` rolls back only if there is an uncommitted query: an exclusive transaction without writes would keep
  the commit lock (SQLite.cpp:465). No caller in the code does that.

Signals:

* Every signal that reaches the process stops the server, SIGHUP and SIGUSR1 included (BedrockServer.cpp:1238-1240), but the process then does not end: main.cpp:383 waits for SIGTERM or SIGINT, and as `shutdownComplete` stays true the thread goes round the outer loop without sleeping (`c110_other_signal`).
* A SIGTERM that arrives between main.cpp:383 and 387 is logged as uncaught and cleared (`c110_lost`); the server goes on. If two arrive there the main thread never polls again (`c110_lost_twice`).
* `1 << signum` shifts an `int`: real-time signals (from 34) are undefined behaviour, on x86 signal 47 looks like SIGTERM (`c110_realtime`); SIGSYS sets all bits from 31 on (`c110_sigsys`).

Sessions:

* `incrementCommit` runs after COMMIT: a read in between sees a commit that the number in its answer does not count, so a later read with that number on another node may not see it (`c111_not_monotonic`).
* A write is answered before any follower has it. If the leader is lost then, its number is reached by other commits, and a command that waits for it runs without the write (`c111_failover`).

Elections:

* While no node loses a peer, at most one node leads (`c112_one_leader`). When only one side of a connection knows that it is gone, two nodes lead at once (`c112_two_leaders`): the voter forgets the leader it voted for and votes for another, and the old leader still counts the vote. Nothing but the old leader's own timeouts ends this.
* A LOGIN has no StateChangeCount (SQLiteNode.cpp:1411-1425), and the answer to a LOGIN of a node that is standing up copies the count from the LOGIN (2387). So the vote of a node that connects during an election is never counted (`c112_login_vote_not_counted`); the election ends by timeout if that vote was needed.
* Half of the other nodes suffice for a majority (SQLiteNode.cpp:784-786): with the node itself that is more than half of all.

Shutdown of a leader:

* A leader that shuts down closes the sockets to its peers (SQLiteNode.cpp:872-876) before it stops commits and sends what is outstanding (1597-1604). What a worker commits in between is answered as committed and sent to nobody (`c114_shutdown_loses_late_commit`).
* `shutdown(SHUT_RDWR)` also discards what was sent before but is still in the socket's buffer (`c114_shutdown_drops_buffer`). The node that leads next does not have these commits; if it commits anything before the old leader is back, the histories fork.

A raised priority:

* Votes do not depend on the number of commits (SQLiteNode.cpp:2379-2464), and a node judges by what it has heard whether it may stand up (SQLiteNode.cpp:641-731). If `SetPriority` raises the priority of a node that has not yet heard that another leads, the leader stands down for it and it is elected without the leader's last commits, though no connection broke (`c115_raised_priority`). If no priority is raised, it does not happen (`c115_leader_has_all_partial`).

Headers that clients may not have:

* `httpsRequests` and `serializedData` are meant for nodes of the cluster, but are read from every request, on every port. A client on another machine can so have made-up results taken for those of HTTPS requests, and the command is not peeked (`c116_forged`).
* Reading them fails an assertion if there is a NUL where the name of a member should be. `httpsRequests: [{\u0000}]` in one request, from anywhere, ends the server (`c116_ends`).
* `Connection: forget` or a time to run in the future is answered 202 `Successfully queued` and dropped when the node shuts down (`c116_dropped`). A follower that sent such a command takes the 202 of a leader that shuts down for its answer.

Blocked writes:

* `BlockWrites` answers `200 Blocked` when it has `commitLock` and `writeLock`. A checkpoint takes neither (SQLite.cpp:1190-1205): one that follows a commit made before may still move pages into the database file after the answer, so the files are not at rest (`c117_checkpoint_goes_on`).
* A node that changes state while writes are blocked waits in `exclusiveLockDB` (SQLiteNode.cpp:1655) with `_stateMutex` held, or for the thread that replicates (1562). A SIGTERM then makes the main thread close the control port and wait for `_stateMutex` in `setShutdownPriority` (BedrockServer.cpp:1970-1986, SQLiteNode.cpp:311): `UnblockWrites` cannot come any more on a new connection, and the loop that would see a second SIGTERM (main.cpp:396) does not run (`c117_shutdown_waits`).

Waiting for another node:

* The deadline of a command is looked at only when nothing happens for 100 ms: a node that sends its answer byte by byte, or a process that is interrupted again and again, keeps a command waiting without limit (`c118_drip`, `c118_interrupted`).
* An answer that makes `SParseHTTP` throw (a `Content-Length` that is no number) is not caught in the threads of `runOnAll` and of `onNodeLogin`: the asking node ends (`c118_bad_answer`).

Health checks and Status:

* The node's state is looked at up to four times for one answer: "500 Not Following. State=FOLLOWING", "500 FOLLOWING", "200 SEARCHING", and "isLeader": true beside "state": "STANDINGDOWN" are possible (`c119_changing`, `c119_mixed`).
* A client whose command has the method line `[[1]` makes the answer to `Status` unreadable while it is queued, since the parser takes a cut-off array for JSON and the line is written without quotes (`c119_unreadable`).

Taking connections:

* C120: when the limit of connections is reached the whole call ends, and the next begins with the private port again. While clients of the private port keep coming, a client of the public port, or of a plugin, is never taken though threads end all the time (`c120_starved`).
* C120: `-maxSocketThreads` with 0 or with something that is not a number gives a limit of 0, which `SetMaxSocketThreads` refuses. The server then takes only connections of the control port, and polls without pause while others wait (`c120_zero`).
* C120: a comment says that the count of threads is guaranteed to be seen at 50 as it goes down. Each thread counts itself off and reads the counter again afterwards, so two that end together can both read 49 and the command port stays blocked (`c120_fifty_missed`). Today this is not reached because blocking the port there is undefined behaviour already (C71).
* C120: when no thread can be started the process ends if there are less than 100 (`c120_no_thread`).

The text of jobs:

* `data` is accepted if the library's lenient parser finds a member in it. `{"a":1` is accepted and stored though it is not JSON (`c121_unclosed`). While such a job is due, `JSON_EXTRACT` makes every `GetJob(s)` whose name condition it meets fail with 502 (`c121_poisoned`).
* The data `{"a":{"b":1}` is accepted and is written into the answer without quotes, so it swallows what follows: the worker does not find `jobID`, and a lost answer does not put the job back (`c121_swallowed`).
* `{ }` is refused although `{}` is accepted (`c121_blank`).
* `CreateJobs` looks for the word `name` in the text of the job: a job without a name is accepted, and one with the name under `NAME` is refused (`c121_nameless`).
* `handleFailedReply` and `CancelJob` compare the whole first line, everything else the first word. A `GetJob HTTP/1.1` is served, but its jobs are not put back when the answer is lost; a `CancelJob HTTP/1.1` is answered `200 OK` and does nothing (`c121_line`).
* A job whose name contains a comma between words can be created but not fetched by its name (`c121_comma`).
* A job named `TRUE` is handed out as `true` (`c121_name_case`).

Compressed bodies:

* `SGZip` (libstuff.cpp:1865) gives zlib a buffer of `n + n/1000 + 20` bytes. zlib needs `n + 23` for a short text it cannot compress. `deflate(Z_FINISH)` then answers `Z_OK` instead of `Z_STREAM_END`, which the code takes for success (1880). For such content of fewer than 3000 bytes the answer says `Content-Encoding: gzip` and its body cannot be decompressed (`c122_truncated`, `c122_short_texts`). Checked against the zlib of this machine: 100 random bytes give 0 from `deflate`, 0 from `deflateEnd` and 120 of 123 bytes.
* `SGZip` narrows the size of the content to 32 bits (1861). Of content of 4 GiB or more only the size modulo 2^32 is compressed, without an error (`c122_wrapped`).
* `SGUnzip` never looks for `Z_STREAM_END` (1927-1942): a stream that is cut short is no error, the caller gets the beginning of the text (`c122_unzip_cut`). Whatever follows the first member is ignored (`c122_unzip`).

Lists of integers given as text:

* `SQList(text)` drops elements that are integers in another spelling (a leading zero or plus sign, a blank before the comma) without an error (`c31_integers_dropped`).

After a commit:

* A commit that finds another thread at its checkpoint leaves it to that one, which sets the number of outstanding frames to 0 when it is done, though it may not have seen the new frames. They stay in the log only until there is another commit (`c123_forgotten`); the next commit that is left alone reaches them (`c123_alone`). A comment in the code knows this. STATUS shows another number, which is never too small (`c123_shown`) but does not go down after a checkpoint.

Times as texts:

* The order of the texts ends with the year 9999 (`c124_year_10000`).
* `STimestampToEpoch` reads a text in local time (`c124_round_trip_partial`), does not look whether it is a time at all (`c124_any_text`) and takes days that a month does not have (`c124_february`). It is not used in the server.
* `STimeThisMorning` says midnight but keeps the part of a second (`c124_not_midnight`). It is not used in the server.

Descriptors:

* `Socket(host, true)` makes the TLS object before it looks whether `S_socket` failed. TLS then connects on its own (and waits for that); the constructor throws and the connection stays open (`c125_lost_https`). If the TLS object cannot be made the descriptor stays open too (`c125_lost_setup`).
* `S_accept` throws without closing what it accepted when that cannot be made non-blocking, and its callers take descriptor 0 for none (`c125_lost_accept`). The latter needs a closed standard input.
* These are the only operations that lose a descriptor (`c125_accounted_partial`).

Waiting for the network (C126):

* The loops measure with the wall clock. Set back by an hour, a loop may sleep for an hour and a second if nothing arrives; by 25 days, `int(timeout / 1000)` is negative and it sleeps until something arrives (`c126_clock_back`).
* A command whose requests have no socket yet polls an empty set: `&pollvec[0]` of an empty vector is undefined (`c126_nothing_to_poll`). With the usual library it is a null pointer that nobody uses.

Outgoing requests (C127):

* A URL with a bad port or without a host ends the process by `SASSERT(SHostIsValid(host))`, where the comment promises a completed transaction with an error; so does a HTTPS_PROXY without `http://` or without a port, at the first request that may use it (`c127_aborts`).
* A URL with `http://` and no port is sent in the clear to port 443 (`c127_plain_443`).

The size of the cache (C128):

* `-cache.max` with `K`, `M` or `G` alone is read as bytes, and fractions and everything after a comma are dropped; a negative number ends the process; a number too large for its unit is signed overflow (`c128_size_misread`).

A thread that dies (C129):

* A request that kills the thread reading it, or the plugin code that builds its command, is not reported: only `runCommand` sets the die function (`c129_building_unreported`).
* The die function refers to a local variable of `runCommand` and outlives it. After the return, or once the command was moved into a queue, a thread that dies follows a bad pointer inside the handler, where all signals are blocked: nothing is reported and the peers are not cut (`c129_stale`, `c129_moved_away`).
* `_clusterMessenger` is null while the node detaches or shuts down; the die function does not check (`c129_no_messenger`).
* `KILLABLE_SQLITE_NODE` is not cleared when the node is destroyed, so the handler calls `kill` on freed memory (`c129_node_destroyed`).
* A method line with a control character makes the report throw inside the handler (`c129_control_character`).
* `kill` does not take the state lock: a LOGIN handled by a `postPoll` already under way gives the dead node a peer again, and an `update` already under way opens the port again (`c129_login_survives`).

Handlers inside `prepare` (C130):

* `processCommand` turns no-op mode off before the commit, so the ordinary writes of a handler of a **mocked** request are executed, committed and replicated (`c130_mocked_writes`, `c130_command_partial`). A mocked request always reaches the commit, because the pragma itself is text to commit.
* `SQLiteCore::commit` is `noexcept` and `prepare` calls the handler: a handler whose statement violates a constraint ends the server, where the same statement in `process` gets the client a `400` (`c130_exception_kills_partial`, `c130_command_exception`).
* The interface says the handler is given the number of the journal table (SQLite.h:214-216). It is given the counter from which that number is computed, which is not bounded by the number of tables (`c130_number_not_table`).
* A command that answers `true` without setting the handler makes `prepare` call a null pointer (`c130_null_handler`); nothing checks.
* Time limit and abort flag are cleared before the handler runs: it cannot be interrupted while it holds the commit lock (not a theorem: the model has no time here).

Local writes (C131):

* The text is run as it is: with a `COMMIT` in it the part before is durable although the call returns `false`, because the closing `COMMIT` finds no transaction (`c131_commit_inside_partial`). `c131_data` therefore asks for texts without `COMMIT` and `ROLLBACK`.
* Nothing keeps local writes off data that replicated statements read or write. Where they meet, the same transaction leaves different data on two nodes with equal commit numbers and hashes (`c131_nodes_diverge_partial`); `c131_nodes_agree` and `c131_hash_agree` say for which part of the data that cannot happen.
* The call takes the write lock shared and not the commit lock, so it can make a transaction that holds the commit lock, and that nobody else could have disturbed, fail with a conflict (`c131_conflicts_partial`).
* It works while commits are disabled (`c131_succeeds` and its example).

The conflict report (C132):

* A table of the application whose name begins with `journal` is taken for a journal and never listed (`c132_journal_like_partial`); `json_each` likewise.
* Only worker threads record. Commands that are committed by the sync thread (quorum) are not in the report (`c132_sync_not_counted_partial`).
* A table is noted before the authorizer decides, so refused accesses count as uses (`c132_denied_counts_partial`).
* Entries are kept per method line and never removed: one for each different method line that ever committed (`c132_total`).

Connections to other nodes (C133):

* Answers carry no mark of the command they are to. A node that writes a message nobody asked for has it taken for the answer to the next command on that connection, unless it has arrived when the pool checks the socket (`c133_stray_message_partial`).
* Sockets are asked for under the host of an address and given back under the address itself (SQLiteClusterMessenger.cpp:255, 336). For an address that is more than host and port no connection is ever kept (`c133_other_addresses_partial`).
* An answer without content is taken when all but its last byte has come; the socket goes back to the pool with a line feed to come, which the parser skips before the next answer (`c133_kept_clean`, and the example).

Method lines (C134):

* `SParseRequestMethodLine` goes on one behind the end of the word (libstuff.cpp:1167). A line without a blank behind its first word, as `Ping`, makes it read behind the zero that ends the text; an empty or blank line makes it read before the text (`c134_request_undefined_partial`).
* `SParseResponseMethodLine` does the same for a status line without a reason, as `HTTP/1.1 200` or `200 OK` (`c134_response_undefined_partial`). Neither function is called in this repository; they are for plugins.

Plugin timers (C135):

* The wall clock is used and the difference is unsigned. When the clock is set back behind the last start, a timer fires at once (`c135_clock_back_partial`).
* A timer that two plugins have registered is started anew by the first that is asked; the second is not told (`c135_shared_partial`).

Comparing values (C136):

* An infinity equals every finite number and the other infinity, and does not equal itself, because the tolerance is infinite and the difference of equal infinities is not a number (`c136_infinity_partial`, `c136_reflexive_partial`).
* Real numbers of nine digits or more are equal to their neighbours, 1000000000 to 1000000001 (`c136_large_partial`), and equality of real numbers is not transitive (`c136_not_transitive_partial`).

Performance lines (C137):

* A `stop` without a `start` counts the time since the last start again, so that a line may tell of more time than has passed (`c137_stop_again_partial`). The server calls both under the commit lock, in pairs.

Random texts (C138):

* The remainder is taken by one less than the length of the alphabet: z never occurs in a random text (`c138_z_partial`).

A worker's request (C139):

* `numResults` is narrowed to 32 bits after only its upper end is limited: -2147483649 counts as 2147483647 (`c139_negative_partial`).
* A `jobPriority` that is not a number is accepted and counts as 0 (`c139_word_partial`).

Loading the database into memory (C141):

* `-setDBMemoryMapping` never reads the last page of the file: the bound is both exclusive and one less than the number of pages (`c141_last_partial`). A file of one page is not read at all.
* `hardware_concurrency` may answer 0; the number of pages is divided by it (`c141_no_threads_partial`).
* After a failed `mmap` the value `MAP_FAILED` is given to `munmap`. After a run without an error neither the map nor the descriptor is given back.

The node a command is sent on to (C142):

* The follower chosen is looked up again by its name. With two peers of one name the command may go to one that has another version or does not follow (`c142_same_name_partial`).

Workers that wait for commands (C143):

* A command for later wakes a worker when it is pushed and not when its time comes. Then it may wait for up to the 100 ms of a worker's wait although workers sleep (`c143_later_partial`).

Dictionaries after a start (C144):

* The message for an empty dictionary says that it is skipped. It is not: the exception ends the process at every start (`c144_empty_partial`).
* If the table cannot be read, the node starts without dictionaries. Compressed values are then returned as they are stored (`c144_unreadable_partial`).

Fields of a message (C145):

* Reading a field of a message that is not const creates the field. From then on `isSet` is true and the field is sent (`c145_read_sets_partial`).
* `calc` limits a number above the range of `int`, but cuts one below it: -2^32 is read as 0, and `test` is false (`c145_below_partial`).
* `data[name] = 5` stores the character with code 5, not the text `5`; only `set` writes a number (`c145_assigned_partial`).

Last answers of a node that stops (C146):

* If `ioctl` fails, `remainingDataToSend` says that nothing is left, and an answer the kernel still holds can be lost (`c146_unasked_partial`).
* A thread that answers `SYNCHRONIZE` counts itself out before it returns its database handle. The node can stop, and the pool be destroyed, in between; the handle is then returned to a pool that is gone (`c146_handle_partial`).

All matches of a pattern (C147):

* If a match is empty, `SREMatchAll` searches at the same place again and does not end (`c147_empty_partial`).
* Each search sees the rest of the input only, so `^` matches again after each match (`c147_anchor_partial`).
* A group that took no part is left out, and the groups after it move up (`c147_group_partial`).

The query log (C148):

* The name of the database file is written without escaping: with a quote in it the log does not read back (`c148_name_partial`).
* A query is written up to its first NUL, as `SEscape` takes a C string (`c148_nul_partial`), and up to 200000 bytes.
* Nothing in /repo calls `SQueryLogOpen`, so the option `-queryLog` and the signals that its help text names (main.cpp:252) do not start the log. The model is of the functions as a plugin can call them.

The times logged for a transaction (C149):

* The timer of a transaction is stopped before `ROLLBACK` runs, so `totalElapsed` can be more than `totalTransactionElapsed` (`c149_rollback_partial`).
* The query of statistics after a slow commit on HC-Tree counts as a read of the transaction that is over (`c149_hctree_partial`).
* The time of a write that fails by a constraint is in no part (`c149_constraint_partial`), nor is that of a commit with a conflict (it is in `lasts` but not in `commitElapsed`: `c149_commit`).
* A rollback without a transaction logs the times of the transaction before it again (`c149_stale_partial`).

MySQL:

* A payload of 16 MiB or more is sent with a length cut to 24 bits (`c52_long_packet_cut`).
* Every row ends in an extra byte `0xFE` (`c52_row_extra_byte`); clients that check the length of a row will object.
* Of two queries that arrive in one buffer only the last is answered (`c52_pipelined_lost`).
* Statements are diverted by substrings: an INSERT that holds the text `information_schema`, `information_schema.tables`
  or `show keys from` anywhere, also in a value, is not run, and the client is told it succeeded (`c100_write_lost`).
* `SELECT @@name` and `SHOW VARIABLES LIKE` look up the whole text of the match, not the group, and so never find a
  variable (`c100_variable_unanswered`).
* A question for columns takes the first quoted text after the first `=` after the first `TABLE_NAME`:
  `SELECT table_name ... WHERE table_schema = 'main' AND table_name = 'jobs'` asks for the columns of `main`
  (`c100_columns_wrong_table`).
* The translation of questions for foreign keys is shadowed by the test for `information_schema` unless the client
  writes capital letters (`c100_foreign_shadowed`).
* The empty answer has a column count of 0, which is the mark of an OK packet, followed by two stray packets
  (`c100_empty_answer`).
* The number of the packet is kept as `SToStr(uint8_t)`, a character, and read back as a decimal: answers to packets
  numbered other than 0 are numbered wrongly (`c100_sequence`, `c100_sequence_lost`).
* `.schema` on this port turns off JSON; the answer then fails `SASSERT` and the process ends (`c100_abort`).

Compression:

* A frame names the dictionary by the ID inside the dictionary, not by the ID of its row in the table; if they differ
  the value cannot be read back, or is read with another dictionary (`c60_row_and_own_id`). Dictionaries without an
  ID of their own never work (`c60_raw_dictionary`).
* The C++ function answers an unknown dictionary with the compressed bytes, not an error (`c60_cpp_unknown_returned`).
* Compressing forgets whether a value was a text or a blob (`c60_type_lost`), and a plain value that looks like a frame
  is decompressed (`c60_frame_lookalike`).

Attributes and the guard of UPDATE and DELETE:

* `verifyAttributeBool` ignores what follows a NUL (`c53_bool_nul`); the date check knows no calendar
  (`c53_date_not_calendar`).
* The guard looks for the text ` WHERE `: a WHERE in a string, a comment or another statement satisfies it, and a
  query that begins with WITH, a comment or another statement is not looked at (`c54_evaded`); a WHERE after a newline
  does not count (`c54_refused_needlessly`).

Peers, random IDs, months:

* Of two peers of one name (two ports of one host, no `nodeName`) one is never found (`c55_same_name_hidden`).
* `getRandomID` takes a failed query for "not used" (`c57_failed_query`).
* `SDaysInMonth` answers 31 for months that do not exist (`c58_no_such_month`); `SFirstOfMonth` hands `strftime` a
  month out of range for results before 1900 other than January (`c58_before_1900`) and reads the front of an empty
  list if the month is missing (`c58_month_missing`).

HTTPS requests:

* A request that could not be sent has empty messages; after escalation their method line is `Content-Length: 0`
  (`c67_empty_message`). A gzipped answer is gzipped once more on the way and not unpacked (`c67_gzip_twice`).
* The parser's exceptions and undefined behaviour (C23) can be provoked by the remote server in `postPoll`.

Crash reports, control commands, ports:

* `CRASH_COMMAND` is open to all, and a report whose method line has a control character makes the answer to every
  later LOGIN throw until `ClearCrashCommands` (`c69_bad_report_blocks_logins`). Values with blanks at the ends and
  names in other capitals escape the refusal (`c69_blank_value_not_refused`, `c69_other_spelling_not_refused`).
* Settings are cut to 32 bits: `MaxConflictRetries: 4294967295` sets -1, `priority: 4294967296` makes the node a
  permafollower (`c70_retries_wrap`, `c70_priority_wraps`). `BlockWrites` without a database waits for ever, holding
  the lock of `UnblockWrites` (`c70_block_writes_hangs`).
* `_isCommandPortLikelyBlocked` survives a re-attach, so clients of an open port are told to close
  (`c71_flag_survives_reattach`). When no socket thread can be had, `_acceptSockets` locks `_portMutex` twice
  (`c71_no_thread_is_undefined`).
* A node far behind the leader opens its port when any other peer is close to it (`c74_other_peer_opens`).
* The first of several cookies is unescaped by the receiver, though none is escaped by the sender
  (`c78_first_backslash`).
* A chunk size of 80000000 and up makes the parser throw or copy outside of its buffer (`c79_huge_chunk`); nine digits
  are taken for a header (`c79_nine_digits`).

Answers:

* `plugin` in a request is taken as given: `Ping` with `plugin: x` makes the server abort
  (`c73_plugin_header_aborts`, `c73_mysql_header_aborts`). The header also goes to the leader with an escalated command
  (`c73_escalated_plugin`).
* `Connection: Close` closes without saying so (`c73_close_not_told`).

Life cycle:

* SIGTERM to a detached server, or to one that has just finished a backup, makes it attach and never end
  (`c75_stop_while_detached`, `c75_stop_after_backup`). `shutdownWhileDetached`, which would end it, is never set.
* `Detach` within the second after `Attach`, or on a server started with `-bootstrap`, leaves a server that can neither
  be attached nor stopped (`c75_detach_after_attach`, `c75_detach_after_bootstrap`).
* `Attach` during a backup opens the database that is being copied (`c75_attach_during_backup`).

Text functions and query results:

* `DEBURR` leaves ď Ĝ ĝ Ğ ğ Ġ ġ Ģ ģ Ĥ ĥ Ħ ħ as they are and turns Đ into a small d (`c80_left_out` and examples). It
  neither lower-cases nor drops other characters, as its header says. On malformed text a second run changes the
  result (`c80_malformed`).
* NULL and the empty string are the same in every text form of a result; the comment in `formatCSV` says otherwise
  (`c82_null_is_empty`, `c81_null`). The options `nullvalue` and `separator` are never used.
* The list and tabs forms are ambiguous (`c83_list_ambiguous`, `c83_tabs_ambiguous`).
* The column form writes out of bounds for a row with more cells than there are names (`c84_defined_iff`) and does not
  split names into lines (`c84_name_with_newline`). A cut-off UTF-8 sequence is read as the bits it has, so the Latin-1
  letters `É` and `é` are read as tabs and replaced by blanks (`c84_latin1_lost`).
* In a JSON array of objects values are matched to names by position only (`c81_order_of_text`).

Logs:

* The whitelist of log parameters is compared with case, parameter names elsewhere without
  (`c85_spelling_and_quotes`). The same theorem shows that a value can be made to look like further parameters.
* A NUL byte in a message cuts the rest of the piece it stands in (`c85_nul_cuts`).
* With `-logDirectlyToSyslogSocket`, a `requestID` or `logParam` of more than 8 KB, which a client can send, makes the
  logger read past the end of its buffer (`c85_long_id_reads_past_the_end`).
* In a Fluentd record a parameter replaces the field of the same name (`c85_parameter_replaces_field`).

Connections kept for reuse:

* The age of a connection is not checked when it is handed out (`c86_old_connection_handed_out`).

Addresses, forms and start options:

* Composing an empty form throws; values lose leading blanks, all from a NUL on, and are split at bytes 255
  (`c87_form_empty_throws`, `c87_form_value_changed`).
* Ports are not checked to be numbers: `a:b` is port 0, `a:80x` and `a:4294967376` port 80 (`c87_port_not_checked`).
* The value of a start option cannot begin with a minus sign (`c88_negative_value`).

Sockets:

* `Socket::shutdown` calls `::shutdown(s, SHUT_RDWR)` at once, so the branch of `postPoll` that means to send what is
  buffered before closing can never send anything: those bytes are lost (`c89_shutdown_drops`). Only bytes sent before
  `shutdown` are promised.
* `SSSLState::sendConsume` passes the whole send buffer to `mbedtls_ssl_write` again after WANT_WRITE. If `send` added
  bytes meanwhile, the arguments differ; the library then flushes the earlier record and reports the longer length, and
  the added bytes vanish (`c89_tls_lost`). A socket that gets its request in one `send`, as HTTPS requests do, is not
  affected (`c89_tls_one_request`).
* In `postPoll` of a connecting socket POLLHUP sets CLOSED and then, if SO_ERROR is 0, CONNECTED. The socket is closed
  all the same, because the read that follows ends (`c89_hangup`).
* In the round that finishes the TLS handshake `prePoll` does not ask to write (`c89_handshake_not_asked`).
* `SHTTPSProxySocket` accepts only a reply with ` 200 ` (blank on both sides) in its first line. `HTTP/1.1 200` without
  a reason closes the socket, and then the reply of the proxy is taken for the reply of the server: the transaction ends
  with code 200 although the request was never sent (`c90_refusal_is_success`). Any other refusal is reported with the
  code of the proxy.
* While a proxy has not answered, the socket asks to write without having anything it may write, so `poll` returns at
  once, over and over (`c90_waiting_spins`).
* `proxyNegotiationComplete` is set before the session is created. If that throws, the next call uses a null pointer
  (`c90_session_throws`).
* The move constructor of `Socket` drops both buffers (`c89_move`); it is used for fresh connections only.

Peer connections:

* `SQLiteNode::postPoll` catches `SException` only. A message that cannot be parsed (`X`, `Content-Length: x`) from any
  connection on the node port, announced or not, ends the process (`c92_stranger_kills`).
* A `Content-Length` too large for the type throws `out_of_range`, which `SQLitePeer::popMessage` also throws for "no
  message": the messages after it are never handled while the connection lives (`c92_peer_blocked`).
* A connection that sends a byte every five seconds and never announces itself is kept for ever, with all its bytes
  (`c92_trickle`).
* LOGIN carries no secret: whoever reaches the node port first may take the place of a peer without connection
  (`c92_announced` gives all that is checked).
* There is no time limit for a connection that is being opened or shut down (`c92_connected` has the states).

Client connections:

* Only one request is taken for each successful read.  A second request that arrived together with the first waits in the
  buffer until the client sends more bytes; if the client closes instead, it is never run (`c93_pipelined_waits`,
  `c93_one_per_read`).
* If no thread can be started for a command, the exception destroys `callback` before the command whose destructor calls it:
  undefined behaviour (`c93_no_thread_undefined`).
* A client that sends a byte each second keeps its thread through a shutdown (`c93_trickle`).  A connection of the control
  port holds `_controlPortExclusionMutex` for its whole life, so `postPoll`, which locks it exclusively, waits as long.
* A request that cannot be parsed closes the connection without an answer (example in `Props/ConnServe.lean`).
* What the kernel does not take of an answer at once goes out only together with the next answer (example there).


Query command:

* A text-format answer has only the first of several reading statements; the others are never run, without an error
  (`c94_text`; `SQuery` with a spec returns after its first statement).  JSON has the rows of all, under the names of the last
  statement's columns, even if the numbers of columns differ (`c94_json`).
* The caret is computed from an offset relative to the statement at fault but placed in the whole query, so it is wrong for
  every statement but the first (`c94_wrong_statement`).
* The shown part is cut at 77 bytes and may end inside a character (`c94_cuts_character`).
* A comment in `parseSQLite3Args` says backslashes escape; inside quotes they do not.  Empty quoted arguments are lost, so
  `-nullvalue '' -csv` takes `-csv` as the value (`c94_args_limits`).
* `.schema foo;` looks for a table named `foo;` (`c94_schema_semicolon`).
* `lastInsertRowID` is given only for queries that begin with `INSERT` and a blank (`c94_row_id`).
* `sql-param-` is compared with its case although names of headers are otherwise compared without.
* Read-only is SQLite's word: it holds for `BEGIN` and `COMMIT` too, so those run in `peek` (`Honest` is about the contents).

Text editing:

* `SCollapse` and `SStrip` stop at a NUL (`c95_nul_cuts`); the other functions do not.
* `SAfterLastOf` takes its needle as a set of bytes (`find_last_of`), unlike `SAfter` (`c95_after_last_set`).
* `SBase32HexStringFromBase32` compares `mapLength < shiftedIndex` and does not look for negative indexes: bytes below `2`
  (also `0` and `1`), the backslash and bytes of 128 and more read outside the table (`c95_base32_bytes`).
* `SHexStringFromBase32` accepts blanks, signs and any rest behind a first digit (`c95_hex_from_32_lenient`).

Schema checks:

* White space does not count anywhere, so tables that differ in a literal's blanks pass (`c96_blanks_in_literals`); indexes are
  compared without case, so literals that differ in case pass, while line breaks and tabs count (`c96_index_limits`).
* A text with `IF NOT EXISTS` passes only the first time (`c96_if_not_exists`); callers that assert the result then end the
  process.
* `addColumn` looks for the name between blanks: it does not see the first column of `t (a TEXT)` and tries to add it, which
  ends the process; it takes any word of the text for a column (`c96_column_limits`).  It warns of a failed upgrade when the
  column is there.  A quote in the table's name breaks its query (`Outcome.injected`).

Sync loop:

* The sync thread reads `_upgradeCompleted` and then `upgradeCommandRunning`; the upgrade's destructor writes them in the same
  order.  If it runs on a worker between the two reads, a second upgrade is started after the first has succeeded
  (`c97_upgraded_twice`); never more than one (`c97_one_more`).  Reading the flags in the other order would do.
* Before a command writes, `runCommand` asks `dbReadyToHandleRequests()` and then `getState()`.  A node that follows at the
  first and leads at the second lets a command write before the upgrade (`c97_write_before_upgrade`).
* An upgrade command that went into a queue holds up the shutdown until it is through; as `Connection: forget` gives it an
  hour and no node leads, that can be long (`c97_shutdown_waits`).

Replication thread:

* A follower sends its status with `if (_leadPeer) _sendToPeer(_leadPeer, …)`, two reads of an atomic pointer, in the
  replication thread.  When the leader disconnects, or says the node is forked, the other thread clears the pointer before
  `_changeState` joins the thread: a null pointer is used if that falls between the reads (`c98_null`).  One read into a local
  variable would do.
* A transaction the thread has taken from the queue after its ten seconds is dropped with the rest (`c98_dropped`); they are
  fetched again when the node synchronizes.

Times:

* Times are differences of the wall clock.  If it is set back while a command runs, its answer has times near 2^64
  (`c99_clock_back`).
