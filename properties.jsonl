{"id": "C01", "title": "Equal commit hash at N means identical histories up to N", "statement": "If two nodes report the same commit hash for commit number N, then the first N committed transactions of both nodes are byte-for-byte the same list, unless the two histories exhibit an explicit pair of different inputs with the same SHA1 digest.", "quantifier": "all pairs of databases, all lists of committed queries of any length, all N, any digest function", "why_tests_cant": "needs every pair of histories of every length; a test can only compare a handful of journals and can never argue about the digest in general", "anchors": ["sqlitecluster/SQLite.cpp: SQLite::prepare, SQLite::commit, SQLite::getCommit", "sqlitecluster/SQLiteNode.cpp: SQLiteNode::_onMESSAGE (LOGIN hash check)"]}
{"id": "C02", "title": "A follower's history is always a prefix of what its leader committed", "statement": "While a follower applies the stream of TRANSACTION messages of one leader, started from any common history, after every single step (leader commit, send, delivery, loss of connection, refused transaction) the follower's committed transactions are a prefix of the leader's committed transactions; nothing is skipped, repeated or reordered.", "quantifier": "every interleaving of leader commits, broadcasts, deliveries, connection losses and subscriptions, of any length", "why_tests_cant": "depends on every schedule and every point at which the connection may be cut", "anchors": ["sqlitecluster/SQLiteNode.cpp: _sendOutstandingTransactions, _replicate, _handleBeginTransaction, _handlePrepareTransaction, _handleCommitTransaction, SUBSCRIBE"]}
{"id": "C03", "title": "Synchronisation only ever applies consecutive, hash-verified commits", "statement": "Whatever a peer puts into a SYNCHRONIZE_RESPONSE, the receiving database ends as a valid extension of what it was: every applied commit has the next commit number and the digest computed locally equals the digest claimed by the peer. At the first element that violates this, nothing further is applied and the failure is reported.", "quantifier": "all database states and all response contents, honest or corrupt, of any length", "why_tests_cant": "an adversarial or corrupted response stream is an unbounded input", "anchors": ["sqlitecluster/SQLiteNode.cpp: _recvSynchronize", "sqlitecluster/SQLite.cpp: prepare, commit"]}
{"id": "C04", "title": "Synchronisation batches are the right range and make the peer catch up", "statement": "The reply to a SYNCHRONIZE request of a peer that shares our history carries exactly the commits after the peer's last one, in order, starting at the peer's count + 1 and at most 101 of them (all of them for a subscriber); a peer ahead of us or with a different hash gets an error. Repeating the exchange against an unchanging source always ends with the peer holding exactly the source's history.", "quantifier": "all journals, all peer positions, all numbers of rounds", "why_tests_cant": "off-by-one at the batch boundary and termination for arbitrarily distant peers cannot be enumerated", "anchors": ["sqlitecluster/SQLiteNode.cpp: _queueSynchronize, _recvSynchronize, _updateSyncPeer", "sqlitecluster/SQLite.cpp: getCompressedCommits"]}
{"id": "C05", "title": "A replicated transaction is applied exactly or not at all", "statement": "A follower commits a transaction received from the leader only if its announced commit number is exactly one more than the follower's and the announced digest equals the digest the follower computes itself; in every other case its committed history is unchanged (the follower stops, and comes back with the history it had). A transaction that does follow is accepted.", "quantifier": "all follower states and all TRANSACTION messages", "why_tests_cant": "ranges over all wrong counts, hashes and queries", "anchors": ["sqlitecluster/SQLiteNode.cpp: _replicate, _handleBeginTransaction, _handlePrepareTransaction, _handleCommitTransaction"]}
{"id": "C06", "title": "The committed-transaction feed is complete, ordered and duplicate free", "statement": "Over any history of preparing, committing, rolling back and draining on any number of database handles, the transactions handed out for replication are exactly the committed ones, each once, in commit order, with the query and hash recorded at commit; rolled-back transactions never appear.", "quantifier": "all sequences of prepare/commit/rollback/drain operations over any number of handles", "why_tests_cant": "the bookkeeping map is shared by every handle and is never cleaned on rollback, so only a history-wide argument shows stale entries cannot leak out", "anchors": ["sqlitecluster/SQLite.cpp: SharedData::prepareTransactionInfo, SharedData::commitTransactionInfo, SharedData::popCommittedTransactions"]}
{"id": "C07", "title": "Leader broadcasts are gapless and a new subscriber misses nothing", "statement": "From becoming leader on, the commit numbers broadcast are consecutive, starting just after the history the leader had when it started leading. A follower that subscribes at any moment and applies its subscription reply and then the broadcasts it is sent receives every commit it lacks exactly once and in order.", "quantifier": "all interleavings of commits, broadcasts and subscription requests", "why_tests_cant": "the subscription boundary is a race between three counters (commits done, commits sent, subscriber position)", "anchors": ["sqlitecluster/SQLiteNode.cpp: _sendOutstandingTransactions, _changeState, _queueSynchronize, SUBSCRIBE"]}
{"id": "C08", "title": "No write is committed while commits are disabled", "statement": "From the moment a node leaves LEADING/STANDINGDOWN until it next leaves SEARCHING, no commit on any handle succeeds; a refused commit leaves the history unchanged and the transaction can still be rolled back. Every transaction committed before leaving leadership was handed to the replication feed before the subscriptions are dropped.", "quantifier": "all histories of state changes and commits on all handles", "why_tests_cant": "the window between 'told to stop' and 'stopped' exists at every point of every history", "anchors": ["sqlitecluster/SQLite.cpp: SQLite::commit, SQLite::setCommitEnabled", "sqlitecluster/SQLiteNode.cpp: _changeState"]}
{"id": "C09", "title": "Journal trimming keeps the newest commits and survives restart", "statement": "Trimming never deletes any of the most recent max-journal-size commits, whichever journal table is picked; and reopening the database after a crash at any point recovers the commit count and hash of the last committed transaction.", "quantifier": "all commit histories, all journal table counts, all maximum journal sizes, every crash point", "why_tests_cant": "requires every history and crash point", "anchors": ["sqlitecluster/SQLite.cpp: prepare, initializeSharedData, _getJournalQuery, getCommit"]}
{"id": "C10", "title": "The commit lock is held by at most one handle and is always given back", "statement": "At any time at most one handle holds the commit lock; a handle that prepared holds it; every commit success and every rollback of an open transaction gives it back fully.", "quantifier": "all sequences of begin/prepare/commit/rollback over all handles", "why_tests_cant": "lock leaks only show up on specific error paths inside long histories", "anchors": ["sqlitecluster/SQLite.cpp: beginTransaction, prepare, commit, rollback"]}
{"id": "C11", "title": "Two leaders cannot be elected by disjoint majorities", "statement": "A node becomes LEADING out of STANDINGUP only when at least half of the other full peers are logged in and approved this very attempt (i.e. with itself a strict majority of all full nodes); therefore any two elections in a cluster share a node that took part in both.", "quantifier": "all cluster sizes, all assignments of connection and approval state", "why_tests_cant": "quantifies over all cluster sizes and all partitions", "anchors": ["sqlitecluster/SQLiteNode.cpp: update (STANDINGUP)"]}
{"id": "C12", "title": "A stand-up is only approved by a node that sees no better or conflicting leader", "statement": "A node answers 'approve' to a peer standing up only if it is not itself leading, standing up or standing down, no other peer is leading/standing down/standing up, the peer is not forked or a permafollower, and the peer is not behind it in commits; a single 'deny' from a connected full peer makes the candidate abandon.", "quantifier": "all node states and peer tables of any size", "why_tests_cant": "decision logic over arbitrarily many peers in every combination of states", "anchors": ["sqlitecluster/SQLiteNode.cpp: _sendStandupResponse, update (STANDINGUP)"]}
{"id": "C13", "title": "A permafollower never leads and never counts for quorum", "statement": "A node configured with priority 0 never reaches STANDINGUP, LEADING or STANDINGDOWN as long as it has at least one peer, and adding or removing permafollower peers or changing their state never changes any quorum or election decision of another node.", "quantifier": "all histories of updates and messages, all peer tables", "why_tests_cant": "needs invariance under arbitrary permafollower tables", "anchors": ["sqlitecluster/SQLiteNode.cpp: update, _majoritySubscribed, permafollower handling"]}
{"id": "C14", "title": "Node state changes follow the documented state machine", "statement": "Whatever peers send and whenever the node is updated, its state only moves along the documented edges (SEARCHING to SYNCHRONIZING/WAITING/LEADING, SYNCHRONIZING to WAITING/SEARCHING, WAITING to SEARCHING/SUBSCRIBING/STANDINGUP, STANDINGUP to LEADING/SEARCHING, LEADING to STANDINGDOWN/SEARCHING, STANDINGDOWN to SEARCHING, SUBSCRIBING to FOLLOWING/SEARCHING, FOLLOWING to SEARCHING); in particular it never writes as a leader without passing through STANDINGUP when it has peers, and never follows without subscribing.", "quantifier": "all sequences of update ticks, messages and disconnects with arbitrary peers", "why_tests_cant": "all event orders", "anchors": ["sqlitecluster/SQLiteNode.cpp: update, _onMESSAGE, _onDisconnect, _changeState"]}
{"id": "C15", "title": "Stale stand-up responses are ignored", "statement": "A stand-up response that answers an earlier stand-up attempt, or arrives in any state but STANDINGUP, never affects the outcome of the current attempt.", "quantifier": "all delays and reorderings of responses over any number of stand-up attempts", "why_tests_cant": "needs all late-delivery schedules", "anchors": ["sqlitecluster/SQLiteNode.cpp: _onMESSAGE (STANDUP_RESPONSE), _changeState (_stateChangeCount)"]}
{"id": "C16", "title": "A leader steps down when it must and only via STANDINGDOWN or a forced drop", "statement": "A LEADING node begins standing down on its next update if it is asked to shut down, another node is also leading, or a waiting peer has higher priority or more commits; otherwise it stays LEADING.", "quantifier": "all peer tables and node states", "why_tests_cant": "all peer tables", "anchors": ["sqlitecluster/SQLiteNode.cpp: update (LEADING/STANDINGDOWN)"]}
{"id": "C17", "title": "A node removes itself only when forked from a majority", "statement": "A node kills itself on a detected fork exactly when the number of full peers it is forked from is at least half, rounded up, of all full nodes of the cluster (itself included unless it is a permafollower); so in a cluster of three or more full nodes one diverged node never takes down the others.", "quantifier": "all cluster sizes, all sets of forked peers, all orders of detection", "why_tests_cant": "all cluster sizes and detection orders", "anchors": ["sqlitecluster/SQLiteNode.cpp: _dieIfForkedFromCluster, _onMESSAGE (LOGIN, FORKED)"]}
{"id": "C18", "title": "Priority changes are validated and keep election well defined", "statement": "setPriority refuses negative values and 1 with 400, refuses a value used by a logged-in peer and refuses a demotion to permafollower that would break quorum with 409, leaving the node unchanged; after any history no logged-in peer has the node's own priority, if that is a normal one.", "quantifier": "all priorities, all peer tables, all histories of priority changes", "why_tests_cant": "all tables and histories", "anchors": ["sqlitecluster/SQLiteNode.cpp: setPriority"]}
{"id": "C19", "title": "A leader that cannot see a quorum stops leading", "statement": "After a full peer disconnects, a LEADING node that is left with fewer than half of the other full peers logged in leaves leadership immediately; hence two disjoint groups can never both retain a leader this way.", "quantifier": "all cluster sizes, all disconnect orders", "why_tests_cant": "all cluster sizes", "anchors": ["sqlitecluster/SQLiteNode.cpp: _onDisconnect"]}
{"id": "C20", "title": "Command port closes and reopens with hysteresis as a node falls behind", "statement": "As peers report commit counts, the public command port is blocked by lag exactly from the moment the node is at least 12,500 commits behind until it is less than 1,000 behind; between the two limits its status never changes.", "quantifier": "all histories of commit counts", "why_tests_cant": "history dependent", "anchors": ["sqlitecluster/SQLiteNode.cpp: _onMESSAGE (command port)"]}
{"id": "C21", "title": "Mocked requests never change the database", "statement": "While a handle is in no-op update mode, a write that would modify rows leaves data, pending query text and therefore the replicated history as if it had not been issued.", "quantifier": "all write sequences and mode switches", "why_tests_cant": "all histories of writes and mode switches", "anchors": ["sqlitecluster/SQLite.cpp: write, setUpdateNoopMode, _writeIdempotent"]}
{"id": "C22", "title": "Messages round-trip", "statement": "Serialising a request or response and parsing the bytes gives back the same method line, the same header table and the same content, and consumes exactly the bytes produced, for all content bytes (including NUL, CR and LF) and header values.", "quantifier": "all method lines, header tables and contents within stated well-formedness", "why_tests_cant": "all byte strings", "anchors": ["libstuff/libstuff.cpp: SComposeHTTP, SParseHTTP", "libstuff/SData.cpp: serialize, deserialize"]}
{"id": "C23", "title": "Pipelined messages are framed independently of packet boundaries", "statement": "A stream made of any number of serialised messages, delivered in chunks of any sizes, is decoded as exactly that sequence of messages; an incomplete tail is never consumed and yields no message.", "quantifier": "all message sequences, all chunkings", "why_tests_cant": "all chunkings of all streams", "anchors": ["libstuff/libstuff.cpp: SParseHTTP", "libstuff/STCPManager.cpp, sqlitecluster/SQLitePeer.cpp: popMessage"]}
{"id": "C24", "title": "A header value cannot inject headers or messages", "statement": "No header value, whatever bytes it contains, can change the number of messages or add, remove or alter any other header of the parsed message.", "quantifier": "all header values", "why_tests_cant": "all adversarial byte strings", "anchors": ["libstuff/libstuff.cpp: SComposeHTTP, SEscape, SParseHTTP"]}
{"id": "C25", "title": "Escape and unescape are inverse", "statement": "For every text without NUL, unescaping the escaped text returns the original, for any set of characters to escape that avoids the letters used as escape codes; the escaped text contains none of the characters to be escaped unprotected.", "quantifier": "all byte strings, all admissible escape sets", "why_tests_cant": "all byte strings", "anchors": ["libstuff/libstuff.cpp: SEscape, SUnescape"]}
{"id": "C26", "title": "URL component encoding round-trips and is safe", "statement": "Encoding any byte string as a URL component yields only unreserved characters, '+' and %XX, and decoding gives back the original bytes; decoding never fails on any input.", "quantifier": "all byte strings", "why_tests_cant": "all byte strings", "anchors": ["libstuff/libstuff.cpp: SEncodeURIComponent, SDecodeURIComponent, _SDecodeURIChar"]}
{"id": "C27", "title": "Hex encoding round-trips", "statement": "Hex-encoding any byte string or any 64-bit number and decoding returns the original; the encoding has exactly two (or the requested number of) hex digits per byte.", "quantifier": "all byte strings and all 64-bit values", "why_tests_cant": "all values", "anchors": ["libstuff/libstuff.cpp: SToHex, SFromHex, SStrFromHex"]}
{"id": "C28", "title": "Constant-time comparison decides equality", "statement": "The constant-time secret comparison returns true exactly when the two strings are equal, and the sequence of memory positions it reads depends only on the lengths, not on the contents.", "quantifier": "all pairs of byte strings", "why_tests_cant": "all pairs", "anchors": ["libstuff/libstuff.cpp: SConstantTimeEquals"]}
{"id": "C29", "title": "Lists round-trip through their text form", "statement": "Parsing a composed list returns the same list for all lists of non-empty trimmed elements without the separator; parsing any text never yields empty elements, elements with surrounding whitespace or with the separator.", "quantifier": "all lists and all texts", "why_tests_cant": "all lists", "anchors": ["libstuff/libstuff.cpp: SParseList", "libstuff/libstuff.h: SComposeList"]}
{"id": "C30", "title": "JSON composed by the library parses back", "statement": "Composing any list or table of strings to JSON and parsing it returns the same strings, for all strings free of the documented exceptions.", "quantifier": "all lists/tables of strings", "why_tests_cant": "all strings", "anchors": ["libstuff/libstuff.cpp: SToJSON, SComposeJSONObject, SParseJSONArray, SParseJSONObject"]}
{"id": "C31", "title": "Quoted SQL literals cannot be broken out of", "statement": "For every string without NUL, its quoted form is lexed by SQL as exactly one string literal whose value is the original string, with nothing left over, whatever text follows that does not start with a quote.", "quantifier": "all strings and all following text", "why_tests_cant": "all adversarial strings", "anchors": ["libstuff/libstuff.cpp: SQ, SEscape"]}
{"id": "C32", "title": "Bound query parameters survive transport", "statement": "Serialising and deserialising a bound parameter (null, integer, text, blob) returns the same value, and encoding then decoding a parameter name returns the same name with no characters that are illegal in a header name.", "quantifier": "all parameter values and names", "why_tests_cant": "all values", "anchors": ["libstuff/SQliteParameter.cpp"]}
{"id": "C33", "title": "The socket buffer behaves as a byte queue", "statement": "Any sequence of appends and front-consumptions on the buffer shows exactly the bytes of a plain FIFO byte queue: contents, size and emptiness.", "quantifier": "all operation sequences", "why_tests_cant": "all operation sequences", "anchors": ["libstuff/SFastBuffer.cpp"]}
{"id": "C34", "title": "Request-complete detection does not depend on chunking", "statement": "Whether the buffer reports that it begins with a complete request head depends only on the bytes currently in it, not on how they arrived or on how often it was asked, and the reported header length is that of the first blank line.", "quantifier": "all byte strings, all chunkings and query points", "why_tests_cant": "all chunkings", "anchors": ["libstuff/SFastBuffer.cpp: startsWithHTTPRequest"]}
{"id": "C35", "title": "The lock-free ring buffer delivers each accepted item exactly once, in order", "statement": "Under every interleaving of any number of producers and one consumer, every accepted item is delivered exactly once, in the order in which producers claimed their slots; no slot is overwritten before it was consumed; a rejected push has no effect.", "quantifier": "every interleaving of atomic steps, any number of producers and items, any capacity", "why_tests_cant": "all interleavings", "anchors": ["libstuff/SRingBuffer.h"]}
{"id": "C36", "title": "The synchronised queue is FIFO and never loses a wakeup", "statement": "Items come out in the order pushed, each exactly once, and whenever the queue is non-empty its file descriptor is readable or a consumer is about to be told.", "quantifier": "all interleavings of push, pop and poll", "why_tests_cant": "all interleavings", "anchors": ["libstuff/SSynchronizedQueue.h"]}
{"id": "C37", "title": "The command queue never loses, duplicates or early-starts commands", "statement": "Every pushed command is handed out exactly once; a command scheduled for the future is never handed out before its time unless it has timed out; if some command has timed out the one with the oldest timeout is handed out first, otherwise the one with the earliest scheduled time.", "quantifier": "all histories of pushes, gets and clock values", "why_tests_cant": "all histories", "anchors": ["BedrockCommandQueue.cpp"]}
{"id": "C38", "title": "Blocking-queue rate limits block exactly the offenders", "statement": "An identifier (or command name) is blocked exactly when its recorded blocking-thread time within the sliding window exceeds the threshold, stays blocked for the configured duration and no longer, and never affects other identifiers.", "quantifier": "all histories of executions, clock values and identifiers", "why_tests_cant": "all histories", "anchors": ["BedrockBlockingCommandQueue.cpp"]}
{"id": "C39", "title": "Conflict-page locks exclude each other and are never discarded in use", "statement": "At most one live guard holds the lock for a given page; pruning never discards the lock of a page with a live or waiting guard; page 0 never locks; the table of unused locks stays bounded.", "quantifier": "all histories of guard creation and destruction over all pages", "why_tests_cant": "all histories", "anchors": ["BedrockConflictManager / ConflictLockGuard.cpp"]}
{"id": "C40", "title": "A database handle is never given to two users", "statement": "The handle pool never hands the same handle to two users at once, never creates more handles than configured, returns each handle exactly once, and a waiting user is served once a handle comes back.", "quantifier": "all histories of get/return", "why_tests_cant": "all histories", "anchors": ["sqlitecluster/SQLitePool.cpp"]}
{"id": "C41", "title": "Commit on a node either commits on the leader or rolls back", "statement": "A commit attempt reports success only if the transaction is in the committed history (or wrote nothing), is never successful on a node that is not leading, and otherwise leaves no transaction open.", "quantifier": "all prepare/commit outcomes and node states", "why_tests_cant": "all outcome combinations", "anchors": ["sqlitecluster/SQLiteCore.cpp: commit"]}
{"id": "C42", "title": "Every command leaves the database handle clean", "statement": "After peeking, processing or post-processing any command, whatever the plugin does or throws, either a transaction is open precisely because a commit is still needed, or there is no open transaction; timeouts, no-op mode and abort hooks are reset.", "quantifier": "all plugin behaviours and exception points", "why_tests_cant": "all exception points", "anchors": ["BedrockCore.cpp"]}
{"id": "C43", "title": "Command timeouts are honoured and never extended", "statement": "The effective deadline of a command is computed from the requested timeout as documented, time already passed is never given back when a command is retried, escalated or re-queued, and an expired command always fails with 555 rather than running.", "quantifier": "all clock values and request timeouts", "why_tests_cant": "all clock values", "anchors": ["BedrockCommand.cpp: _getTimeout", "BedrockCore.cpp: getRemainingTime, isTimedOut"]}
{"id": "C44", "title": "A dequeued job is not handed out twice", "statement": "A job returned by GetJob/GetJobs is not returned again until it was finished for a repeat, retried, requeued, or its retryAfter period elapsed; failed, cancelled, finished, paused jobs and jobs whose nextRun is in the future are never returned.", "quantifier": "all histories of job commands", "why_tests_cant": "all histories", "anchors": ["plugins/Jobs.cpp: GetJob/GetJobs"]}
{"id": "C45", "title": "GetJobs returns the highest-priority, longest-waiting jobs", "statement": "GetJobs returns at most the requested number of eligible jobs, and no eligible job that is left behind has a higher priority than a returned one, or the same priority and an earlier nextRun.", "quantifier": "all job tables and limits", "why_tests_cant": "all tables", "anchors": ["plugins/Jobs.cpp: GetJobs query"]}
{"id": "C46", "title": "Job trees stay one level deep and parents wait for children", "statement": "No job ever has a grandparent; children can only be created under a running or paused parent; a parent with unfinished children is not finished or deleted by FinishJob, it pauses until they are done and is then queued again.", "quantifier": "all histories of job commands", "why_tests_cant": "all histories", "anchors": ["plugins/Jobs.cpp: CreateJob, FinishJob, CancelJob, DeleteJob"]}
{"id": "C47", "title": "Job commands are accepted only in the documented states", "statement": "FinishJob/RetryJob/FailJob/CancelJob/DeleteJob/UpdateJob take effect only on an existing job in the documented states; on error nothing changes.", "quantifier": "all job tables and commands", "why_tests_cant": "all tables", "anchors": ["plugins/Jobs.cpp"]}
{"id": "C48", "title": "A late repeating job is rescheduled on its grid in the future", "statement": "When a short-interval scheduled repeat has been missed, the new run time is strictly in the future, at most one interval away, and a whole number of intervals after the original schedule.", "quantifier": "all intervals, schedules and current times", "why_tests_cant": "all times", "anchors": ["plugins/Jobs.cpp: _constructNextRunDATETIME"]}
{"id": "C49", "title": "Automatic retries are bounded", "statement": "A job with retryAfter is handed out at most ten times without an explicit finish or retry, after that it is FAILED; manual jobs are exempt.", "quantifier": "all histories", "why_tests_cant": "all histories", "anchors": ["plugins/Jobs.cpp: GetJobs retryAfterCount"]}
{"id": "C50", "title": "The cache stays within its size and evicts least recently used first", "statement": "The total size of cached values never exceeds the configured maximum after a write, a value written is readable until evicted, invalidated or overwritten, and eviction takes the least recently used entry first.", "quantifier": "all histories of reads and writes", "why_tests_cant": "all histories", "anchors": ["plugins/Cache.cpp"]}
{"id": "C51", "title": "Unicode escapes decode to correct UTF-8", "statement": "\\uXXXX escapes decode to the UTF-8 encoding of that code point for every Basic Multilingual Plane scalar value, and surrogate pairs decode to the encoded supplementary character.", "quantifier": "all code points", "why_tests_cant": "whole code space", "anchors": ["libstuff/libstuff.cpp: SUnescape"]}
{"id": "C52", "title": "MySQL packets and length-encoded integers round-trip", "statement": "Every length-encoded integer decodes (by the protocol's rules) to the value encoded; every packet sent is parsed back by the packet reader; a partial packet is never consumed.", "quantifier": "all 64-bit values, all payloads, all chunkings", "why_tests_cant": "all values", "anchors": ["plugins/MySQL.cpp: MySQLPacket"]}
{"id": "C53", "title": "Request attribute validation accepts exactly canonical values", "statement": "An attribute accepted as 64-bit integer is the canonical decimal text of a 64-bit integer; one accepted as bool is a spelling of true/false; size limits are inclusive.", "quantifier": "all strings", "why_tests_cant": "all strings", "anchors": ["BedrockPlugin.cpp: verifyAttributeInt64, verifyAttributeSize, verifyAttributeBool"]}
{"id": "C54", "title": "Unbounded UPDATE/DELETE is refused", "statement": "A query whose text starts with UPDATE or DELETE, in any letter case, without a WHERE keyword is refused unless explicitly allowed.", "quantifier": "all query strings", "why_tests_cant": "all strings", "anchors": ["plugins/DB.cpp: process"]}
{"id": "C55", "title": "Peers are found by name", "statement": "Looking up a peer by name returns that peer if and only if it is configured.", "quantifier": "all peer lists", "why_tests_cant": "all lists", "anchors": ["sqlitecluster/SQLiteNode.cpp: getPeerByName, _initPeers"]}
{"id": "C56", "title": "Cached reads within a transaction equal fresh reads", "statement": "Within a transaction a repeated read returns what running the query again would return, even after writes.", "quantifier": "all sequences of reads and writes", "why_tests_cant": "all sequences", "anchors": ["sqlitecluster/SQLite.cpp: read, write"]}
{"id": "C57", "title": "Generated random IDs are positive and unused", "statement": "A generated random ID is strictly positive, fits in 63 bits and is not used in the given table.", "quantifier": "all random sequences and tables", "why_tests_cant": "all random sequences", "anchors": ["sqlitecluster/SQLiteUtils.cpp: getRandomID"]}
{"id": "C58", "title": "Calendar helpers are correct", "statement": "Days-in-month is right for every month and year under the Gregorian rule; first-of-month arithmetic is right for any offset.", "quantifier": "all years and months", "why_tests_cant": "all years", "anchors": ["libstuff/STime.cpp"]}
{"id": "C59", "title": "Read-only and whitelisted handles cannot touch other data", "statement": "With a table/column whitelist in force, a read of any table or column outside it is denied, and any write, schema change or attach is denied.", "quantifier": "all authorizer actions and whitelists", "why_tests_cant": "all actions", "anchors": ["sqlitecluster/SQLite.cpp: _authorize"]}
{"id": "C60", "title": "Compressed values round-trip", "statement": "Decompressing a value compressed with a known dictionary returns it; uncompressed values pass through unchanged; an unknown dictionary is an error, never wrong data.", "quantifier": "all values and dictionary tables", "why_tests_cant": "all values", "anchors": ["plugins/Compression.cpp"]}
{"id": "C61", "title": "A command's write is executed at most once", "statement": "However often a command conflicts, is retried, waits in queues, is escalated to the leader or loses its connection to it, its write is committed on this node or handed completely to another node at most once; a command answered as committed was committed, one answered as timed out, refused or read-only was not committed here.", "quantifier": "all sequences of runs of a command, all results of its stages, commits, state changes of the node and behaviours of the network", "why_tests_cant": "depends on the moment of a state change or a lost connection", "anchors": ["BedrockServer.cpp: runCommand", "sqlitecluster/SQLiteClusterMessenger.cpp: runOnPeer"]}
{"id": "C62", "title": "Every request is answered exactly once", "statement": "Every run of a command ends by answering it once, or by putting it into exactly one queue, and nothing is done with it afterwards; over its whole life a command is never answered twice, and one with a waiting client is never dropped.", "quantifier": "all sequences of runs of a command and everything it can meet", "why_tests_cant": "all paths through retries, queues and failures", "anchors": ["BedrockServer.cpp: runCommand, _reply"]}
{"id": "C63", "title": "Forwarding a command reports honestly whether it was delivered", "statement": "Handing a command to a peer sends a prefix of the serialised request; the command may be retried only if not all of it was sent; if all of it was sent and the answer is lost the client gets an error; if forwarding succeeds the answer is the peer's.", "quantifier": "all requests and all behaviours of the sockets", "why_tests_cant": "every byte position at which a connection can break", "anchors": ["sqlitecluster/SQLiteClusterMessenger.cpp: runOnPeer, _sendCommandOnSocket, waitForReady"]}
{"id": "C64", "title": "Conflict retries are bounded and spaced", "statement": "With a retry limit of m a command is processed at most m+1 times before it goes to the blocking queue; the wait between attempts stays within a quarter of 10, 25, 50, 100, 250, 500 ms for every random number; an expired command is answered without running.", "quantifier": "all sequences of conflicts, all random numbers", "why_tests_cant": "unbounded retries, all random numbers", "anchors": ["BedrockServer.cpp: runCommand"]}
{"id": "C65", "title": "The replicated text of a transaction reproduces it", "statement": "A follower that starts from the same database and executes, in order, the texts of the committed transactions ends with the same database as the leader, whatever was read, written, interrupted, rewritten or rolled back in between.", "quantifier": "all histories of calls on a handle interleaved with commits of others", "why_tests_cant": "all histories of calls, retries and interruptions", "anchors": ["sqlitecluster/SQLite.cpp: _writeIdempotent, write, writeIdempotent, writeUnmodified, setUpdateNoopMode, prepare", "libstuff/libstuff.cpp: SQuery"]}
{"id": "C66", "title": "Non-deterministic functions never reach followers", "statement": "No committed transaction carries a statement calling random(), current_timestamp, last_insert_rowid(), changes() or sqlite_version(); a write that contains one is refused, records nothing, and the same functions stay usable in reads.", "quantifier": "all histories of calls and all statements", "why_tests_cant": "all statements and histories", "anchors": ["sqlitecluster/SQLite.cpp: _authorize, _writeIdempotent"]}
{"id": "C67", "title": "HTTPS requests survive escalation", "statement": "When a command with outgoing HTTPS requests is sent on to the leader, the leader sees the same requests in the same order, with the same times, response codes, request messages and response messages.", "quantifier": "all lists of requests and all messages", "why_tests_cant": "all messages, including binary contents and empty ones", "anchors": ["BedrockCommand.cpp: serializeHTTPSRequests, deserializeHTTPSRequests", "sqlitecluster/SQLiteClusterMessenger.cpp: _sendCommandOnSocket"]}
{"id": "C68", "title": "Waiting for HTTPS requests ends with an answer for each", "statement": "When a command stops waiting for its HTTPS requests, each of them has a non-zero response code. It stops at the latest at the first turn past its timeout or after its client has gone. While the connection is up and no time has run out only a complete answer is taken, and its code is the one in the first line.", "quantifier": "all sequences of socket events, clock readings and additions of requests", "why_tests_cant": "all schedules", "anchors": ["BedrockCommand.cpp: areHttpsRequestsComplete, _waitForHTTPSRequests", "libstuff/SHTTPSManager.cpp: postPoll, getHTTPResponseCode"]}
{"id": "C69", "title": "A command that crashed one node is refused by the others", "statement": "When a node crashes while running a command, every node that gets its report refuses every later request with the same method line and the same identifying values; a request that differs in one of them is not refused unless two crashes with this method line were reported; requests with other method lines never are. ClearCrashCommands lifts all refusals. A node that joins later learns the list.", "quantifier": "all requests, sets of identifying headers and histories of reports", "why_tests_cant": "all requests and values, including ones that do not survive serialisation", "anchors": ["BedrockServer.cpp: generateCrashMessage, _wouldCrash, _control (CRASH_COMMAND, ClearCrashCommands), onNodeLogin"]}
{"id": "C70", "title": "Only administrators can change how the server runs", "statement": "Requests from other machines, whatever their headers and however many, change nothing of the server's settings and life cycle; they may only block and unblock the command port and report crashing commands, and any other control command is answered with 401 Unauthorized. Settings sent by an administrator take the value in the request; the number of socket threads is never set to 0 and negative values are ignored.", "quantifier": "all requests, headers, spellings and sequences of requests", "why_tests_cant": "all header values and sequences", "anchors": ["BedrockServer.cpp: buildCommandFromRequest, _handleIfStatusOrControlCommand, _isControlCommand, _isNonSecureControlCommand, _control"]}
{"id": "C71", "title": "The command port is closed while there is a reason", "statement": "While any block of the command port is outstanding the public command port is closed; each block needs its own unblock; without blocks, shutdown or detachment the port is open after the next poll of a node that leads or follows. Once a shutdown has begun no port opens again, and a detached server has its command ports closed. Connections that are still there are told to close while the port is blocked.", "quantifier": "all sequences of blocks, unblocks, polls, state changes, shutdowns, detachments and attachments", "why_tests_cant": "all interleavings", "anchors": ["BedrockServer.cpp: blockCommandPort, unblockCommandPort, postPoll, _beginShutdown, _resetServer, _acceptSockets"]}
{"id": "C72", "title": "A command waiting for a commit is not lost", "statement": "A command set aside until a given commit is handed back exactly once: as soon as the commit is there, its deadline has passed or the server is stopping, and not before. Commands released by commits go back in the order of their commits.", "quantifier": "all sequences of commands, commit counts and clock readings", "why_tests_cant": "all histories, equal commits and equal deadlines included", "anchors": ["BedrockServer.cpp: sync (172-241), runCommand (652-669)", "BedrockServer.h: _futureCommitCommands, _futureCommitCommandTimeouts"]}
{"id": "C73", "title": "Every answered command's client reads its response", "statement": "A command whose client is still connected is answered with exactly one message, which has the method line, content and headers of the response and the name of the node, and says that the connection closes if it does. If nobody can get the answer the command is told so, and only then.", "quantifier": "all requests, responses, server states and connections", "why_tests_cant": "all headers a client can send", "anchors": ["BedrockServer.cpp: _reply", "sqlitecluster/SQLiteClusterMessenger.cpp: _sendCommandOnSocket", "plugins/MySQL.cpp: onPortRequestComplete"]}
{"id": "C74", "title": "A node far behind the leader does not take commands", "statement": "A node that learns that it is 12500 commits or more behind the leader closes its command port, once, and keeps it closed until it is less than 1000 commits behind the leader.", "quantifier": "all sequences of messages of peers", "why_tests_cant": "all interleavings of messages of several peers", "anchors": ["sqlitecluster/SQLiteNode.cpp: _onMESSAGE (994-1006)"]}
{"id": "C75", "title": "A server can be stopped, detached, backed up and attached again", "statement": "A server that says it is detached, or that copies its database for a backup, has no node and no open database. A running server that is told to stop ends. A running server can be detached and attached again or backed up, and then runs as before; no sequence of Detach, Attach, BeginBackup and termination signals leaves it in a state it cannot leave.", "quantifier": "all interleavings of control commands, signals, the main thread and the sync thread", "why_tests_cant": "all schedules of two threads and commands", "anchors": ["BedrockServer.cpp: syncWrapper, sync (352-416), shutdownComplete, isDetached, setDetach, _control, _resetServer, _beginShutdown, postPoll", "main.cpp: 383-429"]}
{"id": "C76", "title": "Mocked jobs stay apart from real ones", "statement": "A job created by a mocked request, and every child of a mocked job, is mocked; a mocked job stays mocked, whatever commands follow, and is never handed to a worker that did not ask for mocked jobs.", "quantifier": "all histories of job commands", "why_tests_cant": "all histories and families of jobs", "anchors": ["plugins/Jobs.cpp: CreateJob, GetJob, UpdateJob, FailJob"]}
{"id": "C77", "title": "Schedule texts are understood or refused", "statement": "A repeat or retryAfter text that CreateJob, RetryJob, UpdateJob or FinishJob accepts is one for which a next run can be computed; the accepted texts are exactly a base followed by modifiers of the documented form; a repeat of a base and one offset runs for ever; a text names the offset it says.", "quantifier": "all texts, all times", "why_tests_cant": "unbounded texts", "anchors": ["libstuff/libstuff.cpp: SIsValidSQLiteDateModifier (3189-3215)", "plugins/Jobs.cpp: _constructNextRunDATETIME (1480-1597), 341-344", "plugins/Jobs.h: _validateRepeat"]}
{"id": "C78", "title": "Cookies arrive whole and in order", "statement": "A message with any number of cookies arrives with the same cookies in the same order, with its other headers and its content, and nothing of what follows it is consumed.", "quantifier": "all messages and lists of cookies", "why_tests_cant": "unbounded lists of arbitrary byte strings", "anchors": ["libstuff/libstuff.cpp: SComposeHTTP (1352-1361), SParseHTTP (1117-1126)"]}
{"id": "C79", "title": "Chunked bodies are put together", "statement": "A message with a body sent in chunks is read as the concatenation of the chunks, consuming exactly its bytes; as long as it has not arrived, nothing is taken; afterwards Content-Length is the length of the body and Transfer-Encoding is gone.", "quantifier": "all sequences of chunks, sizes, extensions, headers and prefixes", "why_tests_cant": "unbounded sequences of chunks and every point at which the input may be cut", "anchors": ["libstuff/libstuff.cpp: SParseHTTP (971-1000, 1045-1085)"]}
{"id": "C80", "title": "DEBURR removes accents character by character", "statement": "DEBURR replaces each accented letter of Latin-1 and Latin Extended-A by its plain form, drops combining accents and leaves every other character as it is, wherever it stands; doing it twice is doing it once; the result is never longer than the argument.", "quantifier": "all UTF-8 texts (for the length: all byte strings)", "why_tests_cant": "every text of every length; each of a million characters next to any other", "anchors": ["libstuff/SDeburr.cpp: SDeburr::deburr, SDeburr::unicodeToAscii", "libstuff/SDeburr.h: UNICODE_TO_ASCII_MAP"]}
{"id": "C81", "title": "Query results survive JSON", "statement": "A query result written as JSON is read back with the same column names and cells; one with a row of another width, or without column names, is refused; an array of objects, as SQLite writes it, is read as the table of its values.", "quantifier": "all results and all JSON arrays of objects", "why_tests_cant": "unbounded tables of arbitrary strings nested in three levels of JSON", "anchors": ["libstuff/SQResult.cpp: SQResult::deserialize, serializeToJSON", "libstuff/SQResultFormatter.cpp: formatJSON"]}
{"id": "C82", "title": "Query results survive CSV", "statement": "A CSV reader gets back from the CSV form of any query result exactly its column names and cells.", "quantifier": "all results with any bytes in names and cells", "why_tests_cant": "unbounded tables of arbitrary byte strings", "anchors": ["libstuff/SQResultFormatter.cpp: formatCSV"]}
{"id": "C83", "title": "The quote form is valid SQL; list and tabs forms can be read back", "statement": "An SQL reader gets back from the quote form each cell, a number exactly when its text is an SQL number and a string otherwise; from the list and tabs forms the cells are read back when they hold no separator.", "quantifier": "all results", "why_tests_cant": "unbounded tables of arbitrary byte strings; every text that may or may not be a number", "anchors": ["libstuff/SQResultFormatter.cpp: formatQuote, formatTabs, formatList"]}
{"id": "C84", "title": "The column form is aligned", "statement": "In the text form of a query result every cell starts at the start of its column, in every line of every row, the columns are just wide enough, and no line ends with blanks.", "quantifier": "all results, with any bytes in names and cells", "why_tests_cant": "the start of a column depends on every cell of every row, over malformed and multi-byte text", "anchors": ["libstuff/SQResultFormatter.cpp: formatColumn"]}
{"id": "C85", "title": "Log lines carry only what may be logged, whole and once", "statement": "A parameter value appears in a log line only if its name is on the list of names that may be logged; otherwise a placeholder stands for it (or, in a test build, the call fails). A long message is written in pieces that, put together, are the message. One Fluentd record is one line, read back by a JSON reader as the record, and each record taken from the queue is sent once and whole, in order.", "quantifier": "all messages, parameters and histories of the queue and the sender", "why_tests_cant": "every message of every length with any bytes, every interleaving of logging threads with a failing connection", "anchors": ["libstuff/SLog.cpp: addLogParams, SWhitelistLogParams", "libstuff/libstuff.cpp: SSyslogSocketDirect", "libstuff/SFluentdLogger.cpp: SFluentdLogger"]}
{"id": "C86", "title": "Connections kept for reuse have one user and are closed in time", "statement": "A connection handed out by a pool has one user until it is given back; one that the other end has closed or that has something to read is not handed out; every connection opened is in the pool, in use, or closed; those unused for longer than the timeout are closed when the timer runs, it never sleeps past the first expiry, and the pool can always be destroyed.", "quantifier": "all interleavings of any number of threads, the timer and the destructor", "why_tests_cant": "unbounded interleavings of threads, notifications and clock readings", "anchors": ["libstuff/SSocketPool.cpp: SSocketPool::getSocket, returnSocket, _timeoutThreadFunc, ~SSocketPool"]}
{"id": "C87", "title": "Addresses, URLs and forms are read as written", "statement": "A table written as a form after a path is read back with the same path, names and values; a URL is split into exactly its host and path, and anything that is not an http or https URL is refused; a host and port come back as composed, and a text without a domain, a colon and a port in range is refused.", "quantifier": "all tables, paths, hosts and ports, with any bytes", "why_tests_cant": "unbounded byte strings, each byte encoded or not, in any combination", "anchors": ["libstuff/libstuff.cpp: SParseURI, SParseURIPath, SComposePOST, SParseHost, SComposeHost"]}
{"id": "C88", "title": "Peer lists and start options are understood as written", "statement": "Every option of the command line is taken with its value, the last of a name counting in any spelling; options that are not given get their defaults and given ones keep their values; a peer list yields one peer per entry, in order, with the given host, parameters and name, and a list with an entry without a valid address stops the server.", "quantifier": "all command lines and peer lists", "why_tests_cant": "unbounded lists of arbitrary texts", "anchors": ["libstuff/libstuff.cpp: SParseCommandLine", "sqlitecluster/SQLiteNode.cpp: SQLiteNode::_initPeers", "sqlitecluster/SQLitePeer.cpp: SQLitePeer::isPermafollower", "main.cpp: SETDEFAULT"]}
{"id": "C89", "title": "Bytes handed to a socket go out in order, once, and none is skipped", "statement": "The bytes written to a connection are at every moment a prefix of the bytes handed to it, whatever the kernel accepts at a time and whatever errors occur, and as long as the connection is not shut down or closed the rest is still waiting to be sent; a socket is closed exactly when reading ends or an error is not temporary; a failed or interrupted connect closes it with nothing written; once it is shutting down or closed nothing handed to it later is sent and it never becomes usable again; over TLS nothing goes out unencrypted.", "quantifier": "all sequences of sends, polls, shutdowns and answers of the kernel and the TLS library", "why_tests_cant": "short writes and errors at any byte in any combination", "anchors": ["libstuff/STCPManager.cpp: STCPManager::postPoll, STCPManager::prePoll, Socket::send, Socket::shutdown", "libstuff/libstuff.cpp: S_sendconsume, SCheckNetworkErrorType", "libstuff/SSSLState.cpp: SSSLState::sendConsume"]}
{"id": "C90", "title": "What arrives is delivered in order, and a proxy never sees the request", "statement": "The bytes taken from a socket followed by those still buffered are exactly the bytes that arrived, in order; through a proxy the only unencrypted bytes are those of the CONNECT request, the TLS session and the request start only after the proxy has agreed in a complete reply, and after a refusal nothing is written any more.", "quantifier": "all ways of splitting the incoming bytes, all replies of a proxy, all sequences of calls", "why_tests_cant": "arbitrary splitting of unbounded byte sequences and arbitrary behaviour of the proxy", "anchors": ["libstuff/STCPManager.cpp: Socket::recv", "libstuff/libstuff.cpp: S_recvappend", "libstuff/SSSLState.cpp: SSSLState::recvAppend", "libstuff/SHTTPSProxySocket.cpp: SHTTPSProxySocket::send, SHTTPSProxySocket::recv", "libstuff/SHTTPSManager.cpp: SStandaloneHTTPSManager::postPoll"]}
{"id": "C91", "title": "Each node connection has one owner and its messages are handled in order, once, and before it is dropped", "statement": "At every moment two peers never share a connection and no connection is both a peer's and still unannounced; a peer gets a connection only when it has none; LOGIN is the first thing sent on it; the messages handled on a connection are exactly the front of the bytes received on it, in order and once each; and when a connection ends every message that had arrived completely has been handled.", "quantifier": "all histories of rounds, arrivals split anywhere, connection attempts, losses and message handlers", "why_tests_cant": "arbitrary splitting of the incoming bytes and arbitrary interleaving of accepts, reconnects and losses", "anchors": ["sqlitecluster/SQLiteNode.cpp: SQLiteNode::postPoll, SQLiteNode::_processPeerMessages", "sqlitecluster/SQLitePeer.cpp: SQLitePeer::postPoll, SQLitePeer::setSocket, SQLitePeer::popMessage"]}
{"id": "C92", "title": "Silent peers are pinged and cut, lost peers are reconnected, strangers are dropped", "statement": "After each round an established peer connection has been heard of in the last 30 seconds, and was sent a PING in the last second if silent for 25; a connection is never cut for silence earlier, nor pinged more than once a second; a lost peer is tried again after a random delay of at most a second and, if that attempt fails, after a minute, and the node wakes up in time; a connection on the node port becomes a peer's only by a LOGIN with the peer's configured name as its first message, and is dropped when silent for five seconds.", "quantifier": "all histories and all timings of rounds", "why_tests_cant": "timers, losses and arrivals combine in unboundedly many ways", "anchors": ["sqlitecluster/SQLiteNode.cpp: SQLiteNode::postPoll, SQLiteNode::_acceptSocket", "sqlitecluster/SQLitePeer.cpp: SQLitePeer::postPoll, SQLitePeer::reset, SQLitePeer::sendMessage"]}
{"id": "C93", "title": "A client connection serves one request at a time, in order, and answers in order", "statement": "However the bytes of a client arrive, the requests run are its first complete ones, in order, once each, and only when the command before is gone; each answer belongs to the request taken last, there is at most one, and the bytes sent are the answers one after the other; a client that waits for each answer has every request run and answered and its connection stays open; a command is told to give up only while it exists, at most once, and exactly if the client is gone or the time for shutting down is over.", "quantifier": "all request contents, all splittings of the bytes, all interleavings of client, clock, command and shutdown", "why_tests_cant": "the client, the thread of the connection and the thread of the command interleave in unboundedly many ways and bytes may be split anywhere", "anchors": ["BedrockServer.cpp: handleSocket, buildCommandFromRequest, _reply", "libstuff/STCPManager.cpp: Socket::send, Socket::recv", "libstuff/SFastBuffer.cpp: startsWithHTTPRequest, consumeFront"]}
{"id": "C94", "title": "The Query command runs what was asked, in the look asked for, and refuses the rest unharmed", "statement": "A query that only reads never changes the database and never goes to the leader; a query one of whose statements writes is left to the leader with nothing of it run before; an empty, oversized or unterminated query, or one that cannot be prepared, is refused with nothing run. As JSON the answer has the rows of every statement in order. Display arguments are split at blanks outside quotes, whatever they contain, unknown ones are ignored and the last of a kind wins. The message for a syntax error shows the part of the query around the error with the caret under the character at fault, never reading outside the query, and `.schema name` asks for exactly that name, quotes included.", "quantifier": "all requests, all queries and byte strings, all positions of errors, all engines whose read-only statements do not write", "why_tests_cant": "queries and arguments are arbitrary text with arbitrary quoting, multi-byte characters and lengths around the 77-byte window", "anchors": ["plugins/DB.cpp: BedrockDBCommand::peek, process, parseSQLite3Args, generateErrorContextMessage, getCommand", "sqlitecluster/SQLite.cpp: getPreparedStatements", "libstuff/libstuff.cpp: SQuery"]}
{"id": "C95", "title": "Text editing functions do exactly what they say", "statement": "Replacing substitutes each occurrence from the left without overlaps and nothing else; collapsing turns each run of white space into one blank; stripping keeps exactly the bytes of a set, in order; cutting before, after or between occurrences returns the parts around the first one; a list of integers written as a list is read back; a state's name gives the first state of that name; base 32 conversions keep the number.", "quantifier": "all texts, patterns, replacements, byte sets, separators and 64-bit integers", "why_tests_cant": "occurrences can overlap, touch, begin or end a text, and texts are arbitrary bytes", "anchors": ["libstuff/libstuff.cpp: SReplace, SReplaceAll, SReplaceAllBut, SCollapse, SStrip, SBefore, SAfter, SAfterLastOf, SAfterUpTo, SEndsWith, SParseIntegerList, SParseIntegerSet, SStateNameToInt, SBase32HexStringFromBase32, SHexStringFromBase32"]}
{"id": "C96", "title": "Schema checks create once, accept what they created, and never write without need", "statement": "A missing table or index is created with the given text; one that is there is never written to, and is accepted exactly if its text is the given one up to white space (tables) or blanks and case (indexes). What was created is accepted from then on. A column is added only if its name is not in the text and is not added twice. The cache table is right after at most one rebuild.", "quantifier": "all names, texts, contents of the catalogue, and engines that store a table's text from its name on", "why_tests_cant": "table texts are written by developers with arbitrary layout and are compared over the whole life of a database", "anchors": ["sqlitecluster/SQLite.cpp: verifyTable, verifyIndex, addColumn", "plugins/Cache.cpp: upgradeDatabase"]}
{"id": "C97", "title": "The schema upgrade runs before anything writes, one at a time, until it succeeds; no command is lost by the sync loop", "statement": "A server that leads starts the schema upgrade only with a majority of its full peers subscribed, never two at a time, again after a failure, and not any more after a success; as a leader it is ready for other commands only after a success, and commands write only then. Commands queued for the blocking thread go back to the main queue when the node stops leading. At any moment every command is in exactly one place; the sync loop ends only when there is none, and nothing is thrown away with the queues.", "quantifier": "all interleavings of the sync thread, the main thread and the threads that run commands, all changes of the node's state, all outcomes of upgrades and commands, any number of commands, restarts by detach and attach", "why_tests_cant": "the flags and queues are shared by threads without a common lock, and what goes wrong depends on where one thread stops between two reads", "anchors": ["BedrockServer.cpp: sync, worker, postPoll, dbReadyToHandleRequests, runCommand", "BedrockCommand.cpp: ~BedrockCommand"]}
{"id": "C98", "title": "A follower applies the leader's transactions in order, each once, and none after it stops following", "statement": "While a node follows, the transactions it has applied are at every moment the first ones the leader sent it since it began to follow, in that order and each once. A transaction received while following is never forgotten: it is applied, in hand or queued, and if the node does nothing else its replication thread applies all of them without any further wake-up. A node that stops following waits for that thread, which is never asleep at that point and ends; if it gets through in ten seconds everything received was applied, and otherwise the rest is dropped. Afterwards nothing is applied until the node follows again, and then nothing of what the earlier leader had sent. Transactions received in any other state change nothing. Leaving never ends the process. A follower that may lead reports its progress with exactly one of any ten consecutive commits.", "quantifier": "all interleavings of the thread that receives messages and changes state with the replication thread, spurious wake-ups included; all numbers of transactions, clocks and times of following; any leader lost at any point", "why_tests_cant": "Lost wake-ups, a message taken just as the exit time is set, and a pointer cleared between two reads appear only in particular interleavings; a test runs a few of them.", "anchors": ["sqlitecluster/SQLiteNode.cpp: SQLiteNode::_replicate", "sqlitecluster/SQLiteNode.cpp: SQLiteNode::_onMESSAGE (TRANSACTION)", "sqlitecluster/SQLiteNode.cpp: SQLiteNode::_changeState", "sqlitecluster/SQLiteNode.cpp: SQLiteNode::_handlePrepareTransaction", "sqlitecluster/SQLiteNode.cpp: SQLiteNode::_onDisconnect"]}
{"id": "C99", "title": "The times in an answer are those of the node that answers, and add up", "statement": "Every answer carries under peekTime, processTime, prePeekTime, postProcessTime, totalTime and unaccountedTime the times of the node it came from, in decimal, zero ones left out; what a node upstream had set under these names, in any case, is found under the same name with upstream in front, and no other header changes, except that escalationTime is added to one that was escalated and did not have it. If the clock does not go back, each time is the sum of the stretches spent in that stage, and all of them with the time in queues, committing and escalated make up the life of the command without overflow. A request without requestID gets one of six letters or digits, a request with one keeps it, and nothing else in it changes.", "quantifier": "all answers from upstream (any headers in any case), all histories of queues, stages and escalations, all clock values; all requests and random values", "why_tests_cant": "The renaming works on a case-insensitive map with every combination of present and absent names, and the sums are of unbounded histories in wrapping arithmetic.", "anchors": ["BedrockCommand.cpp: BedrockCommand::finalizeTimingInfo", "BedrockCommand.cpp: BedrockCommand::startTiming, stopTiming", "BedrockCore.h: BedrockCore::AutoTimer", "sqlitecluster/SQLiteCommand.cpp: SQLiteCommand::preprocessRequest"]}
{"id": "C100", "title": "A statement on the MySQL port is run as it is, or has its own answer", "statement": "A statement that a MySQL client sends is passed on to the database word for word, one semicolon added if it has none, unless it is one of the questions about the server, its variables, tables, columns, keys and foreign keys; such a question never runs text of the client as SQL: what is asked of the database instead is one fixed statement in which the name of the table appears only inside one literal, whatever the name contains. The name is the one the client wrote. VERSION() and CONNECTION_ID() have one row under the alias asked for, and SHOW VARIABLES all variables. When the statement is done the client reads OK if there are no rows, the names and values of all rows otherwise, or the number and text of the error, numbered after the packet of the question.", "quantifier": "all statements as byte strings, in every case and spacing, all table names, all answers of the database, all sequence numbers", "why_tests_cant": "The choice hangs on substrings anywhere in the text, on case and on the order of sixteen tests; names may hold quotes and semicolons. Tests try a handful of the questions tools ask; that no name escapes its literal and no other statement is diverted is a claim about all texts.", "anchors": ["plugins/MySQL.cpp: MySQLUtils, onPortRecv, onPortRequestComplete, g_MySQLVariables", "libstuff/libstuff.h: SToStr", "libstuff/SData.cpp: calc"]}
{"id": "C101", "title": "Requests reach the plugin they are for, and commands have names of their own", "statement": "A node that starts has every plugin of its list enabled, and otherwise does not start. Two nodes with the same plugins in any order and case, once or more often in the list, have the same plugins and the same version. Whatever bundled plugins are enabled, a request goes unchanged to the one whose verb its method line begins with, in any case, and to no other; a request that is for none becomes a command without a plugin. A command keeps the name its request brings, as every escalated command does; of the names a node makes no two are equal, and none equals one made on a node with another name.", "quantifier": "all lists of plugins, all plugins from libraries, all requests, all node names, all sequences of requests in the order in which threads reach the counter", "why_tests_cant": "That no request is claimed twice is a claim about all method lines, including ones with NUL bytes, where two of the comparisons differ; names must differ for all node names, also ones that contain the separator; the list may have any order.", "anchors": ["main.cpp: loadPlugins", "BedrockServer.cpp: BedrockServer, getCommandFromPlugins, generateCommandID", "plugins/*.cpp: getCommand, getName, supportedRequestVerbs", "libstuff/SData.cpp: getVerb"]}
{"id": "C102", "title": "Secrets do not reach the log with the query that holds them", "statement": "When a slow or failed query is logged, no encrypted value (v, digits, colon, ten or more hexadecimal digits) is in the logged text, nor anything that opens an authToken; what is logged does not depend on the token, on the text of a chat (html) or on its edits. A query without any of these is logged as it is.", "quantifier": "all queries as byte strings, all positions and numbers of secrets, all secrets", "why_tests_cant": "Four replacements run one after the other, and each could create what an earlier one has removed, or remove the quote that a later one needs; greedy and lazy repetitions decide how far a replacement reaches. That two queries with different secrets have the same log is a claim about pairs of texts.", "anchors": ["libstuff/libstuff.cpp: SRedactSensitiveValues, SREReplace, SQuery, MAX_LOG_QUERY_SIZE"]}
{"id": "C103", "title": "A query ends when its time is up or its client is gone, and part of a result is never handed out", "statement": "A read or write that is answered was answered within the limit and with the client still connected, and the rows are all rows of all its statements, also when the answer comes from the cache; a query that was given up half way throws. As long as the limit has not passed and the client is there, no query is given up. Once the limit is seen passed, no further row is fetched and no further statement is begun, and every other read of the command throws until a new limit is set, even if the clock is set back. If the client is gone the error is 499, whether or not the limit has passed too. Commits fetched for a peer are complete or an error is reported.", "quantifier": "all sequences of calls on a handle, all queries of any number of statements and rows, all clocks (monotone or not), all moments at which the client goes away", "why_tests_cant": "Whether the limit passes before, between or after the rows, or between the last row and the check, is a matter of microseconds, and the cache could keep what an interrupted query had found; a test meets one of these moments.", "anchors": ["sqlitecluster/SQLite.cpp: setTimeout, clearTimeout, setAbortRef, clearAbortRef, _progressHandlerCallback, _checkInterruptErrors, read, _writeIdempotent, getCompressedCommits", "libstuff/libstuff.cpp: SQuery"]}
{"id": "C104", "title": "What is encrypted can be decrypted, and the keyed hash is HMAC", "statement": "With a vector of 16 and a key of 32 bytes, decrypting what was encrypted gives back the text (without NUL bytes), whatever its length; two such texts never encrypt alike; anything that is not a whole number of blocks decrypts to nothing, and no byte outside of the buffers is touched. The keyed hash of a message is the HMAC of RFC 2104, for every key and message.", "quantifier": "all texts, vectors, keys and messages, all block ciphers whose decryption undoes encryption, all hash functions", "why_tests_cant": "Padding and chaining depend on the length of the text and the key; the published test vectors cover a few lengths.", "anchors": ["libstuff/libstuff.cpp: SAESEncrypt, SAESDecrypt, SAESDecryptNoStrip, SHMACSHA1, SHMACSHA256"]}
{"id": "C105", "title": "Files are saved, loaded, copied and backed up whole, or the failure is reported", "statement": "What is saved with success is loaded again, byte for byte, and a save that fails leaves the old file or none. A copy reported done is the whole source, and neither the source nor any other file has changed; a copy that could not be made is reported as such. After a backup the copies of the database and of the files SQLite keeps beside it are what those files are, and the database itself is unchanged; a backup that cannot be made ends the process. A node started with -clean has no database nor any of the files beside it, and no other file is touched.", "quantifier": "all contents of any size, all paths, all file systems, all points at which opening, reading, writing or closing a file fails", "why_tests_cant": "Which block a read or write fails at is up to the disk, and a test runs on a disk that works and with a database in one place.", "anchors": ["libstuff/libstuff.cpp: SFileLoad, SFileSave, SFileCopy, SFileDelete", "main.cpp: BackupDB, main"]}
{"id": "C106", "title": "A value of a result is the same by name and by number, and after the result is copied", "statement": "In every row of a result of a query, the value under the name of a column is the value in the column's place, and each column can be read both ways. Results that are assigned or moved keep names and values. A number outside the row and a name no column has are reported, not answered with another value. A result given as text is the row's values in order, and what a cached statement returns is what a new one would.", "quantifier": "all results of any width and length, all names, all sequences of creating, copying, assigning and changing results, all values SQLite can return", "why_tests_cant": "Whether a name finds its column depends on which results were copied and which are still alive when a row is read; a test reads rows while their first result still exists.", "anchors": ["sqlitecluster/SQResult.h: SQResult, SQResultRow", "sqlitecluster/SQResult.cpp: SQResultRow::operator[], SQResult::operator=", "libstuff/libstuff.cpp: SQuery"]}
{"id": "C107", "title": "A job an operator has disabled is not handed out by any node that was told", "statement": "Only names that an operator gave, in a request that did not come through the public port, are ever disabled, on any node. A request reaches each other node once and causes no further messages. A disabled name stays disabled at a node until the node restarts or is told to enable all jobs again. A node that logs in is told every name that is disabled at the node it logs in to, whatever characters the names have. Jobs with a disabled name are never returned by GetJob or GetJobs, and the ones that would have been are failed.", "quantifier": "all numbers of nodes, all histories of requests, deliveries in any order, losses, logins and restarts, all names and patterns, all tables of jobs", "why_tests_cant": "What a node knows depends on the order in which requests, logins and restarts interleave with messages that may be late or lost.", "anchors": ["plugins/Jobs.cpp: onNodeLogin, peek, getCrashedBedrockJobPatterns", "sqlitecluster/SQLiteClusterMessenger.cpp: runOnAll", "BedrockServer.cpp: broadcastCommand"]}
{"id": "C108", "title": "A command that conflicted is retried under the lock of what it conflicted on", "statement": "With conflict page locks enabled, each attempt of a command waits for the lock of the page or row on which its last failed attempt conflicted, leaving out journals and the tables its plugin excludes, and for none before the first conflict. Which page or row that is comes from what that commit itself reported: the page's number and table, or the table and key of the row, whatever other threads report meanwhile and whatever conflicts there were before. Two conflicts on one row have the same lock.", "quantifier": "all page numbers, tables, keys and texts of messages, all interleavings of messages of other threads, all sequences of failed attempts, all choices of a plugin", "why_tests_cant": "Conflicts come from races of real transactions, and the text they are read from has names, keys and contents that a test would have to choose.", "anchors": ["sqlitecluster/SQLite.cpp: _sqliteLogCallback, commit, beginTransaction", "BedrockServer.cpp: runCommand", "libstuff/libstuff.cpp: SREReplace"]}
{"id": "C109", "title": "A database can be opened again, with any number of journals, and none of its commits is missed", "statement": "However often a database was opened before and with however many journals, and whatever a user does to the rest of the schema, a process that opens it uses exactly the journals that are in it: at least as many as it was told to use and none that an earlier process created is left out, so the number of commits it starts with is the highest in any of them, and the view of all entries has each of them once. Opening changes nothing else in the schema, and nothing at all unless more journals are asked for. An existing database keeps its format. A locked database is tried again for a quarter of an hour and the process still exits when told to.", "quantifier": "all sequences of opening with any numbers of journals and of changes to the schema by users, all contents of the journals, all results and times of trying to open", "why_tests_cant": "The journals that matter are those some earlier configuration created; a test starts from a new database with one configuration.", "anchors": ["sqlitecluster/SQLite.cpp: validateDBFormat, initializeDB, initializeJournal, initializeSharedData", "libstuff/libstuff.cpp: SQVerifyTable, SQVerifyTableExists"]}
{"id": "C110", "title": "A signal is noted once, one SIGTERM stops the server in good order, a second at once, and nothing else ends the process", "statement": "However signals arrive and threads are scheduled: a signal is pending exactly from its arrival until somebody takes it or all are cleared, and taking one leaves the others. A SIGTERM or SIGINT while the server polls makes it stop, and when it has stopped the process ends; a second one ends the process without waiting for the server. The process ends by itself only after a SIGTERM or SIGINT and aborts only after two, and a server that was asked to stop has stopped before. No signal is lost, and other signals do not leave the process hanging.", "quantifier": "all sequences of signals, all interleavings of the thread that receives them, the main thread and the end of the server's shutdown", "why_tests_cant": "What matters is a signal between two steps of the main loop, or between setting a bit and counting; a test sends a signal at a time it cannot choose that finely.", "anchors": ["libstuff/SSignal.cpp: SGetSignal, SCheckSignal, SClearSignals, _SSignal_signalHandlerThreadFunc", "main.cpp: main", "BedrockServer.cpp: postPoll"]}
{"id": "C111", "title": "A client that sends the highest commit number it was given reads its own writes, on any node", "statement": "Each answer has a commitCount, and a client puts the highest it was given into its next request. Then, whichever nodes its commands go to, whatever other clients write meanwhile and however far followers are behind: every command sees all that earlier commands of the client wrote, at the same place in the history, and writes after it; every command sees at least what earlier ones saw; and all of it is part of one history.", "quantifier": "all sequences of commands of a client at any nodes, all interleavings with other writers, replication, counting and elections", "why_tests_cant": "It depends on how far each of several nodes is when each of several commands begins; a test sees one such combination.", "anchors": ["BedrockServer.cpp: runCommand", "BedrockCore.cpp: peekCommand, _handleCommandException", "sqlitecluster/SQLite.cpp: commit, SharedData::incrementCommit"]}
{"id": "C112", "title": "While connections last, at most one node of a cluster leads", "statement": "Take any number of nodes and any history of them: connections made and lost, restarts, priorities changed, messages delivered late. From a moment at which no node leads or stands up, and for as long as no node loses a peer that is logged in to it or finds it to have another history, there is never more than one node that is leading or standing down, whatever messages are still under way, however long they take, whichever nodes connect meanwhile and whatever happens to databases and priorities.", "quantifier": "all numbers of nodes, all histories before, all interleavings of updates, messages, connections, commits and changes of priority", "why_tests_cant": "Two leaders come from a particular order of votes, state changes and timeouts on several machines; a cluster test sees the orders its network happens to produce.", "anchors": ["sqlitecluster/SQLiteNode.cpp: update, _onMESSAGE, _sendStandupResponse, _changeState, _onConnect, _onDisconnect, _sendToPeer, _sendToAllPeers"]}
{"id": "C113", "title": "A connected majority that is left alone elects its node of highest priority", "statement": "Take any number of nodes of which a majority are connected to each other and to no other node, run, have the same commits, are logged in to each other and wait for a leader; exactly one of them has the highest priority, above 1, and none is a permafollower. As long as no connection among them is lost, no timeout expires, nobody writes to them and none shuts down, then in whatever order they work and their messages arrive, and whatever the other nodes do among themselves: from some moment on that node leads and each of the others follows it. At no moment does another of them stand up or lead.", "quantifier": "all numbers of nodes, all majorities, all priorities, all infinite schedules in which every node of the majority goes on working and every message is delivered in the end", "why_tests_cant": "That an election ends is a statement about all infinite schedules; a test sees one schedule, and waits for a limited time.", "anchors": ["sqlitecluster/SQLiteNode.cpp: update, _onMESSAGE, _sendStandupResponse, _changeState, _majoritySubscribed", "sqlitecluster/SQLitePeer.cpp: sendMessage"]}
{"id": "C114", "title": "A leader that stands down has sent everything it committed", "statement": "Workers may go on committing while a leader stands down. When it has stood down, nothing more is committed on it, and every peer that was subscribed has been sent every commit it did not have, before the message that tells it that the leader is gone. This holds whatever the reason for which the leader stands down, a shutdown included.", "quantifier": "all interleavings of worker commits with the steps of standing down, all numbers of subscribers, all subscriptions and losses before", "why_tests_cant": "The window between the last broadcast and the moment commits are refused is a few instructions long.", "anchors": ["sqlitecluster/SQLiteNode.cpp: update (LEADING, STANDINGDOWN), _changeState, _sendOutstandingTransactions", "sqlitecluster/SQLitePeer.cpp: sendMessage, shutdownSocket", "libstuff/STCPManager.cpp: Socket::shutdown", "sqlitecluster/SQLite.cpp: SharedData::setCommitEnabled"]}
{"id": "C115", "title": "A leader has all commits", "statement": "While all nodes of a cluster stay connected with each other, a node that leads or tries to lead has every commit any node of the cluster had by then, and no other node leads or tries to lead.", "quantifier": "all cluster sizes, priorities, databases and histories up to a moment at which all nodes are connected and none leads; then all orders in which nodes act, messages are delivered, leaders commit, followers receive commits, nodes are shut down or given other priorities", "why_tests_cant": "A test sees the elections of a few timings; a commit is lost only if messages of one node are slow while others of the same election arrive, and the number of such interleavings has no bound.", "anchors": ["sqlitecluster/SQLiteNode.cpp: SQLiteNode::update", "sqlitecluster/SQLiteNode.cpp: _onMESSAGE", "sqlitecluster/SQLiteNode.cpp: _sendStandupResponse", "sqlitecluster/SQLiteNode.cpp: setPriority"]}
{"id": "C116", "title": "A command keeps its identity, origin and results on its way to the leader", "statement": "A request that is sent on from node to node is the same command on each of them: same id, request id, method line, content and headers. If its client is on another machine its `_source` is the address of that machine on every node, whatever the client wrote. The results of HTTPS requests that a command has are those that nodes of the cluster obtained for it, all of them and in order. No request ends the server, and one that is answered 202 is queued.", "quantifier": "all requests, headers, addresses, results and numbers of nodes on the way", "why_tests_cant": "all headers a client may write, all results, and ways of any length", "anchors": ["BedrockServer.cpp: buildCommandFromRequest, runCommand", "sqlitecluster/SQLiteClusterMessenger.cpp: _sendCommandOnSocket", "BedrockCommand.cpp: serializeHTTPSRequests, deserializeHTTPSRequests"]}
{"id": "C117", "title": "While writes are blocked nothing is written, and the locks of the database never end in a deadlock", "statement": "Once BlockWrites is answered with 200 Blocked, no statement that writes is under way, no transaction is being committed, and until UnblockWrites is sent nothing in the database changes, nor do its files; UnblockWrites lets everything go on. Commands of both kinds, replication, state changes of the node and the operator's commands never end up waiting for each other. The server can be stopped while writes are blocked.", "quantifier": "every number of threads, every sequence of transactions of both kinds (any number of statements, any end), state changes, local writes and BlockWrites per thread, every interleaving", "why_tests_cant": "a deadlock or a write that slips through needs a particular interleaving of three locks over many threads", "anchors": ["sqlitecluster/SQLite.cpp: exclusiveLockDB, exclusiveUnlockDB, beginTransaction, prepare, commit, rollback, _writeIdempotent, writeLocalUnreplicated", "sqlitecluster/SQLiteNode.cpp: _changeState, setShutdownPriority", "BedrockServer.cpp: _control (BlockWrites, UnblockWrites), _beginShutdown"]}
{"id": "C118", "title": "Waiting for another node ends in time, and asking all nodes gives an answer for each", "statement": "A command handed to another node is waited for no longer than one poll interval after its deadline, or after the last thing heard from that node; when its client is gone the wait ends within one interval whatever the node does, and it is not given up without a reason. A command sent to a node by name ends with that node's answer or 500. When a broadcast returns, however its threads were scheduled, every node was asked and the results are the nodes' answers, one for each.", "quantifier": "all deadlines, moments at which the client leaves, sequences of poll results and their durations, partial sends and receives, and interleavings of the threads of a broadcast over any number of nodes", "why_tests_cant": "Tests see a few timings and thread schedules; a node that trickles bytes, interrupted polls or two threads fetching their index at once are not reproduced.", "anchors": ["sqlitecluster/SQLiteClusterMessenger.cpp:SQLiteClusterMessenger::waitForReady", "sqlitecluster/SQLiteClusterMessenger.cpp:SQLiteClusterMessenger::runOnAll", "sqlitecluster/SQLiteClusterMessenger.cpp:SQLiteClusterMessenger::runOnPeer", "sqlitecluster/SQLiteClusterMessenger.cpp:SQLiteClusterMessenger::_sendCommandOnSocket"]}
{"id": "C119", "title": "What a load balancer and a monitor are told is true", "statement": "The health checks answer 200 only if the node was following, or was in a state in which it handles commands with no backup, detachment or version mismatch, while the answer was made; if its state does not change meanwhile they answer 200 exactly then and name the state. The answer to Status can be read back as JSON and says what the server saw: state, version, counters, queued commands, block reasons, peers, plugins and crashes, whatever clients have sent.", "quantifier": "all states and changes of state between the looks at it, all versions and settings, and all contents of queues, peers, plugins and crash lists", "why_tests_cant": "Tests ask a server in a steady state with ordinary commands in its queue; changes between two looks and texts that pass for JSON are not tried.", "anchors": ["BedrockServer.cpp:BedrockServer::_status", "BedrockServer.cpp:BedrockServer::_isStatusCommand", "BedrockServer.cpp:BedrockServer::getState", "BedrockBlockingCommandQueue.cpp:BedrockBlockingCommandQueue::getState", "sqlitecluster/SQLiteNode.cpp:SQLiteNode::stateName", "sqlitecluster/SQLiteNode.cpp:SQLiteNode::stateFromName"]}
{"id": "C120", "title": "Connections are taken in order and once, up to the limit, and the control port always", "statement": "Connections of a port are taken in the order in which clients connected, each once, and each gets a thread of its own. There are never more threads for connections than the configured limit, not counting those of the control port, whose connections are taken whatever the limit. The count of threads is exact, so a shutdown does not go on while a connection is served. Every client is taken in the end if connections keep ending.", "quantifier": "all limits, numbers of ports and connections, and all orders in which clients connect, threads end, ports open and close and the limit is changed between the iterations of the loop", "why_tests_cant": "Tests open a few connections; the interleavings of ending threads with the accepting loop, starvation and the limit being reached in the middle of a queue are not exercised.", "anchors": ["BedrockServer.cpp:BedrockServer::_acceptSockets", "BedrockServer.cpp:BedrockServer::handleSocket", "BedrockServer.cpp:BedrockServer::postPoll"]}
{"id": "C121", "title": "A worker is given the job that was created, and a lost answer puts it back", "statement": "Data that is a JSON object is accepted by CreateJob and CreateJobs and stored byte for byte (with a mark added if mocked), and nothing else is accepted. GetJob, GetJobs and QueryJob answer with an object that reads back as exactly the name, data, times, parent and children of the job. A worker that asks for several names is given jobs with exactly these names. If the answer of GetJob or GetJobs cannot be delivered, exactly the jobs in it are put back in the queue.", "quantifier": "all names, data of any size and depth, times, parents, numbers of jobs and of children, and all method lines and tables of jobs", "why_tests_cant": "texts, nesting and the numbers of jobs and children are unbounded, and whether an answer can be read depends on every byte that a client put into it", "anchors": ["plugins/Jobs.cpp: BedrockJobsCommand::peek, process, handleFailedReply", "libstuff/libstuff.cpp: SParseJSONObject, SComposeJSONObject, SToJSON, SParseList"]}
{"id": "C122", "title": "A compressed answer is the content", "statement": "When a message asks for a gzip body, the reader gets either a complete gzip stream that decompresses to exactly the content, together with the header that says so, or the content itself without that header; and decompressing what was compressed gives back the text.", "quantifier": "every content, every set of other headers, every behaviour of the compression library that keeps the promises of the gzip format, every outcome of its initialisation", "why_tests_cant": "Whether the stream fits into the output buffer depends on the size and the compressibility of the content; only incompressible content in one range of sizes is cut.", "anchors": ["libstuff/libstuff.cpp:SGZip", "libstuff/libstuff.cpp:SGUnzip", "libstuff/libstuff.cpp:SComposeHTTP", "libstuff/libstuff.cpp:SParseHTTP"]}
{"id": "C123", "title": "What follows a commit is done once, without the lock, and by one thread", "statement": "After each successful commit every plugin callback runs exactly once, in order, after the commit lock is released, whatever another callback throws; after a failed commit none runs. At most one thread checkpoints at a time, a thread leaves the checkpoint to another only while that one is at it, and no committed frame is forgotten.", "quantifier": "any number of threads, callbacks and commits, every interleaving, every outcome of each commit, every checkpoint however much it leaves behind", "why_tests_cant": "the threads interleave at every access to the shared counters, and frames are forgotten only in one order of them", "anchors": ["sqlitecluster/SQLite.cpp: SQLite::commit, SQLite::_walHookCallback, SQLite::runAfterCommitCallbacks", "BedrockServer.cpp: BedrockServer::sync"]}
{"id": "C124", "title": "Times written as texts sort, compare and read back as the times do", "statement": "The text of a time is the date and time of day in the Gregorian calendar, of fixed length and safe to quote. Texts compare byte by byte as the times do, with and without milliseconds and mixed, so that a job is due exactly when its time has come. Reading the text gives back the time, and what is no time is refused.", "quantifier": "all times in microseconds from 1970 on, all pairs of them, all offsets of local time", "why_tests_cant": "leap years, ends of months and the carry from one field to the next make an unbounded number of cases, and order ranges over pairs", "anchors": ["libstuff/STime.cpp: SComposeTime, STimestampToEpoch, STimeThisMorning, STIMESTAMP_MS, SToTimeval, SDaysInMonth", "libstuff/libstuff.cpp: SUNQUOTED_TIMESTAMP, STIMESTAMP, SCURRENT_TIMESTAMP", "plugins/Jobs.cpp: GetJob (nextRun)"]}
{"id": "C125", "title": "Every descriptor is owned and closed once", "statement": "Opening a port or a connection gives either a descriptor that is ready for what was asked or none at all, whichever call fails. In every history of opening, accepting, moving and destroying, every descriptor opened belongs to exactly one live object and is closed exactly once, by its destructor; when all objects are gone, the open descriptors are those from before.", "quantifier": "all hosts, all answers of kernel, resolver and TLS library to each call, all histories of any length", "why_tests_cant": "failures of single system calls are not produced by tests, and a lost descriptor shows only after thousands", "anchors": ["libstuff/libstuff.cpp: S_socket, S_close, S_accept", "libstuff/STCPManager.cpp: Socket, Port, openPort", "libstuff/SSSLState.cpp: SSSLState", "libstuff/SHTTPSProxySocket.cpp: SHTTPSProxySocket", "BedrockServer.cpp: _acceptSockets", "sqlitecluster/SQLiteNode.cpp: _acceptSocket"]}
{"id": "C126", "title": "The server wakes up for what it waits for, and in time", "statement": "Whatever set of connections is polled: each is watched for everything anybody asked of it; after the poll it shows exactly what holds of it and was asked for; a connection with bytes to send is told when it can be written to, and one without does not wake anybody. A poll that fails is as one in which nothing happened. The main loop, the sync loop and a command waiting for its requests never sleep longer than a second, nor past a time that somebody asked for, so that a lost peer is tried again in time.", "quantifier": "all registrations, all answers of poll, all readings of the clock and all sequences of turns", "why_tests_cant": "all sets of descriptors and all histories of a loop", "anchors": ["libstuff/libstuff.cpp: SFDset, SFDAnySet, S_poll", "main.cpp: main", "BedrockServer.cpp: sync", "BedrockCommand.cpp: _waitForHTTPSRequests", "sqlitecluster/SQLitePeer.cpp: postPoll"]}
{"id": "C127", "title": "Outgoing HTTPS requests are encrypted for the host of their URL, or fail with an answer", "statement": "A request to an https URL is never written to the network in the clear, whatever happens on the connection: at most a CONNECT for the host of the URL goes in the clear, to a proxy that is configured and allowed. The request goes out as given, without its Connection header when a proxy is used. A URL that cannot be used and a connection that cannot be opened give a completed request with response 503. Nothing is sent from the blocking-commit thread.", "quantifier": "all URLs, requests, proxies and sequences of network events", "why_tests_cant": "all URLs and all schedules of partial writes", "anchors": ["libstuff/SHTTPSManager.cpp: _httpsSend, _createErrorTransaction", "libstuff/SHTTPSProxySocket.cpp: SHTTPSProxySocket", "libstuff/STCPManager.cpp: Socket"]}
{"id": "C128", "title": "The cache forgets what was used longest ago, up to the size it is told", "statement": "After any sequence of uses, the name the cache forgets next is the one, of those used and not forgotten since, whose last use is the earliest; none is lost, none is kept twice, no memory is used after it was freed, and all of it is freed at the end. The size given on the command line as a number with KB, MB or GB, in upper or lower case, or without unit, is what may be stored; 0 or nothing stands for 16 GB.", "quantifier": "all sequences of uses and evictions; all numbers below 2^63 bytes", "why_tests_cant": "all sequences of calls; dangling pointers need not show in a test", "anchors": ["plugins/Cache.cpp: LRUMap::pushMRU, LRUMap::popLRU, LRUMap::~LRUMap, initCacheSize", "plugins/Cache.h: LRUMap"]}
{"id": "C129", "title": "When a thread dies, the others are told which command it was running, and only that one", "statement": "If a thread that runs a command dies of a fatal signal, the other nodes are told that command and from then on refuse it; a thread that runs no command, whatever it ran before, blames none. In either case the node cuts its connections to its peers and frees its port before it goes, and no connection comes back.", "quantifier": "all threads, all sequences of commands before the crash and all points at which it happens; all interleavings of the cut with what the node does beside it", "why_tests_cant": "every point of every thread is a possible crash point; dangling references need not show in a test", "anchors": ["libstuff/SSignal.cpp: _SSignal_StackTrace, SSetSignalHandlerDieFunc, SInitializeSignals", "BedrockServer.cpp: worker, runCommand, handleSocket, _generateCrashMessage", "sqlitecluster/SQLiteNode.cpp: kill, update, postPoll", "sqlitecluster/SQLitePeer.cpp: reset, setSocket, postPoll"]}
{"id": "C130", "title": "What a command writes at the last moment is part of its transaction, once", "statement": "A command may ask to be called once more when its transaction holds the commit lock. The call happens exactly when it asked and the lock was obtained, never for another command, never on a follower replaying the transaction. What it writes is committed together with the rest of the transaction, after it and once, or not at all; a mocked request writes nothing; an error in it fails the command only; the numbers handed to such calls identify a journal table.", "quantifier": "all handlers, all commands, all interleavings with other threads, all outcomes of the lock, the journal insert and the commit", "why_tests_cant": "depends on which other transactions are being prepared and committed; the handler must not stay installed on any path out of the commit", "anchors": ["libstuff/AutoScopeOnPrepare.cpp", "sqlitecluster/SQLite.cpp: prepare, setOnPrepareHandler, enablePrepareNotifications", "sqlitecluster/SQLiteCore.cpp: commit", "BedrockServer.cpp: runCommand", "BedrockCore.cpp: processCommand", "BedrockCommand.h: shouldEnableOnPrepareNotification"]}
{"id": "C131", "title": "A local, unreplicated write changes this node's data, whole or not at all, and does not disturb replication", "statement": "A write that is asked to stay on this node takes effect as a whole when the call returns true, and not at all when it returns false or the process dies before it returns; it is refused, without any effect, on a handle with a transaction open, and leaves the handle usable. It adds nothing to the journal, to the commit number, to the hashes or to what is sent to other nodes. The data of a node is what its committed transactions and its own local writes make of the initial data in the order in which they ended, and nodes with the same history agree on everything local writes do not touch.", "quantifier": "all texts, all interleavings of local writes and transactions on any number of handles, all crash points, all pairs of nodes", "why_tests_cant": "conflicts depend on which pages concurrent transactions looked at and on when each of them commits; agreement of nodes is about all histories", "anchors": ["sqlitecluster/SQLite.cpp: writeLocalUnreplicated, beginTransaction, _writeIdempotent, commit", "sqlitecluster/SQLite.h: writeLocalUnreplicated"]}
{"id": "C132", "title": "What the conflict report counts", "statement": "The ConflictReport command lists every method line for which a worker thread committed, once and in order, with the exact number of those commits, and beside each table the exact number of those commits whose transaction (its last attempt only) read or wrote the table; rollbacks, failed commits and given-up attempts do not count, the order in which concurrent commits are recorded does not matter, no table's number exceeds the total, and the text of the report determines all the numbers.", "quantifier": "every interleaving of any number of threads' transactions, accesses, rewrites, refusals, rollbacks, failed and successful commits; all names without line breaks (for the text)", "why_tests_cant": "The counts accumulate over arbitrary histories and thread interleavings; a test sees a few commands in one order.", "anchors": ["BedrockConflictManager.cpp: recordTables, generateReport", "sqlitecluster/SQLite.cpp: beginTransaction, _authorize, getTablesUsed", "BedrockServer.cpp: runCommand, _control"]}
{"id": "C133", "title": "A forwarded command gets its own answer", "statement": "When threads forward commands to other nodes over connections that are kept and shared, whatever a call takes as its answer is exactly what the node at that address answered to this call; no two threads use a connection at once, a kept connection leads to the host it is kept for and has no command outstanding, every complete answer is taken, and reading never fails with an exception.", "quantifier": "every interleaving of any number of calls to any addresses, sockets found stale, requests lost or only partly sent, calls given up at any point, answers split in any way, timeouts of kept connections; all well-formed answers", "why_tests_cant": "A wrong pairing needs a particular interleaving of a call given up, a kept connection and a split of the bytes; tests run a few calls with whole answers.", "anchors": ["libstuff/SMultiHostSocketPool.cpp: getSocket, returnSocket", "sqlitecluster/SQLiteClusterMessenger.cpp: _sendCommandOnSocket, _getSocketForAddress, runOnPeer", "libstuff/libstuff.cpp: SParseHTTP, SParseURI"]}
{"id": "C134", "title": "Method lines are taken apart as written", "statement": "The two functions that take a request line or a status line apart return the method and URI, or the protocol, the number and the reason without the blanks at its ends, that were written, whatever blanks stand between them and whatever the variables held before; they refuse lines with a part missing; and they never read outside of the line.", "quantifier": "every line; every placing of blanks; all previous contents of the variables", "why_tests_cant": "The functions step over separators without looking for the end; only particular shapes of a line make them leave it, and then the result depends on what is in memory there.", "anchors": ["libstuff/libstuff.cpp: SParseRequestMethodLine, SParseResponseMethodLine, _SParseHTTP_GetUpToNext, _SParseHTTP_GetUpToEnd"]}
{"id": "C135", "title": "Plugin timers fire once for each interval, and in time", "statement": "A plugin is told of its timer at once when the timer was made with a duration, then never twice within the duration and never more often than the duration goes into the time passed, whenever the plugin starts the timer anew; while the server turns every g microseconds the call comes at most g after the time is up; a timer without a duration never fires; in one turn exactly the plugins whose timers ring are told, once each.", "quantifier": "every sequence of questions and restarts at any clock readings; all durations; any number of plugins and timers", "why_tests_cant": "Tests wait for one or two firings at the pace of the machine; the bounds are about all sequences of clock readings, including those of a clock that is set back.", "anchors": ["libstuff/libstuff.cpp: SStopwatch", "BedrockServer.cpp: BedrockServer::postPoll", "BedrockPlugin.h: timers, timerFired"]}
{"id": "C136", "title": "Values of a result compare as values, and with texts by their text", "statement": "Two values of a result are equal exactly if they are of one kind and the same, where real numbers are the same when they differ by at most 1e-12 plus a billionth of the greater; the order of the two does not matter and every value equals itself. Compared with a text, a value is equal exactly if it would be written as that text, null being the empty text. A value is empty exactly if its text is.", "quantifier": "all values of all kinds, all texts, all formats of real numbers that write something", "why_tests_cant": "Tests compare a few values; reflexivity, symmetry and transitivity are about all pairs and triples, and it is the rare values, infinities and numbers of many digits, that break them.", "anchors": ["libstuff/SQValue.cpp: operator==, operator!=, operator+, SQValue::empty, SQValue::size"]}
{"id": "C137", "title": "The performance lines account for all measured time, once", "statement": "For every kind of time, what the performance lines tell and what is still to be told add up to what was measured; the kinds of one line together have no more time than the period of the line; the periods follow each other without a gap and each is longer than ten seconds; a line comes with the first measurement that ends more than ten seconds after the line before; the caller gets the microseconds of its own measurement.", "quantifier": "every sequence of measurements at any clock readings, any number of kinds", "why_tests_cant": "Tests would have to run for the periods of the lines and can only look at a few; that nothing is lost or counted twice at the end of a period is about every sequence of measurements.", "anchors": ["libstuff/SPerformanceTimer.cpp: SPerformanceTimer::start, SPerformanceTimer::stop, SPerformanceTimer::log", "libstuff/AutoTimer.cpp: AutoTimer::stop", "sqlitecluster/SQLite.cpp: _commitLockTimer"]}
{"id": "C138", "title": "Random texts have the length asked for and draw on the whole alphabet", "statement": "A random text is made in as many steps as it has letters, without an exception, whatever the generator returns; it has exactly the length asked for and consists of letters and digits only, each picked by its own random value; every text of letters and digits can come out.", "quantifier": "all sequences of values of the generator, all lengths, all texts", "why_tests_cant": "A test sees a few random texts; that a letter can never occur, or that an index never leaves the alphabet, is about all values of the generator.", "anchors": ["libstuff/SRandom.cpp: SRandom::randStr"]}
{"id": "C139", "title": "A worker gets the jobs its request asks for, and no more than that many", "statement": "A request for jobs is accepted exactly if it has a name of 1 to 12750 bytes, a number of results if and only if it is GetJobs, and no priority or one of the six; otherwise the answer names what is wrong and nothing changes. GetJob hands out at most one job, GetJobs at most the number asked for and one if that is not positive. Each job handed out is due, not blacklisted, has a name and, if one was given, the priority asked for, and is mocked only if mocked jobs were asked for. A worker is told that there is no job only if none it asked for is due, and a job it asked for that is left behind comes after all that were handed out.", "quantifier": "all requests with any headers, all tables of jobs, all blacklists and times", "why_tests_cant": "Tests send a few well-formed requests; the claim is about every header text, including numbers beyond the range of an int, and every table.", "anchors": ["plugins/Jobs.cpp: BedrockJobsCommand::peek, BedrockJobsCommand::process (GetJob, GetJobs)", "libstuff/SData.cpp: SData::calc"]}
{"id": "C140", "title": "What a node tells of a peer is what it knows of it, whatever the peer list says", "statement": "For every peer, Status tells the name, host, number, state, connection, latency, priority, version, commit count, hash, vote, subscription and command address that the node knows, even if the peer list has parameters of the same names in any letter case. Every other parameter of the peer list is shown as it was given, and nothing else is told. The state, the connection and the vote can be read back from the text. A command for all peers goes to each peer once, by its own name.", "quantifier": "all peers in all states, with any parameters in the peer list", "why_tests_cant": "Test clusters use peer lists with one or two harmless parameters; the claim is about every set of parameters, including those whose names collide with the standard entries in another letter case.", "anchors": ["sqlitecluster/SQLitePeer.cpp: SQLitePeer::getData, SQLitePeer::responseName", "sqlitecluster/SQLiteNode.cpp: SQLiteNode::getPeerInfo", "BedrockServer.cpp: BedrockServer::getPeerInfo", "sqlitecluster/SQLiteClusterMessenger.cpp: SQLiteClusterMessenger::runOnAll"]}
{"id": "C141", "title": "Loading a database into memory reads every page of it once, and the report counts the pages in memory", "statement": "With -setDBMemoryMapping every page of the file that is not in memory is read, once, and no byte outside the file. The numbers printed are the least number of pages that holds the file and the number of these in memory. This does not depend on the number of threads or on the order in which they run. With -checkDBMemoryMapping nothing is read. An error is told exactly if the file cannot be opened, measured or mapped, or is empty, and the descriptor is closed then.", "quantifier": "all sizes of files and pages, all sets of pages in memory, all numbers of threads and all orders in which they end", "why_tests_cant": "The result depends on which pages the system holds, the number of processors and the schedule; a test sees one machine and one file.", "anchors": ["VMTouch.cpp: VMTouch::check, VMTouch::bytes2pages", "main.cpp: main (-checkDBMemoryMapping, -setDBMemoryMapping)"]}
{"id": "C142", "title": "A command is sent on only to the leader or to a follower that has the leader's version", "statement": "A node that sends a command on to a follower picks a peer that follows and has the version of the leader; if there is one it is found, and each of them may be picked; if there is none, or the version of the leader is not known, the command is not sent to a follower. A command for the leader is sent to the peer this node takes for the leader, and only while that peer says that it leads. The sender gives up at once exactly if there is no such address and the node itself leads or is about to. Nothing known of the peers makes the choice crash.", "quantifier": "all peer lists, all states and versions of the node and its peers, all random numbers", "why_tests_cant": "The choice is random and depends on what is known of every peer at that moment; tests run few nodes, almost always of one version.", "anchors": ["sqlitecluster/SQLiteNode.cpp: SQLiteNode::getLeaderVersion, SQLiteNode::getEligibleFollowerForForwardingAddress, SQLiteNode::leaderCommandAddress", "sqlitecluster/SQLiteClusterMessenger.cpp: SQLiteClusterMessenger::runOnPeer"]}
{"id": "C143", "title": "No worker sleeps while a command waits that could be run", "statement": "However many workers wait and in whatever order they are notified, time out or wake for no reason: while a worker sleeps, at least as many workers are awake and about to look at the queue as there are commands in it, so if none is about to look nothing waits. A worker that looks while a command is due gets one. Every command is handed to exactly one worker, or is still in the queue. A worker leaves without a command only after the time it wanted to wait, and only if none is due then.", "quantifier": "all numbers of workers, all histories of pushes, waits, notifications, time-outs and spurious wake-ups, all schedules", "why_tests_cant": "A lost wake-up needs one particular interleaving of workers and pushes; tests see few of them, and the wait of 100 ms hides it.", "anchors": ["BedrockCommandQueue.cpp: BedrockCommandQueue::get, BedrockCommandQueue::push, BedrockCommandQueue::_dequeue", "BedrockServer.cpp: BedrockServer::worker"]}
{"id": "C144", "title": "What was compressed before a restart is read back after it", "statement": "After a start each ID in the table of dictionaries finds the dictionary of its row, and no other ID finds any. What was compressed before a restart is read back after it if the rows there were are still there, whatever rows were added. A row that cannot be used does not keep the node from starting, and a node does not run without the dictionaries its data needs.", "quantifier": "all tables of dictionaries, all texts, all sets of rows added between two starts", "why_tests_cant": "Tests load one or two good dictionaries into a fresh process; the claim is about every table and every later start.", "anchors": ["plugins/Compression.cpp: BedrockPlugin_Compression::loadDictionariesFromDB, getCompressionDictionary, getDecompressionDictionary", "BedrockServer.cpp: BedrockServer::sync (initializeFromDB)"]}
{"id": "C145", "title": "A field of a message is what was written to it last, in whatever case its name is", "statement": "Whatever sequence of writes, reads, erasures, merges and clearings is done to a message, it holds for each name, without regard to case, at most one value: the one written last. Merging adds only what is not there. Reading a field changes no value. 64-bit numbers and bools are read as they were set; as an int a number is itself or the greatest int.", "quantifier": "for all sequences of operations on a message, all names and values, all 64-bit numbers", "why_tests_cant": "Tests set and read single fields; the claim is about every sequence of operations and every number, including those out of the range of int.", "anchors": ["libstuff/SData.cpp: SData::operator[], set, erase, clear, merge, isSet, calc, calc64, calcU64, test", "libstuff/SData.h: SData::set, SData::emplace", "libstuff/libstuff.cpp: STableComp"]}
{"id": "C146", "title": "A node that stops has answered the peers that asked it for help, and the answers have arrived", "statement": "When a node that was told to stop has stopped, every request of a peer to help it synchronise has been answered and the answer has arrived at the peer, or the connection ended after the request. Requests that come later are refused at once. When the threads have answered and nothing is left to send, the next check ends the node.", "quantifier": "for all numbers of peers, all requests, all interleavings of the check with the answering threads and the sockets", "why_tests_cant": "The check reads a counter and then one buffer after the other while threads go on; only some interleavings could lose an answer, and a test sees one of them.", "anchors": ["sqlitecluster/SQLiteNode.cpp: SQLiteNode::beginShutdown, _isNothingBlockingShutdown, shutdownComplete, _onMESSAGE", "sqlitecluster/SQLitePeer.cpp: SQLitePeer::remainingDataToSend, sendMessage", "BedrockServer.cpp: BedrockServer::sync"]}
{"id": "C147", "title": "A search for all matches of a pattern finds each, in order, and ends", "statement": "For a pattern that does not match the empty text, the search for all matches ends. It returns words of the pattern, each as it is in the input, in order and without overlap. No match is missed: wherever a word of the pattern begins in the input, it begins in one of those returned.", "quantifier": "for all patterns whose words do not depend on what is around them and are not empty, and all inputs", "why_tests_cant": "Tests search a few texts for one pattern; termination and completeness are claims about every pattern and text.", "anchors": ["libstuff/libstuff.cpp: SREMatch, SREMatchAll"]}
{"id": "C148", "title": "The query log has one readable record for each query", "statement": "From when a query log is opened until it is closed, its file reads as one record for each query that was run, in order, each with the name of the database file, the text of the query apart from white space around it, and the time it took. Quotes, commas and newlines in a query do not disturb the reading, what was in the file before is gone, a second request to open a log changes nothing, no other file is touched, and after closing the file stays as it is.", "quantifier": "for all histories of opening, closing and queries, and all query texts and database names", "why_tests_cant": "Tests write a few rows; that no text of a query can disturb the rows after it is a claim about every text and every sequence.", "anchors": ["libstuff/libstuff.cpp: SQueryLogOpen, SQueryLogClose, SQuery, SEscape, STrim"]}
{"id": "C149", "title": "The times logged for a transaction are its own, and nothing is counted twice", "statement": "When a transaction ends, one report of its times is logged. The times of its reads, writes, journal entry, beginning and end are those of this transaction, whatever the handle was used for before it. They add up to no more than the sum that is logged, and for a commit that is no more than the time from the beginning of the transaction to its end.", "quantifier": "for all histories of a handle, all durations, and all sequences of reads, writes and failed commits in a transaction", "why_tests_cant": "Tests cannot check times; that the parts of every transaction are disjoint and reset is a claim about all sequences of calls.", "anchors": ["sqlitecluster/SQLite.cpp: beginTransaction, read, _writeIdempotent, prepare, commit, rollback, logLastTransactionTiming"]}
