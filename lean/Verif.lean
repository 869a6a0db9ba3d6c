import Verif.Model.Basic
import Verif.Model.DB
import Verif.Spec.DB
import Verif.Lemmas.DB
import Verif.Lemmas.DBLock
import Verif.Props.DB
import Verif.Model.Sync
import Verif.Lemmas.Sync
import Verif.Lemmas.SyncReply
import Verif.Props.Sync
import Verif.Lemmas.Cluster
import Verif.Props.Cluster
import Verif.Lemmas.NodeFields
import Verif.Props.NodePriority
import Verif.Props.Text
import Verif.Props.Http
import Verif.Props.Buffer
import Verif.Props.Ring
import Verif.Props.SyncQueue
import Verif.Props.CmdQueue
import Verif.Props.RateLimit
import Verif.Props.ConflictLock
import Verif.Props.Pool
import Verif.Props.CoreCommit
import Verif.Props.Command
import Verif.Props.Deadline
import Verif.Props.Forward
import Verif.Props.RunCommand
import Verif.Props.JobsHandout
import Verif.Props.JobsRetry
import Verif.Props.JobsTree
import Verif.Props.JobsStates
import Verif.Props.JobsSchedule
import Verif.Props.Cache
import Verif.Props.HandleCache
import Verif.Props.HandleNoop
import Verif.Props.HandleReplay
import Verif.Props.HandleWhitelist
import Verif.Props.Json
import Verif.Props.Param
import Verif.Props.MySQL
import Verif.Props.Compression
import Verif.Props.Attr
import Verif.Props.Lookup
import Verif.Props.Https
import Verif.Props.Waiting
import Verif.Props.Crash
import Verif.Props.Ports
import Verif.Props.Control
import Verif.Props.Reply
import Verif.Props.Lifecycle
import Verif.Props.StageTime
import Verif.Props.JobsMock
import Verif.Props.RepeatText
import Verif.Props.HttpBody
import Verif.Props.Deburr
import Verif.Props.ResultText
import Verif.Props.ResultWidth
import Verif.Props.ResultColumn
import Verif.Props.ResultJson
import Verif.Props.Log
import Verif.Props.SocketPool
import Verif.Props.Address
import Verif.Model.Sockets
import Verif.Props.Sockets
import Verif.Props.SocketsIn
import Verif.Model.Peers
import Verif.Lemmas.Stream
import Verif.Props.Peers
import Verif.Props.PeersTime
import Verif.Props.PeersPing
import Verif.Props.PeersHeard
import Verif.Model.Conn
import Verif.Props.Conn
import Verif.Props.ConnServe
import Verif.Model.Query
import Verif.Props.Query
import Verif.Props.QueryRun
import Verif.Model.Edit
import Verif.Model.Schema
import Verif.Props.Edit
import Verif.Props.Schema
import Verif.Model.SyncLoop
import Verif.Props.SyncLoop
import Verif.Props.SyncLoopRun
import Verif.Model.ReplQueue
import Verif.Props.ReplQueue
import Verif.Props.ReplQueueRun
import Verif.Model.Timing
import Verif.Props.Timing
import Verif.Model.Literal
import Verif.Model.MySQLVars
import Verif.Model.MySQLQuery
import Verif.Spec.MySQLQuery
import Verif.Props.MySQLQuery
import Verif.Props.MySQLAnswer
import Verif.Model.Plugins
import Verif.Props.Plugins
import Verif.Model.Redact
import Verif.Props.Redact
import Verif.Model.Interrupt
import Verif.Props.Interrupt
import Verif.Model.Crypto
import Verif.Props.Crypto
import Verif.Model.Files
import Verif.Props.Files
import Verif.Model.Rows
import Verif.Props.Rows
import Verif.Model.Blacklist
import Verif.Props.Blacklist
import Verif.Model.Conflict
import Verif.Props.Conflict
import Verif.Model.OpenDB
import Verif.Props.OpenDB
import Verif.Model.Signal
import Verif.Props.Signal
import Verif.Model.Session
import Verif.Props.Session
import Verif.Model.Net
import Verif.Spec.NetSafe
import Verif.Lemmas.NodeSaid
import Verif.Lemmas.NetNode
import Verif.Lemmas.Net
import Verif.Lemmas.NetVote
import Verif.Lemmas.NetElect
import Verif.Props.NetSafe
import Verif.Spec.NetLive
import Verif.Lemmas.NetLiveNode
import Verif.Lemmas.NetLivePair
import Verif.Lemmas.NetLive
import Verif.Lemmas.NetLiveStep
import Verif.Lemmas.NetLiveMsg
import Verif.Props.NetLive
import Verif.Model.StandDown
import Verif.Props.StandDown
import Verif.Spec.NetComplete
import Verif.Lemmas.NodeHeard
import Verif.Lemmas.NetComplete
import Verif.Props.NetComplete
import Verif.Model.Origin
import Verif.Lemmas.Origin
import Verif.Props.Origin
import Verif.Model.Locks
import Verif.Props.Locks
import Verif.Model.PeerWait
import Verif.Props.PeerWait
import Verif.Model.Status
import Verif.Props.Status
import Verif.Model.Accept
import Verif.Props.Accept
import Verif.Model.JobText
import Verif.Props.JobText
import Verif.Model.Gzip
import Verif.Spec.Gzip
import Verif.Lemmas.Gzip
import Verif.Props.Gzip
import Verif.Model.SqlList
import Verif.Props.SqlList
import Verif.Model.AfterCommit
import Verif.Props.AfterCommit
import Verif.Model.Stamp
import Verif.Lemmas.Stamp
import Verif.Props.Stamp
import Verif.Model.Descriptors
import Verif.Props.Descriptors
import Verif.Model.Poll
import Verif.Props.Poll
import Verif.Model.Outgoing
import Verif.Props.Outgoing
import Verif.Model.Lru
import Verif.Props.Lru
import Verif.Model.Dying
import Verif.Props.Dying
import Verif.Model.OnPrepare
import Verif.Lemmas.OnPrepare
import Verif.Props.OnPrepare
import Verif.Model.LocalWrite
import Verif.Spec.LocalWrite
import Verif.Lemmas.LocalWrite
import Verif.Props.LocalWrite
import Verif.Model.ConflictReport
import Verif.Spec.ConflictReport
import Verif.Lemmas.ConflictReport
import Verif.Props.ConflictReport
import Verif.Model.PeerPool
import Verif.Spec.PeerPool
import Verif.Lemmas.PeerPool
import Verif.Props.PeerPool
import Verif.Model.MethodLine
import Verif.Spec.MethodLine
import Verif.Lemmas.MethodLine
import Verif.Props.MethodLine
import Verif.Model.Stopwatch
import Verif.Props.Stopwatch
import Verif.Model.ValueEq
import Verif.Props.ValueEq
import Verif.Model.PerfTimer
import Verif.Props.PerfTimer
import Verif.Model.RandStr
import Verif.Props.RandStr
import Verif.Model.GetRequest
import Verif.Props.GetRequest
import Verif.Model.PeerInfo
import Verif.Props.PeerInfo
import Verif.Model.VMTouch
import Verif.Props.VMTouch
import Verif.Model.Dest
import Verif.Props.Dest
import Verif.Model.QueueWait
import Verif.Props.QueueWait
import Verif.Model.DictLoad
import Verif.Props.DictLoad
import Verif.Model.Fields
import Verif.Props.Fields
import Verif.Model.Drain
import Verif.Props.Drain
import Verif.Model.MatchAll
import Verif.Props.MatchAll
import Verif.Model.QueryLog
import Verif.Spec.QueryLog
import Verif.Props.QueryLog
import Verif.Model.TxTimes
import Verif.Props.TxTimes
