import Verif.Base
import Verif.Model.Bencode
import Verif.Spec.Bencode
import Verif.Lemmas.Num
import Verif.Lemmas.Bencode
import Verif.Lemmas.BencodeDec
import Verif.Lemmas.BencodeEnc
import Verif.Lemmas.BencodeStr
import Verif.Props.Bencode
import Verif.Lts
import Verif.Model.Fold
import Verif.Model.Types
import Verif.Model.Node
import Verif.Props.Types
import Verif.Props.Node
import Verif.Model.RouteTable
import Verif.Spec.RouteTable
import Verif.Lemmas.Prefix
import Verif.Lemmas.RouteTable
import Verif.Props.RouteTable
import Verif.Model.BucketConc
import Verif.Props.BucketConc
import Verif.Model.Middleware
import Verif.Props.Middleware
import Verif.Model.Krpc
import Verif.Model.Dht
import Verif.Spec.Krpc
import Verif.Lemmas.Krpc
import Verif.Props.Krpc
import Verif.Props.KrpcSafe
import Verif.Props.KrpcHistory
import Verif.Props.KrpcExamples
import Verif.Model.BytesPool
import Verif.Props.BytesPool
import Verif.Model.Udp
import Verif.Props.Udp
import Verif.Props.UdpBuffers
import Verif.Model.PeerMsg
import Verif.Model.Peerwire
import Verif.Lemmas.Peerwire
import Verif.Props.PeerMsg
import Verif.Props.Peerwire
import Verif.Props.PeerwireBuf
import Verif.Props.PeerwireReq
import Verif.Props.PeerwireDone
import Verif.Props.PeerwireEx
import Verif.Props.PeerwireHonest
import Verif.Props.PeerwireHonest2
import Verif.Props.PeerwireFrame
import Verif.Props.PeerwireNV
import Verif.Model.Fetch
import Verif.Props.Fetch
import Verif.Props.FetchAddr
import Verif.Props.Mapped
import Verif.Model.WorkPool
import Verif.Props.WorkPool
import Verif.Model.Shutdown
import Verif.Props.Shutdown
import Verif.Spec.SyncMap
import Verif.Model.SyncMap
import Verif.Props.SyncMap
import Verif.Model.Config
import Verif.Props.Config
import Verif.Model.Logger
import Verif.Props.Logger
import Verif.Model.Torrent
import Verif.Props.Torrent
import Verif.Props.BencodeFail
import Verif.Model.ShutdownReg
import Verif.Props.ShutdownReg
import Verif.Model.LoggerConc
import Verif.Props.LoggerConc
import Verif.Model.Pipeline
import Verif.Props.Pipeline
import Verif.Props.PipelineStall
import Verif.Props.PipelineDht
import Verif.Model.Startup
import Verif.Props.Startup
import Verif.Props.StartupSend
import Verif.Props.BucketLive
import Verif.Props.RouteTableFull
import Verif.Props.ErrorReply
import Verif.Props.Register
import Verif.Model.LogText
import Verif.Props.LogText
import Verif.Model.Zap
import Verif.Props.Zap
import Verif.Props.HashLog
import Verif.Spec.Download
import Verif.Props.PeerwireMsgs
import Verif.Props.PeerwirePieces
import Verif.Props.PeerwirePiecesNV
import Verif.Spec.Pieces
import Verif.Props.PeerwireTime
import Verif.Props.PeerwireMsgsNV
import Verif.Props.Messages
import Verif.Model.RouteTableConc
import Verif.Lemmas.RouteTableConc
import Verif.Props.RouteTableConc
import Verif.Spec.Client
import Verif.Spec.Timing
import Verif.Props.PeerwireTalk
import Verif.Props.PeerwireClock
import Verif.Props.PeerwireClockNV
import Verif.Props.Capture
import Verif.Spec.Identity
import Verif.Props.Identity
import Verif.Lemmas.Size
import Verif.Lemmas.Answered
import Verif.Props.Amplify
import Verif.Props.Replay
import Verif.Props.Server
import Verif.Model.Sha1
import Verif.Model.Local
import Verif.Props.Sha1
import Verif.Props.Crawl
import Verif.Props.Origin
import Verif.Props.PipelineNV
import Verif.Props.Program
import Verif.RepoTests
import Verif.Props.Utf8
import Verif.Props.BucketSeq
import Verif.Fair
import Verif.Props.WorkPoolLive
import Verif.Props.PipelineLive
import Verif.Props.ProgramLive
import Verif.Spec.Part
import Verif.Props.Cut
import Verif.Props.CutPacket
import Verif.Props.CutExamples
import Verif.Model.Console
import Verif.Lemmas.Console
import Verif.Props.Console
import Verif.Props.ConsoleTexts
import Verif.Model.Cost
import Verif.Props.Cost
import Verif.Model.Whole
import Verif.Props.Whole
import Verif.Props.Restart
import Verif.Props.TorrentDir
import Verif.Props.Network
import Verif.Locks
import Verif.Props.LockLive
import Verif.Props.LockStarve
import Verif.Model.DownloadLog
import Verif.Lemmas.DownloadLog
import Verif.Props.DownloadLog
import Verif.Props.DownloadVerdict
import Verif.Props.DownloadCount
import Verif.Props.DownloadFile
import Verif.Props.DownloadLines
import Verif.Props.CallEnds
import Verif.Props.Fatal
import Verif.Props.DownloadMsgs
import Verif.Props.Texts2
import Verif.Props.RouteTableLog
import Verif.Model.RouteTableLocks
import Verif.Lemmas.RouteTableLocks
import Verif.Props.RouteTableLocks
import Verif.Model.ProgramLog
import Verif.Spec.Life
import Verif.Lemmas.ProgramLog
import Verif.Lemmas.ProgramLog2
import Verif.Props.ProgramLog
import Verif.Props.ProgramLog2
import Verif.Props.ProgramLog3
import Verif.Lemmas.Causal
import Verif.Model.System
import Verif.Lemmas.SystemRefine
import Verif.Lemmas.SystemHistory
import Verif.Lemmas.SystemProgress
import Verif.Lemmas.SystemLift
import Verif.Lemmas.SystemBounds
import Verif.Lemmas.SystemSettle
import Verif.Props.System
import Verif.Lemmas.SystemRun
import Verif.Lemmas.SystemFair
import Verif.Props.SystemLive
import Verif.Props.BencodeTotal
import Verif.Spec.Lives
import Verif.Props.SystemLives
import Verif.Spec.Sha1
import Verif.Props.Sha1Fips
import Verif.Model.Depth
import Verif.Props.Depth
import Verif.Model.Machine
import Verif.Props.Machine
import Verif.Model.Memory
import Verif.Props.Memory
import Verif.Model.ConfigConc
import Verif.Props.ConfigConc
import Verif.Props.PoolSize
import Verif.Props.PeerwireAmong
import Verif.Props.PeerwireAmong2
import Verif.Props.PeerwireAmong3
import Verif.Props.PeerwireAmongNV
import Verif.Props.PeerwireAmong4
import Verif.Props.PeerwireAmong4NV
import Verif.Model.Interleave
import Verif.Lemmas.Interleave
import Verif.Props.Interleave
import Verif.Props.InterleaveUse
import Verif.Props.InterleaveEnd
import Verif.Props.InterleaveNV
import Verif.Props.InterleaveMoment
import Verif.Props.InterleaveMemory
import Verif.Props.InterleaveMemoryNV
import Verif.Model.SystemNet
import Verif.Lemmas.SystemNet
import Verif.Lemmas.SystemNetInv
import Verif.Props.SystemNet
import Verif.Props.SystemNetEnd
import Verif.Lemmas.SystemNetSettle
import Verif.Props.SystemNetNV
import Verif.Props.SystemNetEx
import Verif.Lemmas.SystemNetFair
import Verif.Props.SystemNetLive
import Verif.Props.OnePiece
import Verif.Props.SystemNetSpared
import Verif.Props.SystemNetSparedNV
import Verif.Props.SystemNetAlone
import Verif.Props.SystemNetAloneNV
import Verif.Props.DeadStops
import Verif.Props.MemoryAppend
