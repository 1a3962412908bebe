import Verif.Props.Wire
import Verif.Props.Compact
import Verif.Props.InfoHash
import Verif.Props.Bencode
import Verif.Props.PeerMsg
import Verif.Props.PeerExt
import Verif.Props.PeerBen
import Verif.Props.Torrent
import Verif.Props.Template
import Verif.Props.Framing
import Verif.Props.Session
import Verif.Props.Connect
import Verif.Props.UdpCodec
import Verif.Props.UdpSession
import Verif.Spec.UdpErrors
import Verif.Props.UdpErrors
import Verif.Props.TrackerUrl
import Verif.Props.HttpQuery
import Verif.Props.HttpResponse
import Verif.Props.TrackerSession
import Verif.Props.Magnet
import Verif.Props.Unique
import Verif.Props.Nursery
import Verif.Props.Shutdown
import Verif.Props.Resolve
import Verif.Props.Commands
import Verif.Props.Display
import Verif.Props.Config
import Verif.Props.Utf8
import Verif.Props.Json
import Verif.Props.DhtMsg
import Verif.Props.DhtDistance
import Verif.Props.DhtNodes
import Verif.Props.DhtLookup
import Verif.Props.Mse
import Verif.Props.IpText
import Verif.Props.Concrete
import Verif.Props.Download
import Verif.Props.Settings
import Verif.Props.App
import Verif.Props.Disk
import Verif.Spec.SecureLink
import Verif.Model.SecureLink
import Verif.Props.SecureLink
import Verif.Spec.TrackerFlow
import Verif.Model.TrackerFlow
import Verif.Props.TrackerFlow
import Verif.Spec.Query
import Verif.Model.Query
import Verif.Props.Query
import Verif.Spec.Crash
import Verif.Props.Crash
import Verif.Spec.Get
import Verif.Model.Get
import Verif.Props.Get
import Verif.Spec.UrlText
import Verif.Model.UrlParse
import Verif.Lemmas.UrlParse
import Verif.Lemmas.UrlIpv6
import Verif.Props.UrlText
import Verif.Spec.LogText
import Verif.Model.LogText
import Verif.Props.LogText
import Verif.Spec.LogFaithful
import Verif.Props.LogFaithful
import Verif.Props.LogRead
import Verif.Spec.UrlWhole
import Verif.Props.UrlWhole
import Verif.Spec.UrlHttp
import Verif.Lemmas.UrlHost
import Verif.Props.UrlHttp
import Verif.Props.UrlPrint
import Verif.Props.DhtHosts
import Verif.Props.DhtSend
import Verif.Spec.LinkEnds
import Verif.Props.LinkEnds
import Verif.Spec.AskFail
import Verif.Props.AskFail
import Verif.Props.GetAnnounce
import Verif.Model.BatchGet
import Verif.Spec.BatchGet
import Verif.Props.BatchGet
import Verif.Model.CommandLine
import Verif.Spec.CommandLine
import Verif.Props.CommandLine
import Verif.Model.Program
import Verif.Spec.Program
import Verif.Props.Program
import Verif.Model.ProgramLog
import Verif.Spec.ProgramLog
import Verif.Lemmas.ProgramLog
import Verif.Props.ProgramLog
import Verif.Spec.LogLevel
import Verif.Props.LogLevel
import Verif.Model.Held
import Verif.Spec.Frugal
import Verif.Props.Frugal
import Verif.Props.Held
import Verif.Spec.DhtTraffic
import Verif.Props.DhtTraffic
import Verif.Spec.UdpTraffic
import Verif.Props.UdpTraffic
import Verif.Spec.DhtTime
import Verif.Props.DhtTime
import Verif.Spec.AskTraffic
import Verif.Props.AskTraffic
import Verif.Props.CrashFiles
import Verif.Model.NurseryQuery
import Verif.Props.NurseryQuery
import Verif.Spec.ProgramPeer
import Verif.Props.ProgramPeer
import Verif.Spec.ErrorText
import Verif.Props.ErrorText
import Verif.Props.TrackerText
import Verif.Props.LinkText
import Verif.Model.Random
import Verif.Spec.Random
import Verif.Props.Random
import Verif.Spec.DhtNetwork
import Verif.Props.DhtNetwork
import Verif.Model.DhtSockets
import Verif.Spec.DhtSockets
import Verif.Props.DhtSockets
import Verif.Model.AppDht
import Verif.Spec.AppDht
import Verif.Props.AppDht
import Verif.Model.ConnectTime
import Verif.Spec.ConnectTime
import Verif.Props.ConnectTime
import Verif.Model.DhtLog
import Verif.Spec.DhtLog
import Verif.Props.DhtLog
import Verif.Spec.Reach
import Verif.Props.Reach
import Verif.Model.AskLog
import Verif.Spec.AskLog
import Verif.Props.AskLog
import Verif.Model.PeerLog
import Verif.Spec.PeerLog
import Verif.Props.PeerLog
import Verif.Props.PeerLogMse
import Verif.Props.PeerLogRun
import Verif.Model.Fleet
import Verif.Spec.Fleet
import Verif.Props.Fleet
import Verif.Props.FleetEnds
import Verif.Model.FleetGet
import Verif.Props.FleetGet
import Verif.Props.FleetRuns
import Verif.Model.Closing
import Verif.Spec.Closing
import Verif.Props.Closing
import Verif.Spec.DownloadTime
import Verif.Lemmas.NurseryTime
import Verif.Props.DownloadTime
import Verif.Spec.DhtAlone
import Verif.Props.DhtAlone
import Verif.Tests.Async
import Verif.Tests.DhtMessages
import Verif.Tests.Http
import Verif.Tests.Inputs
import Verif.Tests.Peer
import Verif.Tests.PeerMessages
import Verif.Tests.Torrent
import Verif.Tests.Types
import Verif.Tests.Udp
import Verif.Spec.Aftermath
import Verif.Model.Aftermath
import Verif.Props.Aftermath
import Verif.Spec.NetBatch
import Verif.Model.NetBatch
import Verif.Lemmas.NetBatch
import Verif.Lemmas.NetInv
import Verif.Lemmas.NetKeep
import Verif.Lemmas.NetTalk
import Verif.Lemmas.NetDht
import Verif.Lemmas.NetAll
import Verif.Lemmas.NetName
import Verif.Props.NetBatch
import Verif.Spec.SameTorrent
import Verif.Props.SameTorrent
import Verif.Props.NetPatience
import Verif.Spec.Silence
import Verif.Lemmas.SilenceDht
import Verif.Lemmas.SilenceAsk
import Verif.Props.Silence
import Verif.Spec.DiskShared
import Verif.Props.DiskShared
import Verif.Spec.Stallers
import Verif.Lemmas.Stallers
import Verif.Props.Stallers
import Verif.Spec.StuckLinks
import Verif.Lemmas.StuckLinks
import Verif.Props.StuckLinks
import Verif.Spec.JobNumbers
import Verif.Props.JobNumbers
import Verif.Spec.TemplateErrors
import Verif.Props.TemplateErrors
import Verif.Spec.Exact
import Verif.Props.Exact
import Verif.Model.TemplateText
import Verif.Props.TemplateText
import Verif.Model.Moments
import Verif.Spec.Moments
import Verif.Props.Moments
import Verif.Model.LossyNet
import Verif.Spec.LossyNet
import Verif.Props.LossyNet
