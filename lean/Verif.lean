import Verif.Props.Store
import Verif.Props.Sweep
import Verif.Props.Mtcp
import Verif.Props.TcpclNet
import Verif.Props.TcpclSession
import Verif.Props.Peers
import Verif.Props.Epidemic
import Verif.Props.Spray
import Verif.Props.RoutingAgents
import Verif.Props.Listing
import Verif.Props.Agents
import Verif.Props.Processing
import Verif.Props.Counting
import Verif.Props.Dispatch
import Verif.Props.External
import Verif.Props.Ecla
import Verif.Props.EclaLocks
import Verif.Props.EclaFrames
import Verif.Props.Discovery
import Verif.Props.Announcer
import Verif.Props.Digest
import Verif.Props.Httpd
import Verif.Props.HttpPull
import Verif.Props.Ws
import Verif.Props.PeerUrl
import Verif.Props.JanitorRun
import Verif.Props.Removed
import Verif.Props.Setup
import Verif.Props.Clas
import Verif.Props.Locks
import Verif.Props.Queues
import Verif.Props.Tools
import Verif.Props.Status
import Verif.Props.EndToEnd
import Verif.Props.Origin
import Verif.Props.Network
import Verif.Props.Relay
import Verif.Props.Carried
import Verif.Props.Ends
import Verif.Props.ModuleClient
import Verif.Props.Spreads
import Verif.Props.TcpPool
import Verif.Props.TcpPair
import Verif.Props.TcpCalm
import Verif.Props.Journey
import Verif.Props.Erouter
import Verif.Props.Echo
import Verif.Props.Ping
import Verif.Props.ConnectN
import Verif.Props.Bridge
import Verif.Props.Given
import Verif.Props.SledNode
import Verif.Props.SledGuarantees
import Verif.Props.Foreign
import Verif.Props.SledForeign
import Verif.Props.SledOrigin
import Verif.Props.MixedNetwork
import Verif.Props.SledGiven
import Verif.Props.SledCounting
import Verif.Props.Cron
import Verif.Props.SledEnds
import Verif.Props.SledCron
import Verif.Props.EndToEndBusy
import Verif.Props.Waiting
import Verif.Props.Rejected
import Verif.Props.SledRejected
import Verif.Props.BusyRelay
import Verif.Props.TcpclLayout
import Verif.Props.EclaJson
import Verif.Props.RouterJson
import Verif.Props.PackCbor
import Verif.Props.EclaBeacon
import Verif.Props.SneakersStore
import Verif.Props.SprayExact
import Verif.Props.SprayFailures
import Verif.Props.SledWaiting
import Verif.Props.EpidemicNode
import Verif.Props.SprayNode
import Verif.Props.RouterNode
import Verif.Props.SprayStored
import Verif.Props.RouterRestarts
import Verif.Props.SprayNetwork
import Verif.Props.WebPages
import Verif.Props.WebModule
