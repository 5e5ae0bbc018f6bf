import Verif.Core.Bytes
import Verif.Core.Reader
import Verif.Core.Safe
import Verif.Core.Inv
import Verif.Core.HMap
import Verif.Core.RoundTrip
import Verif.Core.Fwd
import Verif.Core.Prefix
import Verif.Core.Reads
import Verif.Core.Write
import Verif.Core.SafeAt
import Verif.Core.Ctx
import Verif.Core.InvErr
import Verif.Core.Logs
import Verif.Core.Stream
import Verif.UdpNotif.Model
import Verif.UdpNotif.Lemmas
import Verif.UdpNotif.Lemmas2
import Verif.UdpNotif.Spec
import Verif.UdpNotif.Lemmas3
import Verif.Analytics.Model
import Verif.Analytics.Spec
import Verif.Analytics.Lemmas
import Verif.Analytics.Lemmas2
import Verif.Analytics.Lemmas3
import Verif.Analytics.Lemmas4
import Verif.Bgp.Family
import Verif.Bgp.Caps
import Verif.Bgp.CapsLemmas
import Verif.Bgp.Community
import Verif.Bgp.Nlri
import Verif.Bgp.NlriLemmas
import Verif.Bgp.Ls
import Verif.Bgp.LsLemmas
import Verif.Bgp.LsAttr
import Verif.Bgp.LsAttrLemmas
import Verif.Bgp.Sid
import Verif.Bgp.SidLemmas
import Verif.Bgp.Attr
import Verif.Bgp.AttrLemmas
import Verif.Bgp.Msg
import Verif.Bgp.MsgLemmas
import Verif.Bgp.MsgSafe
import Verif.Bgp.MsgFrame
import Verif.Bgp.OpenLemmas
import Verif.Bgp.Codec
import Verif.Bgp.CodecLemmas
import Verif.Speaker.Conn
import Verif.Speaker.ConnLemmas
import Verif.Speaker.Peer
import Verif.Speaker.PeerLemmas
import Verif.Speaker.PeerCoh
import Verif.Speaker.Run
import Verif.Speaker.PeerFrame
import Verif.Speaker.PeerRoles
import Verif.Props.BgpCaps
import Verif.Props.BgpNlri
import Verif.Props.BgpLs
import Verif.Props.BgpAttr
import Verif.Props.BgpMsg
import Verif.Props.BgpRecovery
import Verif.Props.BgpCodec
import Verif.Props.BmpCodec
import Verif.Props.BmpPeers
import Verif.Props.BmpMsg
import Verif.Props.ParseUtils
import Verif.Props.Prefix
import Verif.Props.UdpNotif
import Verif.Props.Analytics
import Verif.Props.SpeakerPeer
import Verif.Props.SpeakerConn
import Verif.Core.CRel
import Verif.Core.CRd
import Verif.Bmp.Header
import Verif.Bmp.Msg
import Verif.Bmp.Codec
import Verif.Bmp.CtxLemmas
import Verif.Bmp.FrameLemmas
import Verif.Bmp.HeaderLemmas
import Verif.Bmp.MsgLemmas
import Verif.Bmp.CodecLemmas
import Verif.Bmp.PeerLemmas
import Verif.Bmp.SafeLemmas
import Verif.Bmp.ExactLemmas
import Verif.Core.Loop
import Verif.Flow.Ie
import Verif.Flow.Packet
import Verif.Flow.Codec
import Verif.Core.Exact
import Verif.Flow.SafeLemmas
import Verif.Flow.FieldLemmas
import Verif.Flow.SetLemmas
import Verif.Flow.LearnLemmas
import Verif.Flow.PacketLemmas
import Verif.Flow.WriteLemmas
import Verif.Props.FlowCodec
import Verif.Props.FlowTemplates
import Verif.Flow.ValueLemmas
import Verif.Flow.RoundTripLemmas
import Verif.Flow.FitLemmas
import Verif.Props.FlowValues
import Verif.Props.FlowRoundTrip
import Verif.Props.FlowStream
import Verif.Netconf.Codec
import Verif.Netconf.Lemmas
import Verif.Props.Netconf
import Verif.Collector.Types
import Verif.Collector.Enrichment
import Verif.Collector.Spec
import Verif.Collector.Lemmas
import Verif.Collector.CacheLemmas
import Verif.Collector.LookupLemmas
import Verif.Collector.Actor
import Verif.Props.Enrichment
import Verif.Props.EnrichActor
import Verif.Collector.FieldOps
import Verif.Collector.Aggregation
import Verif.Collector.AggSpec
import Verif.Collector.AggLemmas
import Verif.Collector.AggRunLemmas
import Verif.Collector.OpLemmas
import Verif.Analytics.StreamLemmas
import Verif.Collector.AggStopLemmas
import Verif.Props.Aggregation
import Verif.Collector.Float64
import Verif.Collector.FloatLemmas
import Verif.Collector.RenormLemmas
import Verif.Collector.RenormSpec
import Verif.Collector.Renormalization
import Verif.Collector.SamplingLemmas
import Verif.Speaker.PeerOpens
import Verif.Props.Renormalization
import Verif.Collector.FlowOptions
import Verif.Collector.OptionsSpec
import Verif.Collector.OptionsLemmas
import Verif.Props.FlowOptions
import Verif.Props.SampledFlows
import Verif.Collector.MapText
import Verif.Collector.FileInput
import Verif.Collector.FilesSpec
import Verif.Collector.MapTextLemmas
import Verif.Collector.MapLineLemmas
import Verif.Collector.FilesLemmas
import Verif.Collector.FilesRunLemmas
import Verif.Collector.Ledger
import Verif.Collector.FilesHistory
import Verif.Props.FileInput
import Verif.Collector.Sonata
import Verif.Collector.YangLabels
import Verif.YangPush.Types
import Verif.Collector.YangMessages
import Verif.Collector.InventorySpec
import Verif.Collector.SonataLemmas
import Verif.Collector.LabelLemmas
import Verif.Props.Inventory
import Verif.YangPush.Validation
import Verif.YangPush.ValidationLemmas
import Verif.YangPush.ValidationSpec
import Verif.YangPush.ValidationInv
import Verif.YangPush.ValidationCounts
import Verif.YangPush.ValidationHist
import Verif.YangPush.ValidationSteady
import Verif.YangPush.ValidationPeers
import Verif.Props.YangPush
import Verif.YangPush.Library
import Verif.YangPush.LibrarySpec
import Verif.YangPush.Storage
import Verif.YangPush.StorageSpec
import Verif.YangPush.StorageInv
import Verif.YangPush.StorageReach
import Verif.YangPush.StorageSettled
import Verif.Props.YangCache
import Verif.YangPush.CacheActor
import Verif.YangPush.CacheSpec
import Verif.YangPush.CacheCounts
import Verif.YangPush.CacheFetch
import Verif.Props.YangCacheActor
import Verif.YangPush.Loading
import Verif.YangPush.LoadingSpec
import Verif.YangPush.LoadingInv
import Verif.YangPush.LoadingDone
import Verif.YangPush.LoadingWell
import Verif.YangPush.ContentId
import Verif.YangPush.Extending
import Verif.YangPush.ExtendingSpec
import Verif.YangPush.ExtendingInv
import Verif.YangPush.ExtendingWell
import Verif.Props.YangLoading
import Verif.Props.YangExtending
import Verif.Yang.Parser
import Verif.Yang.Spec
import Verif.Yang.Lemmas
import Verif.Yang.Reading
import Verif.Yang.Skipping
import Verif.Yang.Documents
import Verif.Yang.Suffixes
import Verif.Yang.MetaRead
import Verif.Props.YangSchemas
import Verif.YangPush.Registering
import Verif.YangPush.RegisteringWell
import Verif.YangPush.RegisteringGraph
import Verif.YangPush.RegisteringLoop
import Verif.YangPush.RegisteringWhole
import Verif.YangPush.RegisteringCalm
import Verif.YangPush.RegisteringSpec
import Verif.Props.YangRegistering
import Verif.Props.Publishers
import Verif.Publish.KafkaYang
import Verif.Publish.Kafka
import Verif.Publish.KafkaRuns
import Verif.Publish.KafkaSpec
import Verif.Publish.KafkaLemmas
import Verif.Publish.Http
import Verif.Service.DatagramUsage
import Verif.Service.DatagramRuns
import Verif.Service.Datagram
import Verif.Service.DatagramSpec
import Verif.Service.DatagramLemmas
import Verif.Service.Supervisor
import Verif.Props.DatagramSupervisor
import Verif.Props.Datagram
import Verif.BmpService.Spec
import Verif.BmpService.Model
import Verif.BmpService.Listing
import Verif.BmpService.Sending
import Verif.BmpService.Lemmas
import Verif.BmpService.Runs
import Verif.BmpService.Table
import Verif.BmpService.Delivery
import Verif.BmpService.Counters
import Verif.BmpService.Access
import Verif.Props.BmpService
import Verif.BmpServer.Requests
import Verif.BmpServer.Lobby
import Verif.BmpServer.Shutdown
import Verif.BmpServer.Model
import Verif.BmpServer.Stuck
import Verif.BmpServer.Lemmas
import Verif.BmpServer.Invariant
import Verif.BmpServer.Graceful
import Verif.Props.BmpServer
import Verif.Bgp.Strict
import Verif.Pcap.Sections
import Verif.Pcap.Compute
import Verif.Pcap.Ends
import Verif.Pcap.Spec
import Verif.Pcap.Tame
import Verif.Pcap.Wire
import Verif.Pcap.Runs
import Verif.Pcap.RefLib
import Verif.Pcap.Clean
import Verif.Pcap.Reader
import Verif.Pcap.Streams
import Verif.Pcap.ReadLemmas
import Verif.Pcap.Decoder
import Verif.Props.PcapReading
import Verif.Props.PcapDecoding
import Verif.NetconfXml.WellFormedness
import Verif.NetconfXml.Parser
import Verif.NetconfXml.RoundTripOps
import Verif.NetconfXml.Spec
import Verif.NetconfXml.Names
import Verif.NetconfXml.RoundTripAll
import Verif.NetconfXml.Messages
import Verif.NetconfXml.SpecLemmas
import Verif.NetconfXml.Lemmas
import Verif.NetconfXml.CapLemmas
import Verif.NetconfXml.Capability
import Verif.NetconfXml.Writer
import Verif.NetconfXml.Copy
import Verif.NetconfXml.Events
import Verif.NetconfXml.RoundTripReply
import Verif.NetconfXml.RoundTripErrors
import Verif.NetconfXml.RoundTrip
import Verif.NetconfXml.HelloDoc
import Verif.NetconfXml.RoundTripRpc
import Verif.Props.NetconfTermination
import Verif.Props.NetconfCapabilities
import Verif.Props.NetconfMessages
import Verif.Props.NetconfText
import Verif.NetconfXml.Ends
import Verif.NetconfXml.EndsMessages
import Verif.NetconfXml.YangLibReads
import Verif.NetconfXml.YangLibMaps
import Verif.NetconfXml.YangLibWrites
import Verif.NetconfXml.YangLib
import Verif.NetconfXml.YangLibSkip
import Verif.NetconfXml.YangLibRound
import Verif.NetconfXml.YangLibEnds
import Verif.Props.NetconfDefaults
import Verif.Props.NetconfLibrary
import Verif.NetconfClient.Client
import Verif.Props.NetconfClient
import Verif.Props.FlowOutput
import Verif.Collector.OutputLemmas
import Verif.Collector.Output
import Verif.Props.PmacctRest
import Verif.Props.PmacctRoutes
import Verif.Props.Pmacct
import Verif.Collector.PmacctLemmas
import Verif.Collector.Pmacct
import Verif.Speaker.Listener
import Verif.Props.Listener
import Verif.UdpNotif.Notification
import Verif.UdpNotif.JsonLemmas
import Verif.UdpNotif.Json
import Verif.Props.Notification
import Verif.Props.NotificationReads
import Verif.Props.NotificationKept
import Verif.Props.NotificationTargets
import Verif.NetconfXml.SubWrites
import Verif.NetconfXml.Subscription
import Verif.NetconfXml.SubWhole
import Verif.NetconfXml.SubReads
import Verif.NetconfXml.SubAll
import Verif.NetconfXml.SubRound
import Verif.NetconfXml.SubBack
import Verif.NetconfXml.SubOut
import Verif.NetconfXml.SubMain
import Verif.Props.SubscriptionOrder
import Verif.Props.SubscriptionParts
import Verif.Props.SubscriptionXml
import Verif.NetconfXml.Subtree
import Verif.Props.XPathPrefixes
import Verif.Props.SubscriptionChildren
import Verif.Props.SubtreeFilters
import Verif.NetconfXml.Filters
import Verif.Props.FilterSets
import Verif.NetconfClient.Push
import Verif.Props.PushClient
import Verif.Props.FlowText
import Verif.Flow.Registry
import Verif.Props.Registries
import Verif.Flow.Elements
import Verif.Props.RegistryElements
import Verif.Props.Consumer
import Verif.Collector.Consumer
import Verif.BmpService.Supervisor
import Verif.Props.BmpSupervisor
import Verif.Props.Wiring
import Verif.Collector.Wiring
import Verif.Props.JsonRecords
import Verif.Collector.JsonRecords
import Verif.Props.CollectorMain
import Verif.Collector.Main
import Verif.Props.Stopping
import Verif.Collector.Stopping
