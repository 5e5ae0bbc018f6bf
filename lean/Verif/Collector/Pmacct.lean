import Verif.Bmp.Msg
import Verif.Speaker.Conn
import Verif.NetconfXml.Capability
/-!
# BMP messages as messages of pmacct

`P` stands for `crates/collector/src/bmp/pmacct_schema.rs` and `K` for `crates/bgp-pkt/src/community.rs`.

Text of the standard library and of registries is a parameter: IPv6 addresses, prefixes, MAC addresses, names of counters, of peer types and of reasons, and the debugging text of information elements. The fields that messages of
pmacct have in common are kept once. Labels and tags of the context are left out, as they are always `None` (`crates/collector/src/bmp/config.rs:129-135`).
-/
namespace Verif.Pmacct
open Verif Verif.Bgp Verif.Bmp
open Verif.Collector (Text)
open Verif.Xml (joined)

/-- text that is made elsewhere -/
structure Shown where
  /-- `Display for Ipv6Addr` -/
  ip6 : BitVec 128 → Text
  /-- `Display for Ipv4Net` and `Ipv6Net` -/
  net : Net → Text
  /-- `Display for MacAddress` -/
  mac : Bytes → Text
  /-- `Display for BmpPeerTypeCode` -/
  peerType : PeerKind → Text
  /-- `Display for BmpStatisticsType` -/
  counter : UInt16 → Text
  /-- `Display for PeerDownReasonCode` -/
  reason : UInt8 → Text
  /-- `Display for PeerTerminationCode` -/
  termination : TermReason → Text
  /-- `Debug for InitiationInformation` -/
  info : Info → Text

/-- `to_string` of an unsigned number -/
def num (n : Nat) : Text := Nat.toDigits 10 n

/-- `Display for Ipv4Addr` -/
def ip4Text (a : UInt32) : Text :=
  num (a.toNat / 16777216) ++ '.' :: (num (a.toNat / 65536 % 256) ++ '.' :: (num (a.toNat / 256 % 256) ++ '.' :: num (a.toNat % 256)))

/-- `Display for IpAddr` -/
def Shown.ip (sh : Shown) : IpAddr → Text
  | .v4 a => ip4Text a
  | .v6 a => sh.ip6 a

/-- `i64::MAX` -/
def i64Max : Nat := 9223372036854775807

/-- `u64_to_i64_clamp`, `P:537-540` -/
def clamp (v : UInt64) : Int := if v.toNat ≤ i64Max then v.toNat else i64Max

/-! ## Time -/

/-- `{:06}` -/
def pad6 (n : Nat) : Text := List.replicate (6 - (num n).length) '0' ++ num n

/-- `{}` of a signed number -/
def signed (n : Int) : Text := if n < 0 then '-' :: num n.natAbs else num n.natAbs

/-- `fmt_ts`, `P:544-546`; `timestamp_subsec_micros` is the nanoseconds divided by 1000, also in a leap second -/
def timeText (t : Time) : Text := signed t.secs ++ '.' :: pad6 (t.nanos / 1000)

/-- `PmacctBmpConversionError`, `P:513-524`; the first has the name of the message in it. `MissingPeerHeader` is never made. -/
inductive ConvErr where
  | unsupported
  | missingTimestamp
  deriving DecidableEq, Repr

/-- `peer_header_ts`, `P:549-553` -/
def headerTime (h : PeerHeader) : Except ConvErr Text :=
  match h.time with
  | some t => .ok (timeText t)
  | none => .error .missingTimestamp

/-! ## Peers -/

/-- `BmpRibType`, `P:478-491` -/
inductive Rib where
  | unknown | inPre | inPost | loc | outPre | outPost
  deriving DecidableEq, Repr

/-- what `rib_type_and_flags` returns; an `Option<u8>` that is `Some(1)` or `None` is a truth value -/
structure RibFlags where
  rib : Rib
  filtered : Bool
  isIn : Bool
  isLoc : Bool
  isPost : Bool
  isOut : Bool
  deriving DecidableEq, Repr

/-- `rib_type_and_flags`, `P:557-607` -/
def ribFlags : PeerType → RibFlags
  | .locRib f => ⟨.loc, f, false, true, false, false⟩
  | .session _ _ post _ out =>
    let rib := match out, post with
      | false, false => .inPre
      | false, true => .inPost
      | true, false => .outPre
      | true, true => .outPost
    match out, post with
    | false, false => ⟨rib, false, true, false, false, false⟩
    | false, true => ⟨rib, false, true, false, true, false⟩
    | true, false => ⟨rib, false, false, false, false, true⟩
    | true, true => ⟨rib, false, false, false, true, true⟩
  | .experimental .. => ⟨.unknown, false, false, false, false, false⟩

/-- `RdOrigin`, `P:440-446`: the two that occur -/
inductive RdOrigin where
  | bgp | bmp
  deriving DecidableEq, Repr

/-- a route distinguisher as text, `P:621-635` -/
def rdTextOf : Rd → Text
  | .as2 a n => '0' :: ':' :: (num a.toNat ++ ':' :: num n.toNat)
  | .ipv4 a n => '1' :: ':' :: (ip4Text a ++ ':' :: num n.toNat)
  | .as4 a n => '2' :: ':' :: (num a.toNat ++ ':' :: num n.toNat)
  | .leafAd => "3:leaf-A-D-route".toList

/-- `rd_and_origin`, `P:616-636` -/
def rdAndOrigin (rd : Option Rd) (o : RdOrigin) : Option Text × Option RdOrigin :=
  match rd with
  | none => (none, none)
  | some r => (some (rdTextOf r), some o)

/-! ## Counters -/

/-- `counter_value_and_addr_type`, `P:640-721`. Which arm is of 32 bits, of 64 bits and of a family follows the type of the counter. -/
def counterValue : Counter → Int × Option AddressType
  | .u32 _ v => (v.toNat, none)
  | .u64 _ v => (clamp v, none)
  | .family _ t v => (clamp v, some t)
  | .experimental .. => (0, none)
  | .unknown .. => (0, none)

/-- the type of a counter and its text, `P:1230-1233`; `get_type` fails for unknown counters only, `crates/bmp-pkt/src/v3.rs:726-810` -/
def counterName (sh : Shown) (c : Counter) : UInt16 × Text :=
  match c with
  | .unknown code _ => (code, "Unknown(".toList ++ (num code.toNat ++ [')']))
  | c => (c.code, sh.counter c.code)

/-- `mpls_label_value`, `P:726-729`, of the three octets of a label -/
def labelValue (l : Bytes) : Nat := ((l.getD 0 0).toNat <<< 12) ||| ((l.getD 1 0).toNat <<< 4) ||| ((l.getD 2 0).toNat >>> 4)

/-- `labels().first()`, as text, `P:1541` -/
def firstLabel (l : List Bytes) : Option Text := l.head?.map fun x => num (labelValue x)

/-! ## AS paths -/

/-- the numbers of a segment, `P:771-785`, `P:795-809` and `P:821-835` -/
def segText (val : α → Nat) (s : Seg α) : Text :=
  match s.type with
  | .set => '{' :: (joined [' '] (s.asns.map fun a => num (val a)) ++ ['}'])
  | .sequence => joined [' '] (s.asns.map fun a => num (val a))

/-- the two arms of `fmt_as_path` and `fmt_as4_path`, `P:768-789`, `P:792-813` and `P:818-839` -/
def segsText (val : α → Nat) (l : List (Seg α)) : Text := joined [' '] ((l.map (segText val)).filter (· != []))

/-- the arms of `count_as_path_asns` and `count_as4_path_asns`, `P:734-751` and `P:756-762` -/
def countSegs (l : List (Seg α)) : Nat :=
  (l.map fun s => match s.type with | .sequence => s.asns.length | .set => 1).sum

/-- the loops of `fmt_as_path_prefix`, `P:849-876` and `P:879-906` -/
def prefixParts (val : α → Nat) : Nat → List (Seg α) → List Text
  | _, [] => []
  | n, s :: r =>
    if n = 0 then []
    else match s.type with
      | .set => ('{' :: (joined [' '] (s.asns.map fun a => num (val a)) ++ ['}'])) :: prefixParts val (n - 1) r
      | .sequence =>
        let take := min n s.asns.length
        let chunk := joined [' '] ((s.asns.take take).map fun a => num (val a))
        if chunk = [] then prefixParts val (n - take) r else chunk :: prefixParts val (n - take) r

/-- `fmt_as_path`, `P:766-815` -/
def asPathText : AsPath → Text
  | .as2 l => segsText UInt16.toNat l
  | .as4 l => segsText UInt32.toNat l

/-- `fmt_as4_path`, `P:819-841` -/
def as4PathText (l : List (Seg UInt32)) : Text := segsText UInt32.toNat l

/-- `count_as_path_asns`, `P:734-752` -/
def countAsPath : AsPath → Nat
  | .as2 l => countSegs l
  | .as4 l => countSegs l

/-- `fmt_as_path_prefix`, `P:845-914` -/
def asPathPrefix (n : Nat) : AsPath → Text
  | .as2 l => joined [' '] ((prefixParts UInt16.toNat n l).filter (· != []))
  | .as4 l => joined [' '] ((prefixParts UInt32.toNat n l).filter (· != []))

/-- `merge_as_path`, `P:926-948` -/
def mergeAsPath : Option AsPath → Option (List (Seg UInt32)) → Option Text
  | none, none => none
  | some ap, none => some (asPathText ap)
  | none, some a4 => some (as4PathText a4)
  | some ap, some a4 =>
    let n := countAsPath ap
    let m := countSegs a4
    if n < m then some (asPathText ap)
    else
      let pre := asPathPrefix (n - m) ap
      let tail := as4PathText a4
      if pre = [] then some tail else if tail = [] then some pre else some (pre ++ ' ' :: tail)

/-! ## Communities -/

/-- `WellKnownCommunity`, `crates/bgp-pkt/src/iana.rs:727-748`, with its `Display` -/
def wellKnown : List (UInt32 × Text) :=
  [(0xFFFF0000, "GracefulShutdown".toList), (0xFFFF0001, "AcceptOwn".toList), (0xFFFF0006, "LlgrStale".toList), (0xFFFF0007, "NoLlgr".toList),
   (0xFFFF0009, "StandbyPe".toList), (0xFFFF029A, "BlackHole".toList), (0xFFFFFF01, "NoExport".toList), (0xFFFFFF02, "NoAdvertise".toList),
   (0xFFFFFF03, "NoExportSubConfederation".toList), (0xFFFFFF04, "NoPeer".toList)]

/-- `Display for Community`, `K:58-70` -/
def commText (c : UInt32) : Text :=
  match wellKnown.lookup c with
  | some t => t
  | none => num (c.toNat / 65536) ++ ':' :: num (c.toNat % 65536)

/-- `Display for LargeCommunity`, `K:131-139` -/
def largeText (c : LargeComm) : Text := num c.globalAdmin.toNat ++ ':' :: (num c.localData1.toNat ++ ':' :: num c.localData2.toNat)

/-- `{:x}` -/
def hexNum (n : Nat) : Text := Nat.toDigits 16 n
/-- `{:x?}` of an array of octets -/
def hexList (l : Bytes) : Text := '[' :: (joined [',', ' '] (l.map fun b => hexNum b.toNat) ++ [']'])
/-- `{:?}` of an array of octets -/
def decList (l : Bytes) : Text := '[' :: (joined [',', ' '] (l.map fun b => num b.toNat) ++ [']'])

/-- the words of `K:239-306` -/
def twoOctetWord : TwoOctetKind → Text
  | .routeTarget => "rt".toList | .routeOrigin => "ro".toList | .ospfDomainIdentifier => "ospf-domain".toList | .bgpDataCollection => "bgp-data".toList
  | .sourceAs => "source-as".toList | .l2VpnIdentifier => "l2vpn".toList | .ciscoVpnDistinguisher => "cisco-vpn".toList
  | .routeTargetRecord => "rt-record".toList | .rtDerivedEc => "rt-derived".toList | .virtualNetworkIdentifier => "vni".toList
  | .unassigned s => "unassigned-".toList ++ num s.toNat

/-- the words of `K:307-328` -/
def ntTwoOctetWord : NtTwoOctetKind → Text
  | .linkBandwidth => "link-bw".toList | .virtualNetworkIdentifier => "vni".toList
  | .unassigned s => "unassigned-".toList ++ num s.toNat

/-- the words of `K:329-427` -/
def ipv4Word : Ipv4Kind → Text
  | .routeTarget => "rt".toList | .routeOrigin => "ro".toList | .ipv4Ifit => "ifit".toList | .ospfDomainIdentifier => "ospf-domain".toList
  | .ospfRouteId => "ospf-rid".toList | .nodeTarget => "node-target".toList | .l2VpnIdentifier => "l2vpn".toList | .vrfRouteImport => "vrf-import".toList
  | .flowSpecRedirectToIpv4 => "flowspec-redirect".toList | .ciscoVpnDistinguisher => "cisco-vpn".toList
  | .interAreaP2MpSegmentedNextHop => "p2mp-nexthop".toList | .routeTargetRecord => "rt-record".toList | .vrfRecursiveNextHop => "vrf-nexthop".toList
  | .rtDerivedEc => "rt-derived".toList | .multicastVpnRpAddress => "mvpn-rp".toList
  | .unassigned s => "unassigned-".toList ++ num s.toNat

/-- the words of `K:437-493` -/
def fourOctetWord : FourOctetKind → Text
  | .routeTarget => "rt".toList | .routeOrigin => "ro".toList | .ospfDomainIdentifier => "ospf-domain".toList | .bgpDataCollection => "bgp-data".toList
  | .sourceAs => "source-as".toList | .ciscoVpnDistinguisher => "cisco-vpn".toList | .routeTargetRecord => "rt-record".toList
  | .rtDerivedEc => "rt-derived".toList
  | .unassigned s => "unassigned-".toList ++ num s.toNat

/-- `Display for ExtendedCommunity`, `K:236-557` -/
def extText (sh : Shown) : ExtComm → Text
  | .transTwoOctet k g l => twoOctetWord k ++ ':' :: (num g.toNat ++ ':' :: num l.toNat)
  | .nonTransTwoOctet k g l => ntTwoOctetWord k ++ ':' :: (num g.toNat ++ ':' :: num l.toNat)
  | .transIpv4 k g l => ipv4Word k ++ ':' :: (ip4Text g ++ ':' :: num l.toNat)
  | .nonTransIpv4 s g l => "unassigned-".toList ++ (num s.toNat ++ ':' :: (ip4Text g ++ ':' :: num l.toNat))
  | .transFourOctet k g l => fourOctetWord k ++ ':' :: (num g.toNat ++ ':' :: num l.toNat)
  | .nonTransFourOctet s g l => "unassigned-".toList ++ (num s.toNat ++ ':' :: (num g.toNat ++ ':' :: num l.toNat))
  | .transOpaque (.upa drop r) => (if drop then "upa-drop:".toList else "upa:".toList) ++ ip4Text r
  | .transOpaque .defaultGateway => "default-gateway".toList
  | .transOpaque (.unassigned s v) => "unassigned-".toList ++ (num s.toNat ++ ':' :: hexList v)
  | .nonTransOpaque s v => "unassigned-".toList ++ (num s.toNat ++ ':' :: hexList v)
  | .evpn (.macMobility f s) => "mac-mobility:flags=".toList ++ (hexNum f.toNat ++ (":seq=".toList ++ num s.toNat))
  | .evpn (.esiLabel f l) => "esi-label:flags=".toList ++ (hexNum f.toNat ++ (":label=".toList ++ hexList l))
  | .evpn (.esImportRouteTarget rt) => "es-import:".toList ++ decList rt
  | .evpn (.routersMac m) => "router-mac:".toList ++ sh.mac m
  | .evpn (.l2Attribute c m) => "l2-attr:flags=".toList ++ (hexNum c.toNat ++ (":mtu=".toList ++ num m.toNat))
  | .evpn (.unassigned s v) => "unassigned-".toList ++ (num s.toNat ++ ':' :: hexList v)
  | .experimental c s v => "experimental:".toList ++ (num c.toNat ++ ':' :: (num s.toNat ++ ':' :: hexList v))
  | .unknown c s v => "unknown:".toList ++ (num c.toNat ++ ':' :: (num s.toNat ++ ':' :: hexList v))

/-- `fmt_comms`, `P:951-957` -/
def commsText (l : List UInt32) : Text := joined [' '] (l.map commText)
/-- `fmt_ecomms`, `P:961-967`; the text is of ASCII characters -/
def ecommsText (sh : Shown) (l : List ExtComm) : Text := joined [' '] (l.map fun c => (extText sh c).map Char.toUpper)
/-- `fmt_lcomms`, `P:971-977` -/
def lcommsText (l : List LargeComm) : Text := joined [' '] (l.map largeText)

/-! ## Messages -/

/-- `PmacctConversionContext` (`P:496-511`) and the address of the router -/
structure Ctx where
  writer : Text
  event : Text
  arrival : Text
  router : IpAddr
  port : UInt16
  deriving DecidableEq, Repr

/-- `BmpMsgType`, `P:459-467` -/
inductive MsgKind where
  | routeMonitor | stats | peerDown | peerUp | init | term
  deriving DecidableEq, Repr

/-- the fields that all messages have, `P:186-379`. Route monitoring messages have no `timestamp_event`. -/
structure Common where
  seq : UInt32
  timestamp : Text
  timestampEvent : Option Text
  arrival : Option Text
  event : Text
  router : Text
  port : Option UInt16
  kind : MsgKind
  writer : Text
  deriving DecidableEq, Repr

/-- the fields of messages of peers; `peer_type_str` is always given -/
structure PeerPart where
  ip : Text
  asn : UInt32
  type : UInt8
  typeText : Text
  flags : RibFlags
  bgpId : Text
  rd : Option Text
  rdOrigin : Option RdOrigin
  deriving DecidableEq, Repr

/-- `LogType`, `P:383-393`: those that occur -/
inductive LogType where
  | update | withdraw | endOfRib
  deriving DecidableEq, Repr

/-- `BgpOrigin`, `P:415-423` -/
inductive POrigin where
  | igp | egp | unknown
  deriving DecidableEq, Repr

/-- the attributes that are shared by the routes of an update, `P:1324-1337` -/
structure Attrs where
  origin : Option POrigin := none
  asPath : Option AsPath := none
  as4Path : Option (List (Seg UInt32)) := none
  nextHop : Option Text := none
  localPref : Option UInt32 := none
  med : Option UInt32 := none
  comms : Option Text := none
  ecomms : Option Text := none
  lcomms : Option Text := none
  aigp : Option Int := none
  otc : Option UInt32 := none
  psid : Option UInt32 := none
  reach : Option MpReach := none
  unreach : Option MpUnreach := none

/-- the attributes as they are published -/
structure Shared where
  origin : Option POrigin
  asPath : Option Text
  comms : Option Text
  ecomms : Option Text
  lcomms : Option Text
  localPref : Option UInt32
  med : Option UInt32
  aigp : Option Int
  psid : Option UInt32
  otc : Option UInt32
  deriving DecidableEq, Repr

/-- what is published of one route, `P:1395-1403`; `rd` and `rdOrigin` are those of the message -/
structure Route where
  log : LogType
  afi : UInt16
  safi : UInt8
  pfx : Option Text
  rd : Option Text
  rdOrigin : Option RdOrigin
  nextHop : Option Text
  pathId : Option UInt32
  label : Option Text
  deriving DecidableEq, Repr

/-- `PmacctBmpMessage`, `P:46-55`, with the fields of `P:186-379` -/
inductive PMsg where
  | route (c : Common) (p : PeerPart) (r : Route) (s : Shared)
  | stats (c : Common) (p : PeerPart) (type : UInt16) (typeText : Text) (value : Int) (afi : Option UInt16) (safi : Option UInt8)
  | down (c : Common) (p : PeerPart) (reason : UInt8) (reasonText : Option Text) (fsm : Option UInt16)
  | up (c : Common) (p : PeerPart) (localPort remotePort : UInt16) (localIp : Text) (string vrf label reserved : Option Text)
  | init (c : Common) (string sysDescr sysName reserved : Option Text)
  | term (c : Common) (string reason : Option Text)
  deriving DecidableEq, Repr

/-- the index in the union of `get_avro_value`, `P:77-104` -/
def PMsg.index : PMsg → Nat
  | route .. => 0 | stats .. => 1 | down .. => 2 | up .. => 3 | init .. => 4 | term .. => 5

/-- the names of the records of the union, in the order of `get_schema`, `P:60-69`, with the names of `P:186-379` -/
def schemaNames : List String := ["bmp_msglog_rm", "bmp_stats", "bmp_peer_down", "bmp_peer_up", "bmp_init", "bmp_term"]

/-- the fields of messages of peers, `P:1081-1086`, `P:1121-1140` -/
def peerPart (sh : Shown) (h : PeerHeader) : PeerPart :=
  let rd := rdAndOrigin h.rd .bmp
  ⟨(match h.address with | some a => sh.ip a | none => "0.0.0.0".toList), h.peerAs, h.type.kind.code, sh.peerType h.type.kind, ribFlags h.type, ip4Text h.bgpId, rd.1, rd.2⟩

/-- the fields of messages of peers with their time, `P:1111-1121`, `P:1176-1186`, `P:1241-1251` -/
def commonOf (sh : Shown) (x : Ctx) (k : MsgKind) (t : Text) (te : Option Text) : Common :=
  ⟨0, t, te, some x.arrival, x.event, sh.ip x.router, some x.port, k, x.writer⟩

/-- adding to the text of other elements, `P:1003-1009` and `P:1100-1106` -/
def addReserved (sh : Shown) (r : Option Text) (i : Info) : Option Text :=
  let t := r.getD []
  some ((if t = [] then t else t ++ [' ']) ++ sh.info i)

/-- the loop of `convert_initiation`, `P:996-1011`: string, description, name, others -/
def initStep (sh : Shown) (s : Option Text × Option Text × Option Text × Option Text) (i : Info) : Option Text × Option Text × Option Text × Option Text :=
  match i with
  | .text .string t => (some t.toList, s.2)
  | .text .sysDescr t => (s.1, some t.toList, s.2.2)
  | .text .sysName t => (s.1, s.2.1, some t.toList, s.2.2.2)
  | i => (s.1, s.2.1, s.2.2.1, addReserved sh s.2.2.2 i)

/-- `convert_initiation`, `P:982-1029` -/
def convInit (sh : Shown) (x : Ctx) (l : List Info) : PMsg :=
  let s := l.foldl (initStep sh) (none, none, none, none)
  .init (commonOf sh x .init x.arrival none) s.1 s.2.1 s.2.2.1 s.2.2.2

/-- the loop of `convert_termination`, `P:1043-1051`: string, reason -/
def termStep (sh : Shown) (s : Option Text × Option Text) (i : TermInfo) : Option Text × Option Text :=
  match i with
  | .string t => (some t.toList, s.2)
  | .reason r => (s.1, some (sh.termination r))
  | .experimental .. => s

/-- `convert_termination`, `P:1032-1068` -/
def convTerm (sh : Shown) (x : Ctx) (l : List TermInfo) : PMsg :=
  let s := l.foldl (termStep sh) (none, none)
  .term (commonOf sh x .term x.arrival none) s.1 s.2

/-- the loop of `convert_peer_up`, `P:1093-1108`: string, name of the table, label, others -/
def upStep (sh : Shown) (s : Option Text × Option Text × Option Text × Option Text) (i : Info) : Option Text × Option Text × Option Text × Option Text :=
  match i with
  | .text .string t => (some t.toList, s.2)
  | .text .vrfTableName t => (s.1, some t.toList, s.2.2)
  | .text .adminLabel t => (s.1, s.2.1, some t.toList, s.2.2.2)
  | i => (s.1, s.2.1, s.2.2.1, addReserved sh s.2.2.2 i)

/-- `convert_peer_up`, `P:1072-1150` -/
def convUp (sh : Shown) (x : Ctx) (m : PeerUp) : Except ConvErr PMsg :=
  match headerTime m.header with
  | .error e => .error e
  | .ok t =>
    let s := m.infos.foldl (upStep sh) (none, none, none, none)
    .ok (.up (commonOf sh x .peerUp t (some t)) (peerPart sh m.header) (m.localPort.getD 0) (m.remotePort.getD 0)
      (match m.address with | some a => sh.ip a | none => "0.0.0.0".toList) s.1 s.2.1 s.2.2.1 s.2.2.2)

/-- `convert_peer_down`, `P:1154-1209` -/
def convDown (sh : Shown) (x : Ctx) (h : PeerHeader) (r : Reason) : Except ConvErr PMsg :=
  match headerTime h with
  | .error e => .error e
  | .ok t =>
    .ok (.down (commonOf sh x .peerDown t (some t)) (peerPart sh h) r.code (some (sh.reason r.code)) (match r with | .localFsm e => some e | _ => none))

/-- one message of `convert_statistics_report`, `P:1229-1281` -/
def convCounter (sh : Shown) (x : Ctx) (h : PeerHeader) (t : Text) (c : Counter) : PMsg :=
  let n := counterName sh c
  let v := counterValue c
  .stats (commonOf sh x .stats t (some t)) (peerPart sh h) n.1 n.2 v.1 (v.2.map AddressType.afi) (v.2.map AddressType.safi)

/-- `convert_statistics_report`, `P:1213-1284` -/
def convStats (sh : Shown) (x : Ctx) (m : Stats) : Except ConvErr (List PMsg) :=
  match headerTime m.header with
  | .error e => .error e
  | .ok t => .ok (m.counters.map (convCounter sh x m.header t))

/-! ## Route monitoring -/

/-- the loop over attributes, `P:1339-1390` -/
def attrsStep (sh : Shown) (s : Attrs) (v : AttrValue) : Attrs :=
  match v with
  | .origin o => { s with origin := some (match o with | .igp => .igp | .egp => .egp | .incomplete => .unknown) }
  | .asPath p => { s with asPath := some p }
  | .as4Path p => { s with as4Path := some p }
  | .nextHop a => { s with nextHop := some (ip4Text a) }
  | .localPref n => { s with localPref := some n }
  | .med n => { s with med := some n }
  | .communities l => { s with comms := some (commsText l) }
  | .extCommunities l => { s with ecomms := some (ecommsText sh l) }
  | .largeCommunities l => { s with lcomms := some (lcommsText l) }
  | .aigp n => { s with aigp := some (clamp n) }
  | .onlyToCustomer n => { s with otc := some n }
  | .prefixSid l =>
    match l.findSome? (fun t => match t with | .labelIndex _ i => some i | _ => none) with
    | some i => { s with psid := some i }
    | none => s
  | .mpReach r => { s with reach := some r }
  | .mpUnreach r => { s with unreach := some r }
  | _ => s

/-- the attributes of an update, `P:1324-1390` -/
def attrsOf (sh : Shown) (u : Update) : Attrs := (u.attrs.map PathAttr.value).foldl (attrsStep sh) {}

/-- what `build_msg` takes of the attributes, `P:1392` and `P:1419-1429` -/
def sharedOf (a : Attrs) : Shared :=
  ⟨a.origin, mergeAsPath a.asPath a.as4Path, a.comms, a.ecomms, a.lcomms, a.localPref, a.med, a.aigp, a.psid, a.otc⟩

/-- a prefix, as in `P:1508-1519` -/
def netRoute (sh : Shown) (log : LogType) (f : UInt16 × UInt8) (rd : Option Text × Option RdOrigin) (nh : Option Text) (e : NetAddr) : Route :=
  ⟨log, f.1, f.2, some (sh.net e.net), rd.1, rd.2, nh, e.pathId, none⟩
/-- a prefix with labels, as in `P:1540-1553` -/
def labelRoute (sh : Shown) (log : LogType) (f : UInt16 × UInt8) (rd : Option Text × Option RdOrigin) (nh : Option Text) (e : LabeledAddr) : Route :=
  ⟨log, f.1, f.2, some (sh.net e.net), rd.1, rd.2, nh, e.pathId, firstLabel e.labels⟩
/-- a prefix of a VPN, as in `P:1558-1575` -/
def vpnRoute (sh : Shown) (log : LogType) (f : UInt16 × UInt8) (nh : Option Text) (e : VpnAddr) : Route :=
  let rd := rdAndOrigin (some e.rd) .bgp
  ⟨log, f.1, f.2, some (sh.net e.net), rd.1, rd.2, nh, e.pathId, firstLabel e.labels⟩
/-- the message without a prefix, `P:1656-1668` and `P:1808-1820` -/
def noRoute (log : LogType) (f : UInt16 × UInt8) (rd : Option Text × Option RdOrigin) : Route := ⟨log, f.1, f.2, none, rd.1, rd.2, none, none, none⟩

/-- `LabeledNextHop::next_hop`, `crates/bgp-pkt/src/nlri/nlri.rs:202-207` -/
def hopOf : LabeledNextHop → IpAddr
  | .v4 _ a => .v4 a
  | .v6 _ a _ => .v6 a

/-- `MpReach::afi` and `safi`, `P:1501-1502` -/
def reachFamily : MpReach → UInt16 × UInt8
  | .unknown a s _ => (a.1, s.1)
  | .uni4 .. => (1, 1) | .multi4 .. => (1, 2) | .labels4 .. => (1, 4) | .vpn4 .. => (1, 128)
  | .uni6 .. => (2, 1) | .multi6 .. => (2, 2) | .labels6 .. => (2, 4) | .vpn6 .. => (2, 128)
  | .evpn .. => (25, 70) | .rtm .. => (1, 132) | .ls .. => (16388, 71) | .lsVpn .. => (16388, 72)

/-- the messages of `MP_REACH_NLRI`, `P:1500-1671` -/
def reachMsgs (sh : Shown) (rd : Option Text × Option RdOrigin) (r : MpReach) : List Route :=
  let f := reachFamily r
  match r with
  | .uni4 nh _ l => l.map (netRoute sh .update f rd (some (sh.ip nh)))
  | .multi4 nh _ l => l.map (netRoute sh .update f rd (some (sh.ip nh)))
  | .labels4 nh _ l => l.map (labelRoute sh .update f rd (some (sh.ip nh)))
  | .vpn4 nh l => l.map (vpnRoute sh .update f (some (sh.ip (hopOf nh))))
  | .uni6 g _ l => l.map (netRoute sh .update f rd (some (sh.ip6 g)))
  | .multi6 g _ l => l.map (netRoute sh .update f rd (some (sh.ip6 g)))
  | .labels6 nh _ l => l.map (labelRoute sh .update f rd (some (sh.ip nh)))
  | .vpn6 nh l => l.map (vpnRoute sh .update f (some (sh.ip (hopOf nh))))
  | _ => [noRoute .update f rd]

/-- the messages of `MP_UNREACH_NLRI`, `P:1674-1823` -/
def unreachMsgs (sh : Shown) (rd : Option Text × Option RdOrigin) (r : MpUnreach) : List Route :=
  match r with
  | .unknown a s _ => [noRoute .withdraw (a.1, s.1) rd]
  | .known l =>
    let f := (l.family.afi, l.family.safi)
    match l with
    | .uni4 l | .multi4 l | .uni6 l | .multi6 l => l.map (netRoute sh .withdraw f rd none)
    | .labels4 l | .labels6 l => l.map (labelRoute sh .withdraw f rd none)
    | .vpn4 l | .vpn6 l => l.map (vpnRoute sh .withdraw f none)
    | _ => [noRoute .withdraw f rd]

/-- what is published of the routes of an update, `P:1449-1826` -/
def routesOf (sh : Shown) (h : PeerHeader) (u : Update) : List Route :=
  let rd := rdAndOrigin h.rd .bmp
  let a := attrsOf sh u
  match Speaker.endOfRib u with
  | some t => [noRoute .endOfRib (t.afi, t.safi) rd]
  | none =>
    u.withdrawn.map (netRoute sh .withdraw (1, 1) rd none) ++ (u.nlri.map (netRoute sh .update (1, 1) rd a.nextHop) ++
      ((match a.reach with | some r => reachMsgs sh rd r | none => []) ++ (match a.unreach with | some r => unreachMsgs sh rd r | none => [])))

/-- `convert_route_monitoring`, `P:1287-1828`; the route distinguisher of a message is the one of its route -/
def convRoutes (sh : Shown) (x : Ctx) (h : PeerHeader) (m : Msg) : Except ConvErr (List PMsg) :=
  match m with
  | .update u =>
    match headerTime h with
    | .error e => .error e
    | .ok t => .ok ((routesOf sh h u).map fun r => .route (commonOf sh x .routeMonitor t none) (peerPart sh h) r (sharedOf (attrsOf sh u)))
  | _ => .ok []

/-- the arms of `try_from_bmp_request` that versions 3 and 4 have in common, `P:1848-1888` and `P:1889-1931` -/
def convRest (sh : Shown) (x : Ctx) : Value R D → Except ConvErr (List PMsg)
  | .stats m => convStats sh x m
  | .peerUp m => (convUp sh x m).map fun m => [m]
  | .initiation l => .ok [convInit sh x l]
  | .termination l => .ok [convTerm sh x l]
  | .mirroring _ => .error .unsupported
  | .experimental .. => .error .unsupported
  | .routeMonitoring _ | .peerDown _ => .ok []

/-- `try_from_bmp_request`, `P:1842-1933` -/
def convert (sh : Shown) (x : Ctx) : BmpMsg → Except ConvErr (List PMsg)
  | .v3 (.routeMonitoring m) => convRoutes sh x m.header m.msg
  | .v4 (.routeMonitoring m) => convRoutes sh x m.header m.pdu
  | .v3 (.peerDown m) => (convDown sh x m.header m.reason).map fun m => [m]
  | .v4 (.peerDown m) => (convDown sh x m.header m.reason).map fun m => [m]
  | .v3 v => convRest sh x v
  | .v4 v => convRest sh x v

end Verif.Pmacct
