import Verif.Core.Prefix
import Verif.Core.Reader
import Verif.Core.RoundTrip
/-!
# Network-layer reachability information (all families but BGP-LS)

`crates/bgp-pkt/src/nlri/nlri.rs`, `wire/deserializer/nlri/nlri.rs`, `wire/serializer/nlri/nlri.rs`. The IPv4 and IPv6
versions of a type are one model type parametrised by the address width `w` (4 or 16 octets). The nesting of the error
enums (which wrapper an error travels in) is dropped: `NlriError` keeps the payloads. The `count_*` helpers compute
capacity hints only and are not modelled. `u8` arithmetic that overflows is a panic (builds with overflow checks).
-/
namespace Verif.Bgp
open Verif Parser

/-- the payloads of the `…ParsingError` enums of `wire/deserializer/nlri/nlri.rs` -/
inductive NlriError where
  | parse (e : ParseError)
  | rdType (offset : Nat) (code : UInt16)
  | leafAd (offset : Nat) (num1 : UInt16) (num2 : UInt32)
  | pfx (e : PrefixError)
  | invalidNetwork (offset : Nat) (net : Net)
  | invalidLength (offset : Nat) (len : UInt8)
  | macLength (offset : Nat) (len : UInt8)
  | ipLength (offset : Nat) (len : UInt8)
  | bufferLength (offset len : Nat)
  | labelsLength (offset n : Nat)
  deriving DecidableEq, Repr

/-- `RouteDistinguisher`, `nlri/nlri.rs:59-82` -/
inductive Rd where
  | as2 (asn : UInt16) (number : UInt32)
  | ipv4 (ip : UInt32) (number : UInt16)
  | as4 (asn : UInt32) (number : UInt16)
  | leafAd
  deriving DecidableEq, Repr

/-- the arms of `wire/deserializer/nlri/nlri.rs:79-105`; `RouteDistinguisherTypeCode`, `iana.rs:684-690` -/
def rdBody (offset : Nat) (t : UInt16) : Parser NlriError Rd :=
  if t = 0 then do
    let a ← mapErr NlriError.parse readU16
    let n ← mapErr NlriError.parse readU32
    pure (.as2 a n)
  else if t = 1 then do
    let a ← mapErr NlriError.parse readU32
    let n ← mapErr NlriError.parse readU16
    pure (.ipv4 a n)
  else if t = 2 then do
    let a ← mapErr NlriError.parse readU32
    let n ← mapErr NlriError.parse readU16
    pure (.as4 a n)
  else if t = 65535 then do
    let a ← mapErr NlriError.parse readU16
    let n ← mapErr NlriError.parse readU32
    if a ≠ 65535 ∨ n ≠ 4294967295 then fail (.leafAd offset a n) else pure .leafAd
  else fail (.rdType offset t)

/-- `wire/deserializer/nlri/nlri.rs:67-107` -/
def parseRd : Parser NlriError Rd := do
  let offset ← getOffset
  let t ← mapErr NlriError.parse readU16
  rdBody offset t

/-- `impl From<RouteDistinguisher> for u64`, `nlri/nlri.rs:106-131` -/
def Rd.toU64 : Rd → UInt64
  | .as2 a n => ((0 : UInt64) <<< 48) ||| (a.toUInt64 <<< 32) ||| n.toUInt64
  | .ipv4 a n => ((1 : UInt64) <<< 48) ||| (a.toUInt64 <<< 16) ||| n.toUInt64
  | .as4 a n => ((2 : UInt64) <<< 48) ||| (a.toUInt64 <<< 16) ||| n.toUInt64
  | .leafAd => 18446744073709551615

/-- `wire/serializer/nlri/nlri.rs:48-51` -/
def Rd.write (r : Rd) : Bytes := u64be r.toU64

/-- `MplsLabel::is_bottom`, `nlri/nlri.rs:45-47` -/
def labelBottom (l : Bytes) : Bool := l.getD 2 0 &&& 0x01 == 0x01
/-- `MplsLabel::is_unreach_compatibility`, `nlri/nlri.rs:48-50` -/
def labelUnreach (l : Bytes) : Bool := l.getD 0 0 == 0x80 && l.getD 1 0 == 0 && l.getD 2 0 == 0
/-- the loop's stop condition, `wire/deserializer/nlri/nlri.rs:1251` -/
def labelStop (un : Bool) (l : Bytes) : Bool := labelBottom l || (un && labelUnreach l)
/-- the limit after one more label, `wire/deserializer/nlri/nlri.rs:1248-1250`: 255 means no limit -/
def labelDec (lim : UInt8) : UInt8 := if lim = 255 then lim else lim - 1

/-- the loop of `parse_mpls_label_stack`, `wire/deserializer/nlri/nlri.rs:1245-1253`, with a bound on its iterations
that is never reached (`labelLoop_fuel`) -/
def labelLoop (un : Bool) : Nat → UInt8 → Parser ParseError (List Bytes)
  | 0, _ => fun r => (.fault .hang, r)
  | n + 1, lim =>
    if lim = 0 then pure []
    else do
      let l ← readArray 3
      if labelStop un l then pure [l]
      else do
        let rest ← labelLoop un n (labelDec lim)
        pure (l :: rest)

/-- `parse_mpls_label_stack`, `wire/deserializer/nlri/nlri.rs:1238-1255` -/
def parseLabels (un : Bool) (lim : UInt8) : Parser ParseError (List Bytes) := do
  let n ← getRemaining
  labelLoop un (n + 1) lim

/-- `if add_path { Some(cur.read_u32_be()?) } else { None }`, e.g. `wire/deserializer/nlri/nlri.rs:403-407` -/
def parsePathId (addPath : Bool) : Parser NlriError (Option UInt32) :=
  if addPath then some <$> mapErr NlriError.parse readU32 else pure none

/-- `if let Some(path_id) = self.path_id() { .. }`, e.g. `wire/serializer/nlri/nlri.rs:199-201` -/
def writePathId : Option UInt32 → Bytes
  | some i => u32be i
  | none => []
/-- `self.path_id().map_or(0, |_| 4)` -/
def lenPathId (p : Option UInt32) : Nat := if p.isSome then 4 else 0

/-! ## Plain prefixes -/

/-- `Ipv4Addr::is_multicast` (224.0.0.0/4) -/
def isMulticast4 (o : Bytes) : Bool := 224 ≤ (o.headD 0).toNat && (o.headD 0).toNat ≤ 239
/-- `Ipv4Addr::is_broadcast` -/
def isBroadcast4 (o : Bytes) : Bool := o == [255, 255, 255, 255]
/-- `Ipv6Addr::is_multicast` (ff00::/8) -/
def isMulticast6 (o : Bytes) : Bool := o.headD 0 == 0xff

/-- `ipnet::Ipv4Net::hosts().last()`: the broadcast address of a /31 or /32, the address before it otherwise -/
def lastHost4 (n : Net) : Bytes :=
  if n.plen.toNat < 31 then u32be (u32of n.broadcast - 1) else n.broadcast

/-- `Ipv4Unicast::from_net`, `nlri/nlri.rs:241-251` -/
def uni4Ok (n : Net) : Bool :=
  !(isBroadcast4 n.octets || isMulticast4 n.octets) && !(isBroadcast4 (lastHost4 n) || isMulticast4 (lastHost4 n))
/-- `Ipv4Multicast::from_net`, `nlri/nlri.rs:386-391` -/
def multi4Ok (n : Net) : Bool := isMulticast4 n.octets
/-- `Ipv6Unicast::from_net`, `nlri/nlri.rs:465-470` -/
def uni6Ok (n : Net) : Bool := !isMulticast6 n.octets
/-- `Ipv6Multicast::from_net`, `nlri/nlri.rs:598-608`; `ipnet::Ipv6Net::hosts()` ends at the broadcast address -/
def multi6Ok (n : Net) : Bool := isMulticast6 n.octets && isMulticast6 n.broadcast

/-- `Ipv4UnicastAddress`, `Ipv4MulticastAddress`, `Ipv6UnicastAddress`, `Ipv6MulticastAddress`:
`nlri/nlri.rs:270-273, 410-413, 489-492, 627-630` -/
structure NetAddr where
  pathId : Option UInt32
  net : Net
  deriving DecidableEq, Repr

/-- `ParseFrom for Ipv4Unicast` etc., `wire/deserializer/nlri/nlri.rs:358-371, 422-431, 464-473, 525-538`; `ok` is the
type's `from_net` check -/
def parseCheckedNet (w : Nat) (ok : Net → Bool) : Parser NlriError Net := do
  let offset ← getOffset
  let n ← mapErr NlriError.pfx (parseNet w)
  if ok n then pure n else fail (.invalidNetwork offset n)

/-- `ParseFromWithTwoInputs for Ipv6Unicast`, `Ipv4Unicast`, `wire/deserializer/nlri/nlri.rs:373-389, 475-492` -/
def parseCheckedNetBody (w : Nat) (ok : Net → Bool) (plen : UInt8) (offset : Nat) : Parser NlriError Net := do
  let n ← mapErr NlriError.pfx (parseNetBody w plen offset)
  if ok n then pure n else fail (.invalidNetwork offset n)

/-- `wire/deserializer/nlri/nlri.rs:400-411, 442-453, 503-514, 549-560` -/
def parseNetAddr (w : Nat) (ok : Net → Bool) (addPath : Bool) : Parser NlriError NetAddr := do
  let p ← parsePathId addPath
  let n ← parseCheckedNet w ok
  pure ⟨p, n⟩

/-- `wire/serializer/nlri/nlri.rs:191-205, 240-254, 335-349, 384-398` -/
def NetAddr.write (a : NetAddr) : Bytes := writePathId a.pathId ++ writeNet a.net
def NetAddr.len (a : NetAddr) : Nat := lenPathId a.pathId + lenNet a.net

/-! ## MPLS VPN and labeled unicast -/

/-- `Ipv4MplsVpnUnicastAddress`, `Ipv6MplsVpnUnicastAddress`: `nlri/nlri.rs:305-310, 517-522` -/
structure VpnAddr where
  pathId : Option UInt32
  rd : Rd
  labels : List Bytes
  net : Net
  deriving DecidableEq, Repr

/-- the octets taken for a labeled prefix, e.g. `wire/deserializer/nlri/nlri.rs:226-230` -/
def labeledOctets (plen : UInt8) : Nat := if plen.toNat > 255 - 7 then 255 else roundLen plen

/-- the part of the VPN parsers that runs on the slice, `wire/deserializer/nlri/nlri.rs:234-259`, `311-336`.
`RD_LEN * 8 + label_stack.len() as u8 * MPLS_LABEL_LEN_BITS` is computed in `u8`. -/
def vpnBody (w : Nat) (ok : Net → Bool) (un : Bool) (lim : UInt8) (offset : Nat) (plen : UInt8) :
    Parser NlriError (Rd × List Bytes × Net) := do
  let labels ← mapErr NlriError.parse (parseLabels un lim)
  let rd ← parseRd
  if 255 < 64 + (labels.length % 256) * 24 then panic
  else do
    let read := 64 + (labels.length % 256) * 24
    if plen.toNat < read then fail (.invalidLength offset plen)
    else do
      let n ← parseCheckedNetBody w ok (plen - UInt8.ofNat read) offset
      let e ← isEmpty
      if e then pure (rd, labels, n) else fail (.invalidLength offset plen)

/-- `wire/deserializer/nlri/nlri.rs:211-267` (`w = 4`), `287-344` (`w = 16`) -/
def parseVpnAddr (w : Nat) (ok : Net → Bool) (addPath un : Bool) (lim : UInt8) : Parser NlriError VpnAddr := do
  let p ← parsePathId addPath
  let offset ← getOffset
  let plen ← mapErr NlriError.parse readU8
  let s ← mapErr NlriError.parse (takeSlice (labeledOctets plen))
  let (v, _) ← onSub s (vpnBody w ok un lim offset plen)
  pure ⟨p, v.1, v.2.1, v.2.2⟩

/-- `wire/serializer/nlri/nlri.rs:283-299, 427-443`: the length octet counts bits and is truncated to `u8` -/
def VpnAddr.write (a : VpnAddr) : Bytes :=
  writePathId a.pathId ++ (UInt8.ofNat (8 * 8 + a.labels.length * 3 * 8 + a.net.plen.toNat) ::
    (a.labels.flatten ++ (a.rd.write ++ a.net.network.take (lenNet a.net - 1))))
/-- `wire/serializer/nlri/nlri.rs:275-281, 419-425` -/
def VpnAddr.len (a : VpnAddr) : Nat := lenPathId a.pathId + 8 + lenNet a.net + (a.labels.map fun _ => 3).sum

/-- `Ipv4NlriMplsLabelsAddress`, `Ipv6NlriMplsLabelsAddress`: `nlri/nlri.rs:1275-1279, 1376-1380` -/
structure LabeledAddr where
  pathId : Option UInt32
  labels : List Bytes
  net : Net
  deriving DecidableEq, Repr

/-- the part of the labeled-unicast parsers that runs on the slice, `wire/deserializer/nlri/nlri.rs:1117-1139`,
`1186-1207`: `offset2` is the offset reported for the prefix (the IPv4 parser re-reads `cur.offset()` after the slice). The
octets left in the slice are not looked at. -/
def labeledBody (w : Nat) (un : Bool) (lim : UInt8) (offset offset2 : Nat) (plen : UInt8) :
    Parser NlriError (List Bytes × Net) := do
  let labels ← mapErr NlriError.parse (parseLabels un lim)
  if 255 < 24 * (labels.length % 256) then panic
  else if plen.toNat < 24 * (labels.length % 256) then fail (.invalidLength offset plen)
  else do
    let n ← mapErr NlriError.pfx (parseNetBody w (plen - UInt8.ofNat (24 * (labels.length % 256))) offset2)
    if labels.length * 24 + n.plen.toNat > 255 then fail (.labelsLength offset2 labels.length)
    else pure (labels, n)

/-- `wire/deserializer/nlri/nlri.rs:1096-1141` (`w = 4`), `1164-1209` (`w = 16`) -/
def parseLabeledAddr (w : Nat) (addPath un : Bool) (lim : UInt8) : Parser NlriError LabeledAddr := do
  let p ← parsePathId addPath
  let offset ← getOffset
  let plen ← mapErr NlriError.parse readU8
  let s ← mapErr NlriError.parse (takeSlice (labeledOctets plen))
  let after ← getOffset
  let (v, _) ← onSub s (labeledBody w un lim offset (if w = 4 then after else offset) plen)
  pure ⟨p, v.1, v.2⟩

/-- `wire/serializer/nlri/nlri.rs:982-997, 1024-1039`: the path id is not written. The branch refusing more than 255
bits is unreachable: the type's constructor (`nlri/nlri.rs:1283-1302, 1384-1403`) refuses the same. -/
def LabeledAddr.write (a : LabeledAddr) : Bytes :=
  UInt8.ofNat (a.labels.length * 24 + a.net.plen.toNat) ::
    (a.labels.flatten ++ a.net.network.take (roundLen a.net.plen))
/-- `wire/serializer/nlri/nlri.rs:976-980, 1018-1022` -/
def LabeledAddr.len (a : LabeledAddr) : Nat := 1 + (a.labels.map fun _ => 3).sum + roundLen a.net.plen

/-! ## Labeled next hop -/

/-- `LabeledNextHop`, `nlri/nlri.rs:136-199` -/
inductive LabeledNextHop where
  | v4 (rd : Rd) (ip : UInt32)
  | v6 (rd : Rd) (ip : BitVec 128) (localAddr : Option (BitVec 128))
  deriving DecidableEq, Repr

/-- the arms of `wire/deserializer/nlri/nlri.rs:178-189`, with `118-126` and `137-152` -/
def labeledNextHopBody (offset : Nat) (l : UInt8) : Parser NlriError LabeledNextHop :=
  if l = 12 then do
    let rd ← parseRd
    let a ← mapErr NlriError.parse readU32
    pure (.v4 rd a)
  else if l = 24 then do
    let rd ← parseRd
    let a ← mapErr NlriError.parse readU128
    let n ← getRemaining
    if n = 16 then do
      let b ← mapErr NlriError.parse readU128
      pure (.v6 rd a (some b))
    else pure (.v6 rd a none)
  else fail (.invalidLength offset l)

/-- `wire/deserializer/nlri/nlri.rs:171-191` -/
def parseLabeledNextHop : Parser NlriError LabeledNextHop := do
  let offset ← getOffset
  let l ← mapErr NlriError.parse readU8
  let s ← mapErr NlriError.parse (takeSlice l.toNat)
  let (v, _) ← onSub s (labeledNextHopBody offset l)
  pure v

/-- `wire/serializer/nlri/nlri.rs:92-96, 116-120, 148-155`: the link-local address is not written -/
def LabeledNextHop.write : LabeledNextHop → Bytes
  | .v4 rd a => 12 :: (rd.write ++ u32be a)
  | .v6 rd a _ => 24 :: (rd.write ++ u128be a)
/-- `wire/serializer/nlri/nlri.rs:140-146` -/
def LabeledNextHop.len : LabeledNextHop → Nat
  | .v4 .. => 1 + 12
  | .v6 .. => 1 + 24

/-! ## EVPN -/

/-- `L2EvpnRoute`, `nlri/nlri.rs:739-746`, with the route types of `784-1160`: the arguments of a constructor are the
fields of the struct in order -/
inductive EvpnRoute where
  | autoDiscovery (rd : Rd) (esi : Bytes) (tag : UInt32) (label : Bytes)
  | macIp (rd : Rd) (esi : Bytes) (tag : UInt32) (mac : Bytes) (ip : Option IpAddr) (label1 : Bytes)
      (label2 : Option Bytes)
  | inclusiveMulticast (rd : Rd) (tag : UInt32) (ip : IpAddr)
  | ethernetSegment (rd : Rd) (esi : Bytes) (ip : IpAddr)
  | ipPrefix4 (rd : Rd) (esi : Bytes) (tag : UInt32) (net : Net) (gateway : UInt32) (label : Bytes)
  | ipPrefix6 (rd : Rd) (esi : Bytes) (tag : UInt32) (net : Net) (gateway : BitVec 128) (label : Bytes)
  | unknown (code : UInt8) (value : Bytes)
  deriving DecidableEq, Repr

/-- `match ip_len { 32 => .., 128 => .., _ => Err }`, `wire/deserializer/nlri/nlri.rs:741-760, 788-807` -/
def parseIpBits : Parser NlriError IpAddr := do
  let offset ← getOffset
  let l ← mapErr NlriError.parse readU8
  if l = 32 then do
    let a ← mapErr NlriError.parse readU32
    pure (.v4 a)
  else if l = 128 then do
    let a ← mapErr NlriError.parse readU128
    pure (.v6 a)
  else fail (.ipLength offset l)

/-- the same with 0 for no address, `wire/deserializer/nlri/nlri.rs:679-699` -/
def parseIpBitsOpt : Parser NlriError (Option IpAddr) := do
  let offset ← getOffset
  let l ← mapErr NlriError.parse readU8
  if l = 0 then pure none
  else if l = 32 then do
    let a ← mapErr NlriError.parse readU32
    pure (some (.v4 a))
  else if l = 128 then do
    let a ← mapErr NlriError.parse readU128
    pure (some (.v6 a))
  else fail (.ipLength offset l)

/-- `wire/deserializer/nlri/nlri.rs:621-630` -/
def parseAutoDiscovery : Parser NlriError EvpnRoute := do
  let rd ← parseRd
  let esi ← mapErr NlriError.parse (readArray 10)
  let tag ← mapErr NlriError.parse readU32
  let l ← mapErr NlriError.parse (readArray 3)
  pure (.autoDiscovery rd esi tag l)

/-- `wire/deserializer/nlri/nlri.rs:702-706`: a second label iff octets are left -/
def parseOptLabel : Parser NlriError (Option Bytes) := do
  let e ← isEmpty
  if e then pure none
  else some <$> mapErr NlriError.parse (readArray 3)

/-- `wire/deserializer/nlri/nlri.rs:663-717` -/
def parseMacIp : Parser NlriError EvpnRoute := do
  let rd ← parseRd
  let esi ← mapErr NlriError.parse (readArray 10)
  let tag ← mapErr NlriError.parse readU32
  let offset ← getOffset
  let ml ← mapErr NlriError.parse readU8
  if ml ≠ 48 then fail (.macLength offset ml)
  else do
    let mac ← mapErr NlriError.parse (readArray 6)
    let ip ← parseIpBitsOpt
    let l1 ← mapErr NlriError.parse (readArray 3)
    let l2 ← parseOptLabel
    pure (.macIp rd esi tag mac ip l1 l2)

/-- `wire/deserializer/nlri/nlri.rs:736-763` -/
def parseInclusiveMulticast : Parser NlriError EvpnRoute := do
  let rd ← parseRd
  let tag ← mapErr NlriError.parse readU32
  let ip ← parseIpBits
  pure (.inclusiveMulticast rd tag ip)

/-- `wire/deserializer/nlri/nlri.rs:782-810` -/
def parseEthernetSegment : Parser NlriError EvpnRoute := do
  let rd ← parseRd
  let esi ← mapErr NlriError.parse (readArray 10)
  let ip ← parseIpBits
  pure (.ethernetSegment rd esi ip)

/-- `wire/deserializer/nlri/nlri.rs:913-937` -/
def parseIpPrefix4 : Parser NlriError EvpnRoute := do
  let rd ← parseRd
  let esi ← mapErr NlriError.parse (readArray 10)
  let tag ← mapErr NlriError.parse readU32
  let offset ← getOffset
  let plen ← mapErr NlriError.parse readU8
  let a ← mapErr NlriError.parse (readArray 4)
  if 32 < plen.toNat then fail (.pfx (.invalidPrefixLen offset plen))
  else do
    let g ← mapErr NlriError.parse readU32
    let l ← mapErr NlriError.parse (readArray 3)
    pure (.ipPrefix4 rd esi tag ⟨a, plen⟩ g l)

/-- `wire/deserializer/nlri/nlri.rs:960-984` -/
def parseIpPrefix6 : Parser NlriError EvpnRoute := do
  let rd ← parseRd
  let esi ← mapErr NlriError.parse (readArray 10)
  let tag ← mapErr NlriError.parse readU32
  let offset ← getOffset
  let plen ← mapErr NlriError.parse readU8
  let a ← mapErr NlriError.parse (readArray 16)
  if 128 < plen.toNat then fail (.pfx (.invalidPrefixLen offset plen))
  else do
    let g ← mapErr NlriError.parse readU128
    let l ← mapErr NlriError.parse (readArray 3)
    pure (.ipPrefix6 rd esi tag ⟨a, plen⟩ g l)

/-- `wire/deserializer/nlri/nlri.rs:1000-1019` -/
def parseIpPrefixRoute : Parser NlriError EvpnRoute := do
  let offset ← getOffset
  let n ← getRemaining
  if n = 34 then parseIpPrefix4
  else if n = 58 then parseIpPrefix6
  else fail (.bufferLength offset n)

/-- the arms of `wire/deserializer/nlri/nlri.rs:840-865` -/
def evpnBody (code : UInt8) : Parser NlriError EvpnRoute :=
  if code = 1 then parseAutoDiscovery
  else if code = 2 then parseMacIp
  else if code = 3 then parseInclusiveMulticast
  else if code = 4 then parseEthernetSegment
  else if code = 5 then parseIpPrefixRoute
  else do
    let n ← getRemaining
    let v ← mapErr NlriError.parse (readBytes n)
    pure (.unknown code v)

/-- `wire/deserializer/nlri/nlri.rs:833-868`: what a route leaves of its slice is dropped -/
def parseEvpnRoute : Parser NlriError EvpnRoute := do
  let code ← mapErr NlriError.parse readU8
  let l ← mapErr NlriError.parse readU8
  let s ← mapErr NlriError.parse (takeSlice l.toNat)
  let (v, _) ← onSub s (evpnBody code)
  pure v

/-- `L2EvpnAddress`, `nlri/nlri.rs:717-720` -/
structure EvpnAddr where
  pathId : Option UInt32
  route : EvpnRoute
  deriving DecidableEq, Repr

/-- `wire/deserializer/nlri/nlri.rs:879-890` -/
def parseEvpnAddr (addPath : Bool) : Parser NlriError EvpnAddr := do
  let p ← parsePathId addPath
  let r ← parseEvpnRoute
  pure ⟨p, r⟩

/-- `wire/serializer/nlri/nlri.rs:645-654, 690-699` -/
def writeIpBits : IpAddr → Bytes
  | .v4 a => 32 :: u32be a
  | .v6 a => 128 :: u128be a

/-- `wire/serializer/nlri/nlri.rs:590-600` -/
def writeIpBitsOpt : Option IpAddr → Bytes
  | none => [0]
  | some a => writeIpBits a

/-- `route_type()`, `nlri/nlri.rs:749-760`, as the octet written (`wire/serializer/nlri/nlri.rs:745-748`) -/
def EvpnRoute.code : EvpnRoute → UInt8
  | .autoDiscovery .. => 1
  | .macIp .. => 2
  | .inclusiveMulticast .. => 3
  | .ethernetSegment .. => 4
  | .ipPrefix4 .. => 5
  | .ipPrefix6 .. => 5
  | .unknown c _ => c

/-- the route writers: `wire/serializer/nlri/nlri.rs:532-538, 584-606, 639-656, 687-701, 817-826, 856-865` -/
def EvpnRoute.body : EvpnRoute → Bytes
  | .autoDiscovery rd esi tag l => rd.write ++ (esi ++ (u32be tag ++ l))
  | .macIp rd esi tag mac ip l1 l2 =>
    rd.write ++ (esi ++ (u32be tag ++ (48 :: (mac ++ (writeIpBitsOpt ip ++ (l1 ++ l2.getD []))))))
  | .inclusiveMulticast rd tag ip => rd.write ++ (u32be tag ++ writeIpBits ip)
  | .ethernetSegment rd esi ip => rd.write ++ (esi ++ writeIpBits ip)
  | .ipPrefix4 rd esi tag n g l => rd.write ++ (esi ++ (u32be tag ++ (n.plen :: (n.network ++ (u32be g ++ l)))))
  | .ipPrefix6 rd esi tag n g l => rd.write ++ (esi ++ (u32be tag ++ (n.plen :: (n.network ++ (u128be g ++ l)))))
  | .unknown _ v => v

/-- 4 or 16, `wire/serializer/nlri/nlri.rs:573-579` etc. -/
def lenIpBits : IpAddr → Nat
  | .v4 _ => 4
  | .v6 _ => 16

/-- the `len()` of the route types: `wire/serializer/nlri/nlri.rs:524-530, 567-582, 628-637, 676-685, 813-815, 852-854` -/
def EvpnRoute.bodyLen : EvpnRoute → Nat
  | .autoDiscovery .. => 8 + 10 + 4 + 3
  | .macIp _ _ _ _ ip _ l2 => 2 + 8 + 10 + 4 + 6 + (match ip with | none => 0 | some a => lenIpBits a) + 3 +
      (match l2 with | none => 0 | some _ => 3)
  | .inclusiveMulticast _ _ ip => 1 + 8 + 4 + lenIpBits ip
  | .ethernetSegment _ _ ip => 1 + 8 + 10 + lenIpBits ip
  | .ipPrefix4 .. => 12 + 8 + 10 + 4
  | .ipPrefix6 .. => 36 + 8 + 10 + 4
  | .unknown _ v => v.length

/-- `wire/serializer/nlri/nlri.rs:744-761` -/
def EvpnRoute.write (r : EvpnRoute) : Bytes := r.code :: UInt8.ofNat (2 + r.bodyLen - 2) :: r.body
/-- `wire/serializer/nlri/nlri.rs:732-742` -/
def EvpnRoute.len (r : EvpnRoute) : Nat := 2 + r.bodyLen

/-- `wire/serializer/nlri/nlri.rs:774-788` -/
def EvpnAddr.write (a : EvpnAddr) : Bytes := writePathId a.pathId ++ a.route.write
def EvpnAddr.len (a : EvpnAddr) : Nat := lenPathId a.pathId + a.route.len

/-! ## Route target membership -/

/-- `RouteTargetMembershipAddress`, `nlri/nlri.rs:1162-1201` -/
structure RtmAddr where
  pathId : Option UInt32
  membership : Option (UInt32 × Bytes)
  deriving DecidableEq, Repr

/-- `wire/deserializer/nlri/nlri.rs:1035-1058` and `1066-1073` (`prefix_len - 32` cannot underflow here) -/
def parseRtmAddr (addPath : Bool) : Parser NlriError RtmAddr := do
  let p ← parsePathId addPath
  let offset ← getOffset
  let plen ← mapErr NlriError.parse readU8
  if plen = 0 then pure ⟨p, none⟩
  else if ¬ (32 ≤ plen.toNat ∧ plen.toNat ≤ 96) then fail (.invalidLength offset plen)
  else do
    let asn ← mapErr NlriError.parse readU32
    let rt ← mapErr NlriError.parse (readBytes ((plen.toNat - 32) / 8))
    pure ⟨p, some (asn, rt)⟩

/-- `wire/serializer/nlri/nlri.rs:917-933, 951-955` -/
def RtmAddr.write (a : RtmAddr) : Bytes :=
  writePathId a.pathId ++
    match a.membership with
    | some (asn, rt) => UInt8.ofNat ((4 + rt.length) * 8) :: (u32be asn ++ rt)
    | none => [0]
/-- `wire/serializer/nlri/nlri.rs:911-915, 947-949` -/
def RtmAddr.len (a : RtmAddr) : Nat :=
  1 + lenPathId a.pathId + match a.membership with | some (_, rt) => 4 + rt.length | none => 0

end Verif.Bgp
