import Verif.Bgp.NlriLemmas
import Verif.Bgp.Community
import Verif.Bgp.LsAttr
import Verif.Bgp.Sid
/-!
# BGP path attributes

`T` is `crates/bgp-pkt/src/path_attribute/path_attribute.rs`,
`D` is `crates/bgp-pkt/src/wire/deserializer/path_attribute/path_attribute.rs`,
`S` is `crates/bgp-pkt/src/wire/serializer/path_attribute/path_attribute.rs`.

The capacity hints of D:673-720 have no observable effect and are left out. `Box<[T]>` is a list. The error
enums of D keep their variants; the per-address-family variants `Ipv4UnicastAddressError(..)`, … are one
constructor indexed by the address type.
-/
namespace Verif.Bgp
open Verif Parser

/-! ## Values -/

/-- `Origin`, T:324-328 -/
inductive Origin where
  | igp | egp | incomplete
  deriving DecidableEq, Repr

/-- `Origin as u8`, T:344-348 -/
def Origin.code : Origin → UInt8 | igp => 0 | egp => 1 | incomplete => 2
/-- `TryFrom<u8> for Origin`, T:357-366 -/
def Origin.ofCode (c : UInt8) : Option Origin :=
  if c = 0 then some igp else if c = 1 then some egp else if c = 2 then some incomplete else none

/-- `AsPathSegmentType`, T:439-442: confederation segments (3, 4) are not defined -/
inductive SegType where
  | set | sequence
  deriving DecidableEq, Repr

/-- T:444-448 -/
def SegType.code : SegType → UInt8 | set => 1 | sequence => 2
/-- T:457-466 -/
def SegType.ofCode (c : UInt8) : Option SegType :=
  if c = 1 then some set else if c = 2 then some sequence else none

/-- `As2PathSegment` (`α = UInt16`), T:487-490; `As4PathSegment` (`α = UInt32`), T:514-517 -/
structure Seg (α : Type) where
  type : SegType
  asns : List α
  deriving DecidableEq, Repr

/-- `AsPath`, T:375-378 -/
inductive AsPath where
  | as2 (l : List (Seg UInt16))
  | as4 (l : List (Seg UInt32))
  deriving DecidableEq, Repr

/-- `Aggregator`, T:708-758 -/
inductive Aggregator where
  | as2 (asn : UInt16) (origin : UInt32)
  | as4 (asn : UInt32) (origin : UInt32)
  deriving DecidableEq, Repr

/-- the NLRI lists of `MpReach` (T:1043-1110) and `MpUnreach` (T:1205-1250), by address family -/
inductive NlriList where
  | uni4 (l : List NetAddr)
  | multi4 (l : List NetAddr)
  | labels4 (l : List LabeledAddr)
  | vpn4 (l : List VpnAddr)
  | uni6 (l : List NetAddr)
  | multi6 (l : List NetAddr)
  | labels6 (l : List LabeledAddr)
  | vpn6 (l : List VpnAddr)
  | evpn (l : List EvpnAddr)
  | rtm (l : List RtmAddr)
  | ls (l : List LsNlri)
  | lsVpn (l : List LsVpnNlri)
  deriving DecidableEq, Repr

/-- `address_type()`, T:1117-1136 and T:1258-1277 -/
def NlriList.family : NlriList → AddressType
  | uni4 _ => .ipv4Unicast | multi4 _ => .ipv4Multicast | labels4 _ => .ipv4NlriMplsLabels
  | vpn4 _ => .ipv4MplsLabeledVpn | uni6 _ => .ipv6Unicast | multi6 _ => .ipv6Multicast
  | labels6 _ => .ipv6NlriMplsLabels | vpn6 _ => .ipv6MplsLabeledVpn | evpn _ => .l2VpnBgpEvpn
  | rtm _ => .routeTargetConstrains | ls _ => .bgpLs | lsVpn _ => .bgpLsVpn

/-- `MpUnreach`, T:1205-1250: one variant per address family, and `Unknown` -/
inductive MpUnreach where
  | known (nlri : NlriList)
  | unknown (afi : Afi) (safi : Safi) (nlri : Bytes)
  deriving DecidableEq, Repr

/-- `MpReach`, T:1043-1110: the next hop of a variant depends on the family -/
inductive MpReach where
  | uni4 (nh : IpAddr) (loc : Option (BitVec 128)) (l : List NetAddr)
  | multi4 (nh : IpAddr) (loc : Option (BitVec 128)) (l : List NetAddr)
  | labels4 (nh : IpAddr) (loc : Option (BitVec 128)) (l : List LabeledAddr)
  | vpn4 (nh : LabeledNextHop) (l : List VpnAddr)
  | uni6 (glob : BitVec 128) (loc : Option (BitVec 128)) (l : List NetAddr)
  | multi6 (glob : BitVec 128) (loc : Option (BitVec 128)) (l : List NetAddr)
  | labels6 (nh : IpAddr) (loc : Option (BitVec 128)) (l : List LabeledAddr)
  | vpn6 (nh : LabeledNextHop) (l : List VpnAddr)
  | evpn (nh : IpAddr) (l : List EvpnAddr)
  | rtm (nh : IpAddr) (l : List RtmAddr)
  | ls (nh : IpAddr) (l : List LsNlri)
  | lsVpn (nh : LabeledNextHop) (l : List LsVpnNlri)
  | unknown (afi : Afi) (safi : Safi) (value : Bytes)
  deriving DecidableEq, Repr

/-- `PathAttributeValue`, T:173-196. `AtomicAggregate` is a unit struct; `Community`, `ClusterId`,
`Originator`, `OnlyToCustomer`, … wrap one integer. -/
inductive AttrValue where
  | origin (v : Origin)
  | asPath (v : AsPath)
  | as4Path (l : List (Seg UInt32))
  | nextHop (v : UInt32)
  | med (v : UInt32)
  | localPref (v : UInt32)
  | atomicAggregate
  | aggregator (v : Aggregator)
  | communities (l : List UInt32)
  | extCommunities (l : List ExtComm)
  | extCommunities6 (l : List ExtComm6)
  | largeCommunities (l : List LargeComm)
  | originator (v : UInt32)
  | clusterList (l : List UInt32)
  | mpReach (v : MpReach)
  | mpUnreach (v : MpUnreach)
  | bgpLs (l : List LsAttr)
  | onlyToCustomer (v : UInt32)
  | aigp (v : UInt64)
  | prefixSid (l : List SidTlv)
  | unknown (code : UInt8) (v : Bytes)
  deriving DecidableEq

/-- `PathAttribute`, T:75-87 -/
structure PathAttr where
  optional : Bool
  transitive : Bool
  partialBit : Bool
  ext : Bool
  value : AttrValue
  deriving DecidableEq

/-- `PathAttributeValue::path_attribute_type`, T:277-310: the codes of `PathAttributeType` in
`crates/bgp-pkt/src/iana.rs:88-190`, and the carried code for `UnknownAttribute` -/
def AttrValue.code : AttrValue → UInt8
  | origin _ => 1 | asPath _ => 2 | nextHop _ => 3 | med _ => 4 | localPref _ => 5 | atomicAggregate => 6
  | aggregator _ => 7 | communities _ => 8 | originator _ => 9 | clusterList _ => 10 | mpReach _ => 14
  | mpUnreach _ => 15 | extCommunities _ => 16 | as4Path _ => 17 | extCommunities6 _ => 25 | aigp _ => 26
  | bgpLs _ => 29 | largeCommunities _ => 32 | onlyToCustomer _ => 35 | prefixSid _ => 40 | unknown c _ => c

/-- whether `path_attribute_type` is `Ok` -/
def AttrValue.known : AttrValue → Bool | unknown .. => false | _ => true

/-- `can_be_optional`, T:199-223, with the constants of each type -/
def AttrValue.canOptional : AttrValue → Option Bool
  | origin _ | asPath _ | nextHop _ | localPref _ | atomicAggregate => some false
  | unknown .. => none
  | _ => some true

/-- `can_be_transitive`, T:225-249 -/
def AttrValue.canTransitive : AttrValue → Option Bool
  | med _ | originator _ | clusterList _ | mpReach _ | mpUnreach _ | aigp _ | bgpLs _ => some false
  | unknown .. => none
  | _ => some true

/-- `can_be_partial`, T:251-275 -/
def AttrValue.canPartial : AttrValue → Option Bool
  | as4Path _ | aggregator _ | communities _ | extCommunities _ | extCommunities6 _ | largeCommunities _
  | prefixSid _ | unknown .. => none
  | _ => some false

/-- `InvalidPathAttribute`, T:54-61 -/
inductive InvalidFlag where
  | optional (v : Bool) | transitive (v : Bool) | partialBit (v : Bool)
  deriving DecidableEq, Repr

/-- `.map(|x| x != flag).unwrap_or(false)` -/
def flagBad (want : Option Bool) (v : Bool) : Bool := (want.map (· != v)).getD false

/-- `PathAttribute::from`, T:90-137 -/
def PathAttr.make (opt trans part ext : Bool) (v : AttrValue) : Except InvalidFlag PathAttr :=
  if flagBad v.canOptional opt then .error (.optional opt)
  else if flagBad v.canTransitive trans then .error (.transitive trans)
  else if flagBad v.canPartial part then .error (.partialBit part)
  else .ok ⟨opt, trans, part, ext, v⟩

/-! ## Errors -/

/-- `PathAttributeLength`, T:778-781 -/
inductive AttrLen where
  | u8 (l : UInt8) | u16 (l : UInt16)
  deriving DecidableEq, Repr

/-- `OriginParsingError`, D:238-252 -/
inductive OriginErr where
  | parse (e : ParseError) | invalidLength (offset : Nat) (l : AttrLen) | undefined (offset : Nat) (code : UInt8)
  deriving DecidableEq, Repr

/-- `AsPathParsingError`, D:277-297 -/
inductive AsPathErr where
  | parse (e : ParseError) | zeroSegment (offset : Nat) | invalidLength (offset expecting found : Nat)
  | undefinedType (offset : Nat) (code : UInt8)
  deriving DecidableEq, Repr

/-- `NextHopParsingError` (D:411-421) and the errors of MED, LOCAL_PREF, ATOMIC_AGGREGATE and AGGREGATOR
(D:444-454, 477-487, 510-520, 541-551) -/
inductive FixedErr where
  | parse (e : ParseError) | invalidLength (offset : Nat) (l : AttrLen)
  deriving DecidableEq, Repr

/-- `CommunitiesParsingError` (D:1343-1349) and the errors of the other lists (D:1371-1376, 1398-1404,
1426-1431, 1488-1494): of the list itself or of an element -/
inductive ListErr where
  | parse (e : ParseError) | element (e : ParseError)
  deriving DecidableEq, Repr

/-- `AigpParsingError`, D:1516-1528 -/
inductive AigpErr where
  | parse (e : ParseError) | undefinedType (offset : Nat) (t : UInt8) | invalidLength (offset : Nat) (l : UInt16)
  deriving DecidableEq, Repr

/-- `UnknownAttributeParsingError`, D:1304-1315 -/
inductive UnknownErr where
  | parse (e : ParseError) | invalidLength (offset expecting actual : Nat)
  deriving DecidableEq, Repr

/-- `MpReachParsingError`, D:613-652; `MpUnreachParsingError`, D:1058-1100 (without the next hop variants) -/
inductive MpErr where
  | parse (e : ParseError)
  | undefAfi (offset : Nat) (afi : UInt16)
  | undefSafi (offset : Nat) (safi : UInt8)
  | ipAddr (t : AddressType) (e : IpAddrError)
  | labeledNextHop (t : AddressType) (e : NlriError)
  | nlri (t : AddressType) (e : NlriError)
  | ls (e : LsError)
  deriving DecidableEq, Repr

/-- `PathAttributeParsingError`, D:68-117 -/
inductive AttrErr where
  | parse (e : ParseError)
  | origin (e : OriginErr)
  | asPath (e : AsPathErr)
  | nextHop (e : FixedErr)
  | med (e : FixedErr)
  | localPref (e : FixedErr)
  | atomicAggregate (e : FixedErr)
  | aggregator (e : FixedErr)
  | communities (e : ListErr)
  | extCommunities (e : ListErr)
  | extCommunities6 (e : ListErr)
  | largeCommunities (e : ListErr)
  | originator (e : ParseError)
  | clusterList (e : ListErr)
  | mpReach (e : MpErr)
  | mpUnreach (e : MpErr)
  | onlyToCustomer (e : ParseError)
  | aigp (e : AigpErr)
  | bgpLs (e : LsAttrError)
  | prefixSid (e : SidError)
  | unknown (e : UnknownErr)
  | invalid (offset : Nat) (flag : InvalidFlag) (known : Bool) (code : UInt8)
  deriving DecidableEq, Repr

/-! ## Parsing -/

/-- the length, kept with its width (D:258-264 and the other fixed-size attributes) -/
def attrLen (g : ParseError → ε) (ext : Bool) : Parser ε AttrLen :=
  if ext then AttrLen.u16 <$> mapErr g readU16 else AttrLen.u8 <$> mapErr g readU8

/-- the length as a number -/
def AttrLen.toNat : AttrLen → Nat
  | u8 l => l.toNat
  | u16 l => l.toNat

/-- `check_length`, D:58-64 -/
def AttrLen.is (l : AttrLen) (n : Nat) : Bool :=
  match l with
  | u8 l => l.toNat == n
  | u16 l => l.toNat == n

/-- `Origin::parse`, D:254-274 -/
def parseOrigin (ext : Bool) : Parser OriginErr Origin := do
  let o ← getOffset
  let l ← attrLen .parse ext
  if l.is 1 then do
    let o2 ← getOffset
    let c ← mapErr .parse readU8
    ofOption (.undefined o2 c) (Origin.ofCode c)
  else fail (.invalidLength o l)

/-- `for _ in 0..n { v.push(p(cur)?) }` -/
def times (p : Parser ε α) : Nat → Parser ε (List α)
  | 0 => pure []
  | n + 1 => do
    let a ← p
    let l ← times p n
    pure (a :: l)

/-- `As2PathSegment::parse`, D:331-359 (`rd = readU16`, `w = 2`); `As4PathSegment::parse`, D:361-389
(`rd = readU32`, `w = 4`) -/
def parseSeg (rd : Parser ParseError α) (w : Nat) : Parser AsPathErr (Seg α) := do
  let o ← getOffset
  let c ← mapErr .parse readU8
  let t ← ofOption (.undefinedType o c) (SegType.ofCode c)
  let o2 ← getOffset
  let n ← mapErr .parse readU8
  if n = 0 then fail (.zeroSegment o2)
  else do
    let rem ← getRemaining
    if rem < n.toNat * w then fail (.invalidLength o2 (n.toNat * w) rem)
    else do
      let l ← times (mapErr .parse rd) n.toNat
      pure ⟨t, l⟩

/-- the slice and a loop over it (D:305-327 and the other lists) -/
def attrMany (g : ParseError → ε) (ext : Bool) (p : Parser ε α) : Parser ε (List α) := do
  let d ← attrSlice g ext
  let x ← onSub d (many p)
  pure x.1

/-- `As4Path::parse`, D:391-408 -/
def parseAs4Path (ext : Bool) : Parser AsPathErr (List (Seg UInt32)) :=
  attrMany .parse ext (parseSeg readU32 4)

/-- `AsPath::parse`, D:299-329 -/
def parseAsPath (ext asn4 : Bool) : Parser AsPathErr AsPath :=
  if asn4 then AsPath.as4 <$> attrMany .parse ext (parseSeg readU32 4)
  else AsPath.as2 <$> attrMany .parse ext (parseSeg readU16 2)

/-- a fixed-size attribute: the length is checked, the value is read from the enclosing buffer -/
def fixedAttr (n : Nat) (ext : Bool) (p : Parser ParseError α) : Parser FixedErr α := do
  let o ← getOffset
  let l ← attrLen .parse ext
  if l.is n then mapErr .parse p else fail (.invalidLength o l)

/-- `Aggregator::parse`, D:553-610 -/
def parseAggregator (ext asn4 : Bool) : Parser FixedErr Aggregator :=
  if asn4 then fixedAttr 8 ext (do
    let a ← readU32
    let o ← readU32
    pure (.as4 a o))
  else fixedAttr 6 ext (do
    let a ← readU16
    let o ← readU32
    pure (.as2 a o))

/-- a list attribute whose elements can only run out of input: `Communities` D:1351-1368,
`ExtendedCommunities` D:1378-1395, `ExtendedCommunitiesIpv6` D:1406-1423, `LargeCommunities` D:1433-1450,
`ClusterList` D:1496-1513 -/
def listAttr (ext : Bool) (p : Parser ParseError α) : Parser ListErr (List α) :=
  attrMany .parse ext (mapErr .element p)

/-- one 32-bit value from a slice; what is left of the slice is dropped: `Originator` D:1458-1471,
`OnlyToCustomer` D:1569-1582 -/
def word32Attr (ext : Bool) : Parser ParseError UInt32 := do
  let d ← attrSlice id ext
  let x ← onSub d readU32
  pure x.1

/-- the arms of `Aigp::parse`, D:1540-1559, on the slice -/
def aigpBody : Parser AigpErr UInt64 := do
  let t ← mapErr .parse readU8
  let o ← getOffset
  if t = 1 then do
    let l ← mapErr .parse readU16
    let o2 ← getOffset
    if l = 11 then mapErr .parse readU64 else fail (.invalidLength (o2 - 2) l)
  else fail (.undefinedType (o - 1) t)

/-- `Aigp::parse`, D:1530-1561 -/
def parseAigp (ext : Bool) : Parser AigpErr UInt64 := do
  let d ← attrSlice .parse ext
  let x ← onSub d aigpBody
  pure x.1

/-- `UnknownAttribute::parse`, D:1317-1340. `cur.offset() - 2` underflows when the reader starts before
offset 1 (one-octet length read at offset 0). -/
def parseUnknownAttr (code : UInt8) (ext : Bool) : Parser UnknownErr AttrValue := do
  let l ← attrLen .parse ext
  let n := l.toNat
  let rem ← getRemaining
  if n > rem then do
    let o ← getOffset
    if o < 2 then Parser.panic else fail (.invalidLength (o - 2) n rem)
  else do
    let v ← mapErr .parse (readBytes n)
    pure (.unknown code v)

/-- what `MpReach::parse` and `MpUnreach::parse` use of the parsing context
(`BgpParsingContext`, `wire/deserializer/mod.rs:69-78`): absent entries of `add_path` mean no, of
`multiple_labels` mean 1 -/
structure AttrCtx where
  asn4 : Bool
  labels : AddressType → Option UInt8
  addPath : AddressType → Option Bool

/-- `add_path_map.get(&addr_type).is_some_and(|x| *x)` -/
def AttrCtx.ap (c : AttrCtx) (t : AddressType) : Bool := (c.addPath t).getD false
/-- `*multiple_labels.get(&addr_type).unwrap_or(&1)` -/
def AttrCtx.lim (c : AttrCtx) (t : AddressType) : UInt8 := (c.labels t).getD 1

/-- the loop over the NLRI of one family -/
def nlriMany (t : AddressType) (p : Parser NlriError α) : Parser MpErr (List α) := many (mapErr (.nlri t) p)

/-- the NLRI loops of one address family, the same in `MpReach::parse` (D:753-975) and `MpUnreach::parse`
(D:1130-1293): `none` for a family without a parser -/
def nlriFor (c : AttrCtx) (t : AddressType) : Option (Parser MpErr NlriList) :=
  match t with
  | .ipv4Unicast => some (NlriList.uni4 <$> nlriMany t (parseNetAddr 4 uni4Ok (c.ap t)))
  | .ipv4Multicast => some (NlriList.multi4 <$> nlriMany t (parseNetAddr 4 multi4Ok (c.ap t)))
  | .ipv4NlriMplsLabels => some (NlriList.labels4 <$> nlriMany t (parseLabeledAddr 4 (c.ap t) false (c.lim t)))
  | .ipv4MplsLabeledVpn => some (NlriList.vpn4 <$> nlriMany t (parseVpnAddr 4 uni4Ok (c.ap t) false (c.lim t)))
  | .ipv6Unicast => some (NlriList.uni6 <$> nlriMany t (parseNetAddr 16 uni6Ok (c.ap t)))
  | .ipv6Multicast => some (NlriList.multi6 <$> nlriMany t (parseNetAddr 16 multi6Ok (c.ap t)))
  | .ipv6NlriMplsLabels => some (NlriList.labels6 <$> nlriMany t (parseLabeledAddr 16 (c.ap t) false (c.lim t)))
  | .ipv6MplsLabeledVpn => some (NlriList.vpn6 <$> nlriMany t (parseVpnAddr 16 uni6Ok (c.ap t) false (c.lim t)))
  | .l2VpnBgpEvpn => some (NlriList.evpn <$> nlriMany t (parseEvpnAddr (c.ap t)))
  | .routeTargetConstrains => some (NlriList.rtm <$> nlriMany t (parseRtmAddr (c.ap t)))
  | .bgpLs => some (NlriList.ls <$> many (mapErr .ls (parseLsNlri (c.ap t))))
  | .bgpLsVpn => some (NlriList.lsVpn <$> many (mapErr .ls (parseLsVpnNlri (c.ap t))))
  | _ => none

/-- `Unknown { afi, safi, value: mp_buf.read_bytes(mp_buf.remaining()) }`, D:977-981 and D:1294-1298, or
the NLRI of a family with a parser -/
def mpUnreachBody (c : AttrCtx) (a : Afi) (s : Safi) : Parser MpErr MpUnreach :=
  match (AddressType.ofAfiSafi a s).bind (nlriFor c) with
  | some p => MpUnreach.known <$> p
  | none => MpUnreach.unknown a s <$> restBytes .parse

/-- D:1121-1129: the AFI and SAFI of `MpUnreach`; the offset of the errors is that of the enclosing reader
after the slice -/
def mpUnreachHead (o : Nat) : Parser MpErr (Afi × Safi) := do
  let a ← mapErr .parse readU16
  let a ← ofOption (.undefAfi o a) (afiOf a)
  let s ← mapErr .parse readU8
  let s ← ofOption (.undefSafi o s) (safiOf s)
  pure (a, s)

/-- `MpUnreach::parse`, D:1102-1301 -/
def parseMpUnreach (c : AttrCtx) (ext : Bool) : Parser MpErr MpUnreach := do
  let d ← attrSlice .parse ext
  let o ← getOffset
  let x ← onSub d (do
    let h ← mpUnreachHead o
    mpUnreachBody c h.1 h.2)
  pure x.1

/-- `parse_ip4_or_ipv6_next_hop`, D:1006-1038 -/
def parseDualNextHop (t : AddressType) : Parser MpErr (IpAddr × Option (BitVec 128)) := do
  let o ← getOffset
  let l ← mapErr .parse readU8
  if l = 4 then do
    let a ← mapErr .parse readU32
    pure (.v4 a, none)
  else if l = 16 then do
    let a ← mapErr .parse readU128
    pure (.v6 a, none)
  else if l = 32 then do
    let a ← mapErr .parse readU128
    let b ← mapErr .parse readU128
    pure (.v6 a, some b)
  else fail (.ipAddr t (.invalidLength o l))

/-- D:827-836 and D:851-860: the length octet is only compared with 32 -/
def parseNextHop6 : Parser MpErr (BitVec 128 × Option (BitVec 128)) := do
  let l ← mapErr .parse readU8
  let g ← mapErr .parse readU128
  if l = 32 then do
    let b ← mapErr .parse readU128
    pure (g, some b)
  else pure (g, none)

/-- `parse_ip_next_hop`, D:989-1003 -/
def parseIpNextHop (t : AddressType) : Parser MpErr IpAddr := mapErr (.ipAddr t) parseIpAddr
/-- `parse_labeled_next_hop`, D:1041-1055 -/
def parseLabNextHop (t : AddressType) : Parser MpErr LabeledNextHop := mapErr (.labeledNextHop t) parseLabeledNextHop

/-- a next hop, the reserved octet (dropped), and the NLRI -/
def reachArm (nh : Parser MpErr α) (p : Parser MpErr (List β)) (mk : α → List β → MpReach) : Parser MpErr MpReach := do
  let h ← nh
  let _ ← mapErr MpErr.parse readU8
  let l ← p
  pure (mk h l)

/-- the arms of `MpReach::parse`, D:753-975 -/
def reachFor (c : AttrCtx) (t : AddressType) : Option (Parser MpErr MpReach) :=
  match t with
  | .ipv4Unicast =>
    some (reachArm (parseDualNextHop t) (nlriMany t (parseNetAddr 4 uni4Ok (c.ap t))) fun h => .uni4 h.1 h.2)
  | .ipv4Multicast =>
    some (reachArm (parseDualNextHop t) (nlriMany t (parseNetAddr 4 multi4Ok (c.ap t))) fun h => .multi4 h.1 h.2)
  | .ipv4NlriMplsLabels =>
    some (reachArm (parseDualNextHop t) (nlriMany t (parseLabeledAddr 4 (c.ap t) false (c.lim t)))
      fun h => .labels4 h.1 h.2)
  | .ipv4MplsLabeledVpn =>
    some (reachArm (parseLabNextHop t) (nlriMany t (parseVpnAddr 4 uni4Ok (c.ap t) false (c.lim t))) .vpn4)
  | .ipv6Unicast =>
    some (reachArm parseNextHop6 (nlriMany t (parseNetAddr 16 uni6Ok (c.ap t))) fun h => .uni6 h.1 h.2)
  | .ipv6Multicast =>
    some (reachArm parseNextHop6 (nlriMany t (parseNetAddr 16 multi6Ok (c.ap t))) fun h => .multi6 h.1 h.2)
  | .ipv6NlriMplsLabels =>
    some (reachArm (parseDualNextHop t) (nlriMany t (parseLabeledAddr 16 (c.ap t) false (c.lim t)))
      fun h => .labels6 h.1 h.2)
  | .ipv6MplsLabeledVpn =>
    some (reachArm (parseLabNextHop t) (nlriMany t (parseVpnAddr 16 uni6Ok (c.ap t) false (c.lim t))) .vpn6)
  | .l2VpnBgpEvpn => some (reachArm (parseIpNextHop t) (nlriMany t (parseEvpnAddr (c.ap t))) .evpn)
  | .routeTargetConstrains => some (reachArm (parseIpNextHop t) (nlriMany t (parseRtmAddr (c.ap t))) .rtm)
  | .bgpLs => some (reachArm (parseIpNextHop t) (many (mapErr .ls (parseLsNlri (c.ap t)))) .ls)
  | .bgpLsVpn => some (reachArm (parseLabNextHop t) (many (mapErr .ls (parseLsVpnNlri (c.ap t)))) .lsVpn)
  | _ => none

/-- D:752-982 -/
def mpReachBody (c : AttrCtx) (a : Afi) (s : Safi) : Parser MpErr MpReach :=
  match (AddressType.ofAfiSafi a s).bind (reachFor c) with
  | some p => p
  | none => MpReach.unknown a s <$> restBytes .parse

/-- D:740-751; the slice starts at least one octet into the buffer and the subtraction follows the read, so it
cannot underflow -/
def mpReachHead : Parser MpErr (Afi × Safi) := do
  let a ← mapErr .parse readU16
  let o ← getOffset
  let a ← ofOption (.undefAfi (o - 2) a) (afiOf a)
  let s ← mapErr .parse readU8
  let o2 ← getOffset
  let s ← ofOption (.undefSafi (o2 - 1) s) (safiOf s)
  pure (a, s)

/-- `MpReach::parse`, D:722-986 -/
def parseMpReach (c : AttrCtx) (ext : Bool) : Parser MpErr MpReach := do
  let d ← attrSlice .parse ext
  let x ← onSub d (do
    let h ← mpReachHead
    mpReachBody c h.1 h.2)
  pure x.1

/-- the dispatch of `PathAttribute::parse`, D:131-222. Codes of `PathAttributeType` without a parser and
undefined codes are both kept as unknown attributes. -/
def attrValue (c : AttrCtx) (ext : Bool) (code : UInt8) : Parser AttrErr AttrValue :=
  if code = 1 then AttrValue.origin <$> mapErr .origin (parseOrigin ext)
  else if code = 2 then AttrValue.asPath <$> mapErr .asPath (parseAsPath ext c.asn4)
  else if code = 17 then AttrValue.as4Path <$> mapErr .asPath (parseAs4Path ext)
  else if code = 3 then AttrValue.nextHop <$> mapErr .nextHop (fixedAttr 4 ext readU32)
  else if code = 4 then AttrValue.med <$> mapErr .med (fixedAttr 4 ext readU32)
  else if code = 5 then AttrValue.localPref <$> mapErr .localPref (fixedAttr 4 ext readU32)
  else if code = 6 then (fun _ => AttrValue.atomicAggregate) <$> mapErr .atomicAggregate (fixedAttr 0 ext (pure ()))
  else if code = 7 then AttrValue.aggregator <$> mapErr .aggregator (parseAggregator ext c.asn4)
  else if code = 8 then AttrValue.communities <$> mapErr .communities (listAttr ext readU32)
  else if code = 16 then AttrValue.extCommunities <$> mapErr .extCommunities (listAttr ext parseExtComm)
  else if code = 25 then AttrValue.extCommunities6 <$> mapErr .extCommunities6 (listAttr ext parseExtComm6)
  else if code = 32 then AttrValue.largeCommunities <$> mapErr .largeCommunities (listAttr ext parseLargeComm)
  else if code = 9 then AttrValue.originator <$> mapErr .originator (word32Attr ext)
  else if code = 10 then AttrValue.clusterList <$> mapErr .clusterList (listAttr ext readU32)
  else if code = 14 then AttrValue.mpReach <$> mapErr .mpReach (parseMpReach c ext)
  else if code = 15 then AttrValue.mpUnreach <$> mapErr .mpUnreach (parseMpUnreach c ext)
  else if code = 35 then AttrValue.onlyToCustomer <$> mapErr .onlyToCustomer (word32Attr ext)
  else if code = 26 then AttrValue.aigp <$> mapErr .aigp (parseAigp ext)
  else if code = 29 then AttrValue.bgpLs <$> mapErr .bgpLs (parseLsAttrs ext)
  else if code = 40 then AttrValue.prefixSid <$> mapErr .prefixSid (parseSid ext)
  else mapErr .unknown (parseUnknownAttr code ext)

/-- `PathAttribute::parse`, D:119-235; the context is only read -/
def parseAttr (c : AttrCtx) : Parser AttrErr PathAttr := do
  let o ← getOffset
  let f ← mapErr .parse readU8
  let code ← mapErr .parse readU8
  let ext := hasBit f 0x10
  let v ← attrValue c ext code
  match PathAttr.make (hasBit f 0x80) (hasBit f 0x40) (hasBit f 0x20) ext v with
  | .ok a => pure a
  | .error e => fail (.invalid o e v.known v.code)

/-! ## Writing -/

/-- `As2PathSegment::len` / `As4PathSegment::len`, S:238-244 and S:258-264 -/
def Seg.len (w : Nat) (s : Seg α) : Nat := 2 + s.asns.length * w
/-- S:246-253 and S:266-273: the count is cast to one octet -/
def Seg.write (wr : α → Bytes) (s : Seg α) : Bytes :=
  s.type.code :: UInt8.ofNat s.asns.length :: (s.asns.map wr).flatten

/-- S:279-291 without the length octets -/
def AsPath.valueLen : AsPath → Nat
  | as2 l => (l.map (Seg.len 2)).sum
  | as4 l => (l.map (Seg.len 4)).sum
def AsPath.value : AsPath → Bytes
  | as2 l => (l.map (Seg.write u16be)).flatten
  | as4 l => (l.map (Seg.write u32be)).flatten

/-- S:1305-1323: the sum of the element lengths -/
def NlriList.len : NlriList → Nat
  | uni4 l | multi4 l | uni6 l | multi6 l => (l.map NetAddr.len).sum
  | labels4 l | labels6 l => (l.map LabeledAddr.len).sum
  | vpn4 l | vpn6 l => (l.map VpnAddr.len).sum
  | evpn l => (l.map EvpnAddr.len).sum
  | rtm l => (l.map RtmAddr.len).sum
  | ls l => (l.map LsNlri.len).sum
  | lsVpn l => (l.map LsVpnNlri.len).sum
/-- the loops of S:1333-1430 -/
def NlriList.write : NlriList → Res AttrWriteErr Bytes
  | uni4 l | multi4 l | uni6 l | multi6 l => .ok (l.map NetAddr.write).flatten
  | labels4 l | labels6 l => .ok (l.map LabeledAddr.write).flatten
  | vpn4 l | vpn6 l => .ok (l.map VpnAddr.write).flatten
  | evpn l => .ok (l.map EvpnAddr.write).flatten
  | rtm l => .ok (l.map RtmAddr.write).flatten
  | ls l => Res.catAll (l.map LsNlri.write)
  | lsVpn l => Res.catAll (l.map LsVpnNlri.write)

/-- AFI and SAFI octets -/
def writeFamily (a : UInt16) (s : UInt8) : Bytes := u16be a ++ [s]
/-- `self.afi()`, `self.safi()`: T:1139-1197 and T:1280-1340 -/
def AddressType.write (t : AddressType) : Bytes := writeFamily t.afi t.safi

/-- S:1301-1325 without the length octets: 2 for AFI, 1 for SAFI -/
def MpUnreach.valueLen : MpUnreach → Nat
  | known l => 3 + l.len
  | unknown _ _ v => 3 + v.length
/-- S:1327-1440 after the length -/
def MpUnreach.value : MpUnreach → Res AttrWriteErr Bytes
  | known l => Res.cat (.ok l.family.write) l.write
  | unknown a s v => .ok (writeFamily a.val s.val ++ v)

/-- the address octets alone, `addr.octets()` -/
def ipOctets : IpAddr → Bytes | .v4 a => u32be a | .v6 a => u128be a

/-- `next_hop_len` and `local_len`, S:817-833 and the like -/
def dualLen (nh : IpAddr) (loc : Option (BitVec 128)) : Nat :=
  (match nh with | .v4 _ => 4 | .v6 _ => 16) + (match loc with | some _ => 16 | none => 0)
/-- S:1004-1034: the length, the address, and the link-local address if present -/
def writeDual (nh : IpAddr) (loc : Option (BitVec 128)) : Bytes :=
  UInt8.ofNat (dualLen nh loc) :: (ipOctets nh ++ (match loc with | some b => u128be b | none => []))
/-- S:868-876 -/
def len6 (loc : Option (BitVec 128)) : Nat := match loc with | some _ => 32 | none => 16
/-- S:1118-1127 -/
def write6 (g : BitVec 128) (loc : Option (BitVec 128)) : Bytes :=
  match loc with
  | some b => 32 :: (u128be g ++ u128be b)
  | none => 16 :: u128be g
/-- the next hop of `BgpLsVpn`, S:1217-1224: the route distinguisher is written as zero -/
def writeZeroRd : LabeledNextHop → Bytes
  | .v4 _ a => 12 :: (List.replicate 8 0 ++ u32be a)
  | .v6 _ a _ => 24 :: (List.replicate 8 0 ++ u128be a)

/-- the NLRI of an `MpReach` -/
def MpReach.nlri : MpReach → Option NlriList
  | uni4 _ _ l => some (.uni4 l) | multi4 _ _ l => some (.multi4 l) | labels4 _ _ l => some (.labels4 l)
  | vpn4 _ l => some (.vpn4 l) | uni6 _ _ l => some (.uni6 l) | multi6 _ _ l => some (.multi6 l)
  | labels6 _ _ l => some (.labels6 l) | vpn6 _ l => some (.vpn6 l) | evpn _ l => some (.evpn l)
  | rtm _ l => some (.rtm l) | ls _ l => some (.ls l) | lsVpn _ l => some (.lsVpn l) | unknown .. => none

/-- the next hop part of the payload length, S:803-964: a length octet and the address, or `next_hop.len()` -/
def MpReach.hopLen : MpReach → Nat
  | uni4 nh loc _ | multi4 nh loc _ | labels4 nh loc _ | labels6 nh loc _ => 1 + dualLen nh loc
  | vpn4 nh _ | vpn6 nh _ | lsVpn nh _ => nh.len
  | uni6 _ loc _ | multi6 _ loc _ => 1 + len6 loc
  | evpn nh _ | rtm nh _ | ls nh _ => 1 + dualLen nh none
  | unknown .. => 0
/-- the octets of the next hop, S:1000-1228 -/
def MpReach.hop : MpReach → Bytes
  | uni4 nh loc _ | multi4 nh loc _ | labels4 nh loc _ | labels6 nh loc _ => writeDual nh loc
  | vpn4 nh _ | vpn6 nh _ => nh.write
  | uni6 g loc _ | multi6 g loc _ => write6 g loc
  | evpn nh _ | rtm nh _ | ls nh _ => writeIpPdu nh
  | lsVpn nh _ => writeZeroRd nh
  | unknown .. => []

/-- S:798-972 without the length octets: `BASE_LENGTH` 5 counts AFI, SAFI, the reserved octet and the
attribute length octet, also for `Unknown`, which has no reserved octet -/
def MpReach.valueLen (r : MpReach) : Nat :=
  match r with
  | unknown _ _ v => 4 + v.length
  | r => 4 + r.hopLen + ((r.nlri.map NlriList.len).getD 0)
/-- S:974-1245 after the length -/
def MpReach.value (r : MpReach) : Res AttrWriteErr Bytes :=
  match r with
  | unknown a s v => .ok (writeFamily a.val s.val ++ v)
  | r =>
    match r.nlri with
    | some l => Res.cat (.ok (l.family.write ++ (r.hop ++ [0]))) l.write
    | none => .ok []

/-- `value.len(extended_length)` without the length octets -/
def AttrValue.valueLen : AttrValue → Nat
  | origin _ => 1
  | asPath p => p.valueLen
  | as4Path l => (l.map (Seg.len 4)).sum
  | nextHop _ | med _ | localPref _ | originator _ | onlyToCustomer _ => 4
  | atomicAggregate => 0
  | aggregator (.as2 ..) => 6
  | aggregator (.as4 ..) => 8
  | communities l => (l.map fun _ => 4).sum
  | extCommunities l => (l.map ExtComm.len).sum
  | extCommunities6 l => (l.map ExtComm6.len).sum
  | largeCommunities l => (l.map fun _ => 12).sum
  | clusterList l => (l.map fun _ => 4).sum
  | mpReach r => r.valueLen
  | mpUnreach r => r.valueLen
  | bgpLs l => lenLsAttrs l
  | aigp _ => 3 + 8
  | prefixSid l => lenSid l
  | unknown _ v => v.length

/-- the octets after the length -/
def AttrValue.value : AttrValue → Res AttrWriteErr Bytes
  | origin o => .ok [o.code]
  | asPath p => .ok p.value
  | as4Path l => .ok (l.map (Seg.write u32be)).flatten
  | nextHop v | med v | localPref v | originator v | onlyToCustomer v => .ok (u32be v)
  | atomicAggregate => .ok []
  | aggregator (.as2 a o) => .ok (u16be a ++ u32be o)
  | aggregator (.as4 a o) => .ok (u32be a ++ u32be o)
  | communities l | clusterList l => .ok (l.map u32be).flatten
  | extCommunities l => .ok (l.map ExtComm.write).flatten
  | extCommunities6 l => .ok (l.map ExtComm6.write).flatten
  | largeCommunities l => .ok (l.map LargeComm.write).flatten
  | mpReach r => r.value
  | mpUnreach r => r.value
  | bgpLs l => writeLsAttrs l
  | aigp v => .ok (1 :: (u16be 11 ++ u64be v))
  | prefixSid l => writeSid l
  | unknown _ v => .ok v

/-- `PathAttribute::len`, S:98-126: flags, code, length octets, value. (For `UnknownAttribute` the code is
counted in its own length and subtracted here.) -/
def PathAttr.len (a : PathAttr) : Nat := 2 + (1 + (if a.ext then 1 else 0) + a.value.valueLen)

/-- `write_length`, S:1486-1505, and the same computation in `UnknownAttribute::write`, S:642-647: `len` counts
the value and, for an extended length, one of the two length octets. Without the extended-length flag a
value longer than 255 octets is given a two-octet length, one too small, that no reader expects. -/
def writeLength (ext : Bool) (valueLen : Nat) : Bytes :=
  let len := (if ext then 1 else 0) + valueLen
  if ext || len > 255 then u16be (UInt16.ofNat (len - 1)) else [UInt8.ofNat len]

/-- `PathAttribute::write`, S:128-213: the code is written here or by `UnknownAttribute::write` -/
def PathAttr.write (a : PathAttr) : Res AttrWriteErr Bytes :=
  Res.cat
    (.ok ((orBit a.optional 0x80 ||| orBit a.transitive 0x40 ||| orBit a.partialBit 0x20 ||| orBit a.ext 0x10)
      :: a.value.code :: writeLength a.ext a.value.valueLen))
    a.value.value

end Verif.Bgp
