import Verif.Core.SafeAt
import Verif.Bgp.Nlri
/-!
# BGP-LS NLRI (RFC 7752)

Files: `crates/bgp-pkt/src/wire/deserializer/nlri/bgp_ls.rs` (D), `wire/serializer/nlri/bgp_ls.rs` (S),
`nlri/bgp_ls.rs` (T), `iana.rs` (I). The protocol, route and NLRI type enums are kept as their codes.
`Vec::with_capacity(count_tlvs_..)` only sizes allocations and is left out. Errors that carry an IANA
"reserved"/"unknown" enum keep only the code, which determines it.
-/
namespace Verif.Bgp
open Parser

/-- `BgpLsNlriParsingError`, D:39-88 -/
inductive LsError where
  | parse (e : ParseError)
  | unknownNlriType (offset : Nat) (code : UInt16)
  | rd (e : NlriError)
  | unknownProtocolId (offset : Nat) (code : UInt8)
  | unknownDescriptorTlvType (offset : Nat) (code : UInt16)
  | unknownNodeSubTlvType (offset : Nat) (code : UInt16)
  | unknownPrefixTlvType (offset : Nat) (code : UInt16)
  | unknownOspfRouteType (offset : Nat) (code : UInt8)
  | badNodeDescriptorTlvType (offset : Nat) (code : UInt16)
  | unknownLinkTlvType (offset : Nat) (code : UInt16)
  | ipv4Prefix (e : PrefixError)
  | ipv6Prefix (e : PrefixError)
  | multiTopology (e : ParseError)
  deriving DecidableEq, Repr

/-- `BgpLsNodeDescriptorSubTlv`, T:676-687 -/
inductive NodeSub where
  | autonomousSystem (v : UInt32)
  | bgpLsIdentifier (v : UInt32)
  | ospfAreaId (v : UInt32)
  | igpRouterId (v : Bytes)
  | bgpRouterIdentifier (v : UInt32)
  | memberAsNumber (v : UInt32)
  | unknown (code : UInt16) (v : Bytes)
  deriving DecidableEq, Repr

/-- `BgpLsLinkDescriptor`, T:614-628 -/
inductive LinkDesc where
  | localRemote (l r : UInt32)
  | ipv4Interface (a : UInt32)
  | ipv4Neighbor (a : UInt32)
  | ipv6Interface (a : BitVec 128)
  | ipv6Neighbor (a : BitVec 128)
  | multiTopology (ids : List UInt16)
  | unknown (code : UInt16) (v : Bytes)
  deriving DecidableEq, Repr

/-- `IpNet` of `IpReachabilityInformationData` -/
inductive IpNet where
  | v4 (n : Net)
  | v6 (n : Net)
  deriving DecidableEq, Repr

/-- `BgpLsPrefixDescriptor`, T:432-438 -/
inductive PrefixDesc where
  | multiTopology (ids : List UInt16)
  | ospfRouteType (t : UInt8)
  | ipReachability (n : IpNet)
  | unknown (code : UInt16) (v : Bytes)
  deriving DecidableEq, Repr

/-- `BgpLsNlriValue`, T:180-188, with the three payload structs inlined -/
inductive LsValue where
  | node (protocol : UInt8) (identifier : UInt64) (desc : List NodeSub)
  | link (protocol : UInt8) (identifier : UInt64) (loc rem : List NodeSub) (links : List LinkDesc)
  | prefix4 (protocol : UInt8) (identifier : UInt64) (desc : List NodeSub) (prefixes : List PrefixDesc)
  | prefix6 (protocol : UInt8) (identifier : UInt64) (desc : List NodeSub) (prefixes : List PrefixDesc)
  | unknown (code : UInt16) (v : Bytes)
  deriving DecidableEq, Repr

/-- `BgpLsNlri`, T:42-45 -/
structure LsNlri where
  pathId : Option UInt32
  value : LsValue
  deriving DecidableEq, Repr

/-- `BgpLsVpnNlri`, T:79-83 -/
structure LsVpnNlri where
  pathId : Option UInt32
  rd : Rd
  value : LsValue
  deriving DecidableEq, Repr

/-! ## Parsing -/

/-- `BgpLsProtocolId::from_repr`, I:1452-1462 -/
def lsProtocolOk (c : UInt8) : Bool := 1 ≤ c.toNat && c.toNat ≤ 9
/-- `OspfRouteType::from_repr`, T:270-277 -/
def ospfRouteOk (c : UInt8) : Bool := 1 ≤ c.toNat && c.toNat ≤ 6
/-- `From<u16> for MultiTopologyId`, T:883-888 -/
def mtId (v : UInt16) : UInt16 := v &&& 0x0fff

/-- `MultiTopologyIdData::parse`, D:459-470 -/
def parseMtIds : Parser LsError (List UInt16) :=
  many (do let v ← mapErr .multiTopology readU16; pure (mtId v))

/-- one branch of a sub-TLV holding a `u32` -/
def lsU32 (f : UInt32 → α) : Parser LsError α := f <$> mapErr .parse readU32
def lsU128 (f : BitVec 128 → α) : Parser LsError α := f <$> mapErr .parse readU128

/-- the value of a node descriptor sub-TLV, D:336-378; codes I:1541-1548, reserved range I:1573 -/
def nodeSubBody (o : Nat) (t _l : UInt16) : Parser LsError NodeSub :=
  if t = 512 then lsU32 .autonomousSystem
  else if t = 513 then lsU32 .bgpLsIdentifier
  else if t = 514 then lsU32 .ospfAreaId
  else if t = 515 then .igpRouterId <$> restBytes .parse
  else if t = 516 then lsU32 .bgpRouterIdentifier
  else if t = 517 then lsU32 .memberAsNumber
  else if t.toNat ≤ 255 then fail (.unknownNodeSubTlvType o t)
  else .unknown t <$> restBytes .parse

/-- `BgpLsNodeDescriptorSubTlv::parse`, D:330-380 -/
def parseNodeSub : Parser LsError NodeSub := tlv16 .parse nodeSubBody

/-- `BgpLsNodeDescriptors::parse`, D:294-328; `want` is 256 (local) or 257 (remote) -/
def parseNodeDesc (want : UInt16) : Parser LsError (List NodeSub) := do
  let code ← mapErr .parse peekU16
  if code = 256 ∨ code = 257 then
    if code ≠ want then do
      let o ← getOffset
      fail (.badNodeDescriptorTlvType o code)
    else do
      let _ ← mapErr .parse readU16
      let l ← mapErr .parse readU16
      let d ← mapErr .parse (takeSlice l.toNat)
      let x ← onSub d (many parseNodeSub)
      pure x.1
  else do
    let o ← getOffset
    fail (.unknownDescriptorTlvType o code)

/-- the value of a link descriptor, D:207-251; codes I:1626-1633 -/
def linkDescBody (o : Nat) (t _l : UInt16) : Parser LsError LinkDesc :=
  if t = 258 then do
    let l ← mapErr .parse readU32
    let r ← mapErr .parse readU32
    pure (.localRemote l r)
  else if t = 259 then lsU32 .ipv4Interface
  else if t = 260 then lsU32 .ipv4Neighbor
  else if t = 261 then lsU128 .ipv6Interface
  else if t = 262 then lsU128 .ipv6Neighbor
  else if t = 263 then .multiTopology <$> parseMtIds
  else if t.toNat ≤ 255 then fail (.unknownLinkTlvType o t)
  else .unknown t <$> restBytes .parse

/-- `BgpLsLinkDescriptor::parse`, D:201-253 -/
def parseLinkDesc : Parser LsError LinkDesc := tlv16 .parse linkDescBody

/-- `OspfRouteType::parse`, D:481-495 -/
def parseOspfRoute : Parser LsError UInt8 := do
  let c ← mapErr .parse peekU8
  if ospfRouteOk c then mapErr .parse readU8
  else do
    let o ← getOffset
    fail (.unknownOspfRouteType o c)

/-- `IpReachabilityInformationData::parse`, D:497-520; only called with the two prefix NLRI types -/
def parseReach (v6 : Bool) : Parser LsError IpNet :=
  if v6 then .v6 <$> mapErr .ipv6Prefix (parseNet 16) else .v4 <$> mapErr .ipv4Prefix (parseNet 4)

/-- the value of a prefix descriptor, D:417-450; codes I:1585-1589 -/
def prefixDescBody (v6 : Bool) (o : Nat) (t _l : UInt16) : Parser LsError PrefixDesc :=
  if t = 263 then .multiTopology <$> parseMtIds
  else if t = 264 then .ospfRouteType <$> parseOspfRoute
  else if t = 265 then .ipReachability <$> parseReach v6
  else if t.toNat ≤ 255 then fail (.unknownPrefixTlvType o t)
  else .unknown t <$> restBytes .parse

/-- `BgpLsPrefixDescriptor::parse`, D:409-452 -/
def parsePrefixDesc (v6 : Bool) : Parser LsError PrefixDesc := tlv16 .parse (prefixDescBody v6)

/-- protocol id of node and link NLRI (peeked first), D:173-180 and D:258-265 -/
def parseLsProtocol : Parser LsError UInt8 := do
  let c ← mapErr .parse peekU8
  if lsProtocolOk c then mapErr .parse readU8
  else do
    let o ← getOffset
    fail (.unknownProtocolId o c)

/-- protocol id of prefix NLRI (read first), D:386-391; the octet was read, `offset - 1` cannot underflow -/
def parseLsProtocol' : Parser LsError UInt8 := do
  let c ← mapErr .parse readU8
  if lsProtocolOk c then pure c
  else do
    let o ← getOffset
    fail (.unknownProtocolId (o - 1) c)

/-- `BgpLsNlriNode::parse`, D:255-275 -/
def parseLsNode : Parser LsError LsValue := do
  let p ← parseLsProtocol
  let i ← mapErr .parse readU64
  let d ← parseNodeDesc 256
  pure (.node p i d)

/-- `BgpLsNlriLink::parse`, D:170-199 -/
def parseLsLink : Parser LsError LsValue := do
  let p ← parseLsProtocol
  let i ← mapErr .parse readU64
  let l ← parseNodeDesc 256
  let r ← parseNodeDesc 257
  let ds ← many parseLinkDesc
  pure (.link p i l r ds)

/-- `BgpLsNlriIpPrefix::parse`, D:382-407 -/
def parseLsPrefix (v6 : Bool) : Parser LsError LsValue := do
  let p ← parseLsProtocol'
  let i ← mapErr .parse readU64
  let l ← parseNodeDesc 256
  let ds ← many (parsePrefixDesc v6)
  pure (if v6 then .prefix6 p i l ds else .prefix4 p i l ds)

/-- `BgpLsNlriType::from_repr`, I:1412-1423 -/
def lsTypeOk (t : UInt16) : Bool := 1 ≤ t.toNat && t.toNat ≤ 6

/-- `BgpLsNlriValue::parse`, D:137-168 -/
def parseLsValue (t : UInt16) : Parser LsError LsValue :=
  if t = 1 then parseLsNode
  else if t = 2 then parseLsLink
  else if t = 3 then parseLsPrefix false
  else if t = 4 then parseLsPrefix true
  else .unknown t <$> restBytes .parse

/-- path identifier, D:94-98 and D:116-120 -/
def lsPathId (addPath : Bool) : Parser LsError (Option UInt32) :=
  if addPath then some <$> mapErr .parse readU32 else pure none

/-- the NLRI type, D:99-105 and D:122-128: an unknown type is reported at `cur.offset() - 4`, which
underflows when fewer than four octets precede the cursor -/
def parseLsType : Parser LsError UInt16 := do
  let t ← mapErr .parse readU16
  if lsTypeOk t then pure t
  else do
    let o ← getOffset
    if o < 4 then panic else fail (.unknownNlriType (o - 4) t)

/-- `BgpLsNlri::parse`, D:91-111 -/
def parseLsNlri (addPath : Bool) : Parser LsError LsNlri := do
  let id ← lsPathId addPath
  let t ← parseLsType
  let l ← mapErr .parse readU16
  let d ← mapErr .parse (takeSlice l.toNat)
  let x ← onSub d (parseLsValue t)
  pure ⟨id, x.1⟩

/-- `BgpLsVpnNlri::parse`, D:113-135 -/
def parseLsVpnNlri (addPath : Bool) : Parser LsError LsVpnNlri := do
  let id ← lsPathId addPath
  let t ← parseLsType
  let l ← mapErr .parse readU16
  let d ← mapErr .parse (takeSlice l.toNat)
  let x ← onSub d (do let rd ← mapErr .rd parseRd; let v ← parseLsValue t; pure (rd, v))
  pure ⟨id, x.1.1, x.1.2⟩

/-! ## Writing -/

/-- `raw_code`, T:712-729 -/
def NodeSub.code : NodeSub → UInt16
  | autonomousSystem _ => 512 | bgpLsIdentifier _ => 513 | ospfAreaId _ => 514 | igpRouterId _ => 515
  | bgpRouterIdentifier _ => 516 | memberAsNumber _ => 517 | unknown c _ => c
/-- S:309-321 without the header -/
def NodeSub.valueLen : NodeSub → Nat
  | autonomousSystem _ | bgpLsIdentifier _ | ospfAreaId _ | bgpRouterIdentifier _ | memberAsNumber _ => 4
  | igpRouterId v => v.length | unknown _ v => v.length
/-- S:326-344 -/
def NodeSub.value : NodeSub → Bytes
  | autonomousSystem v | bgpLsIdentifier v | ospfAreaId v | bgpRouterIdentifier v | memberAsNumber v => u32be v
  | igpRouterId v => v | unknown _ v => v
/-- S:309-321 -/
def NodeSub.len (s : NodeSub) : Nat := 4 + s.valueLen
/-- S:323-347 -/
def NodeSub.write (s : NodeSub) : Res ε Bytes := (tlvHead16 s.code s.len).cat (.ok s.value)

/-- S:245-247 -/
def lenNodeDesc (l : List NodeSub) : Nat := 4 + (l.map NodeSub.len).sum
/-- S:249-260 -/
def writeNodeDesc (want : UInt16) (l : List NodeSub) : Res ε Bytes :=
  (tlvHead16 want (lenNodeDesc l)).cat (Res.catAll (l.map NodeSub.write))

/-- `MultiTopologyIdData`, `wire/serializer/mod.rs:227-241` -/
def lenMtIds (l : List UInt16) : Nat := 2 * l.length
def writeMtIds (l : List UInt16) : Bytes := (l.map u16be).flatten

/-- T:655-672 -/
def LinkDesc.code : LinkDesc → UInt16
  | localRemote _ _ => 258 | ipv4Interface _ => 259 | ipv4Neighbor _ => 260 | ipv6Interface _ => 261
  | ipv6Neighbor _ => 262 | multiTopology _ => 263 | unknown c _ => c
/-- S:266-277 -/
def LinkDesc.valueLen : LinkDesc → Nat
  | localRemote _ _ => 8 | ipv4Interface _ => 4 | ipv4Neighbor _ => 4 | ipv6Interface _ => 16
  | ipv6Neighbor _ => 16 | multiTopology l => lenMtIds l | unknown _ v => v.length
/-- S:282-301 -/
def LinkDesc.value : LinkDesc → Bytes
  | localRemote l r => u32be l ++ u32be r | ipv4Interface a => u32be a | ipv4Neighbor a => u32be a
  | ipv6Interface a => u128be a | ipv6Neighbor a => u128be a | multiTopology l => writeMtIds l
  | unknown _ v => v
def LinkDesc.len (s : LinkDesc) : Nat := 4 + s.valueLen
/-- S:279-303 -/
def LinkDesc.write (s : LinkDesc) : Res ε Bytes := (tlvHead16 s.code s.len).cat (.ok s.value)

/-- `IpReachabilityInformationData`, S:138-163; `most_significant_bytes` (T:363-377) is the prefix length
in octets rounded up -/
def IpNet.net : IpNet → Net | v4 n => n | v6 n => n

/-- T:454-461 -/
def PrefixDesc.code : PrefixDesc → UInt16
  | multiTopology _ => 263 | ospfRouteType _ => 264 | ipReachability _ => 265 | unknown c _ => c
/-- S:168-180 -/
def PrefixDesc.valueLen : PrefixDesc → Nat
  | multiTopology l => lenMtIds l | ospfRouteType _ => 1 | ipReachability n => lenNet n.net
  | unknown _ v => v.length
/-- S:184-189 -/
def PrefixDesc.value : PrefixDesc → Bytes
  | multiTopology l => writeMtIds l | ospfRouteType t => [t] | ipReachability n => writeNet n.net
  | unknown _ v => v
def PrefixDesc.len (s : PrefixDesc) : Nat := 4 + s.valueLen
/-- S:182-192 -/
def PrefixDesc.write (s : PrefixDesc) : Res ε Bytes := (tlvHead16 s.code s.len).cat (.ok s.value)

/-- T:201-209 -/
def LsValue.code : LsValue → UInt16
  | node .. => 1 | link .. => 2 | prefix4 .. => 3 | prefix6 .. => 4 | unknown c _ => c

/-- S:90-98 with S:114-122, S:198-200, S:352-361 -/
def LsValue.len : LsValue → Nat
  | node _ _ d => 9 + lenNodeDesc d
  | link _ _ l r ds => 9 + lenNodeDesc l + lenNodeDesc r + (ds.map LinkDesc.len).sum
  | prefix4 _ _ d ps | prefix6 _ _ d ps => 9 + lenNodeDesc d + (ps.map PrefixDesc.len).sum
  | unknown _ v => v.length

/-- S:100-108 with S:124-135, S:202-209, S:363-375 -/
def LsValue.write : LsValue → Res ε Bytes
  | node p i d => Res.cat (.ok (p :: u64be i)) (writeNodeDesc 256 d)
  | link p i l r ds =>
    Res.cat (.ok (p :: u64be i))
      (Res.cat (writeNodeDesc 256 l) (Res.cat (writeNodeDesc 257 r) (Res.catAll (ds.map LinkDesc.write))))
  | prefix4 p i d ps | prefix6 p i d ps =>
    Res.cat (.ok (p :: u64be i)) (Res.cat (writeNodeDesc 256 d) (Res.catAll (ps.map PrefixDesc.write)))
  | unknown _ v => .ok v

/-- S:44-46 -/
def LsNlri.len (n : LsNlri) : Nat := 4 + lenPathId n.pathId + n.value.len
/-- S:48-61; `self.len() as u16 - 4` for the path identifier is a `u16` subtraction as well -/
def LsNlri.write (n : LsNlri) : Res ε Bytes :=
  Res.cat (.ok (writePathId n.pathId))
    (if UInt16.ofNat n.len < UInt16.ofNat (lenPathId n.pathId) then .fault .panic
     else Res.cat (tlvHead16 n.value.code (UInt16.ofNat n.len - UInt16.ofNat (lenPathId n.pathId)).toNat)
       n.value.write)

/-- S:67-69 -/
def LsVpnNlri.len (n : LsVpnNlri) : Nat := 12 + lenPathId n.pathId + n.value.len
/-- S:71-84 -/
def LsVpnNlri.write (n : LsVpnNlri) : Res ε Bytes :=
  Res.cat (.ok (writePathId n.pathId))
    (if UInt16.ofNat n.len < UInt16.ofNat (lenPathId n.pathId) then .fault .panic
     else Res.cat (tlvHead16 n.value.code (UInt16.ofNat n.len - UInt16.ofNat (lenPathId n.pathId)).toNat)
       (Res.cat (.ok n.rd.write) n.value.write))

end Verif.Bgp
