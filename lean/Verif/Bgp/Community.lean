import Verif.Core.Reads
import Verif.Core.Safe
import Verif.Core.Fwd
/-!
# Communities (`crates/bgp-pkt/src/community.rs`, `wire/{de,}serializer/community.rs`)

A sub-typed community (an enum whose variants all carry the same two administrator fields) is modelled as the
variant's name (a `…Kind`) and the two fields. Every community parser fails only on missing octets: the nested error
enums each wrap one `ParseError`, which is what the model's parsers return. Fixed-size arrays are lists whose length is a
field invariant (`WF`).
-/
namespace Verif.Bgp
open Verif Parser

/-- `TransitiveTwoOctetExtendedCommunity`, `community.rs:560-632` -/
inductive TwoOctetKind where
  | routeTarget | routeOrigin | ospfDomainIdentifier | bgpDataCollection | sourceAs | l2VpnIdentifier | ciscoVpnDistinguisher | routeTargetRecord | rtDerivedEc | virtualNetworkIdentifier
  | unassigned (subType : UInt8)
  deriving DecidableEq, Repr

/-- `wire/deserializer/community.rs:240-306`: the sub-types the parser knows -/
def TwoOctetKind.table : List (UInt8 × TwoOctetKind) :=
  [(0x02, .routeTarget), (0x03, .routeOrigin), (0x05, .ospfDomainIdentifier), (0x08, .bgpDataCollection), (0x09, .sourceAs), (0x0a, .l2VpnIdentifier), (0x10, .ciscoVpnDistinguisher), (0x13, .routeTargetRecord), (0x15, .rtDerivedEc), (0x80, .virtualNetworkIdentifier)]

/-- `wire/deserializer/community.rs:240-306` -/
def TwoOctetKind.ofSubType (c : UInt8) : TwoOctetKind := (TwoOctetKind.table.lookup c).getD (.unassigned c)

/-- `wire/serializer/community.rs:232-313`. `SourceAs` is written with the code of `RouteTarget` (line 270) -/
def TwoOctetKind.subType : TwoOctetKind → UInt8
  | .routeTarget => 0x02
  | .routeOrigin => 0x03
  | .ospfDomainIdentifier => 0x05
  | .bgpDataCollection => 0x08
  | .sourceAs => 0x02
  | .l2VpnIdentifier => 0x0a
  | .ciscoVpnDistinguisher => 0x10
  | .routeTargetRecord => 0x13
  | .rtDerivedEc => 0x15
  | .virtualNetworkIdentifier => 0x80
  | .unassigned c => c

/-- `NonTransitiveTwoOctetExtendedCommunity`, `community.rs:644-661` -/
inductive NtTwoOctetKind where
  | linkBandwidth | virtualNetworkIdentifier
  | unassigned (subType : UInt8)
  deriving DecidableEq, Repr

/-- `wire/deserializer/community.rs:358-376`: the sub-types the parser knows -/
def NtTwoOctetKind.table : List (UInt8 × NtTwoOctetKind) :=
  [(0x04, .linkBandwidth), (0x80, .virtualNetworkIdentifier)]

/-- `wire/deserializer/community.rs:358-376` -/
def NtTwoOctetKind.ofSubType (c : UInt8) : NtTwoOctetKind := (NtTwoOctetKind.table.lookup c).getD (.unassigned c)

/-- `wire/serializer/community.rs:334-365` -/
def NtTwoOctetKind.subType : NtTwoOctetKind → UInt8
  | .linkBandwidth => 0x04
  | .virtualNetworkIdentifier => 0x80
  | .unassigned c => c

/-- `TransitiveIpv4ExtendedCommunity`, `community.rs:763-875` -/
inductive Ipv4Kind where
  | routeTarget | routeOrigin | ipv4Ifit | ospfDomainIdentifier | ospfRouteId | nodeTarget | l2VpnIdentifier | vrfRouteImport | flowSpecRedirectToIpv4 | ciscoVpnDistinguisher | interAreaP2MpSegmentedNextHop | routeTargetRecord | vrfRecursiveNextHop | rtDerivedEc | multicastVpnRpAddress
  | unassigned (subType : UInt8)
  deriving DecidableEq, Repr

/-- `wire/deserializer/community.rs:394-490`: the sub-types the parser knows -/
def Ipv4Kind.table : List (UInt8 × Ipv4Kind) :=
  [(0x02, .routeTarget), (0x03, .routeOrigin), (0x04, .ipv4Ifit), (0x05, .ospfDomainIdentifier), (0x08, .ospfRouteId), (0x09, .nodeTarget), (0x0a, .l2VpnIdentifier), (0x0b, .vrfRouteImport), (0x0c, .flowSpecRedirectToIpv4), (0x10, .ciscoVpnDistinguisher), (0x12, .interAreaP2MpSegmentedNextHop), (0x13, .routeTargetRecord), (0x14, .vrfRecursiveNextHop), (0x15, .rtDerivedEc), (0x80, .multicastVpnRpAddress)]

/-- `wire/deserializer/community.rs:394-490` -/
def Ipv4Kind.ofSubType (c : UInt8) : Ipv4Kind := (Ipv4Kind.table.lookup c).getD (.unassigned c)

/-- `wire/serializer/community.rs:388-537` -/
def Ipv4Kind.subType : Ipv4Kind → UInt8
  | .routeTarget => 0x02
  | .routeOrigin => 0x03
  | .ipv4Ifit => 0x04
  | .ospfDomainIdentifier => 0x05
  | .ospfRouteId => 0x08
  | .nodeTarget => 0x09
  | .l2VpnIdentifier => 0x0a
  | .vrfRouteImport => 0x0b
  | .flowSpecRedirectToIpv4 => 0x0c
  | .ciscoVpnDistinguisher => 0x10
  | .interAreaP2MpSegmentedNextHop => 0x12
  | .routeTargetRecord => 0x13
  | .vrfRecursiveNextHop => 0x14
  | .rtDerivedEc => 0x15
  | .multicastVpnRpAddress => 0x80
  | .unassigned c => c

/-- `TransitiveFourOctetExtendedCommunity`, `community.rs:674-729` -/
inductive FourOctetKind where
  | routeTarget | routeOrigin | ospfDomainIdentifier | bgpDataCollection | sourceAs | ciscoVpnDistinguisher | routeTargetRecord | rtDerivedEc
  | unassigned (subType : UInt8)
  deriving DecidableEq, Repr

/-- `wire/deserializer/community.rs:529-583`: the sub-types the parser knows -/
def FourOctetKind.table : List (UInt8 × FourOctetKind) :=
  [(0x02, .routeTarget), (0x03, .routeOrigin), (0x05, .ospfDomainIdentifier), (0x08, .bgpDataCollection), (0x09, .sourceAs), (0x10, .ciscoVpnDistinguisher), (0x13, .routeTargetRecord), (0x15, .rtDerivedEc)]

/-- `wire/deserializer/community.rs:529-583` -/
def FourOctetKind.ofSubType (c : UInt8) : FourOctetKind := (FourOctetKind.table.lookup c).getD (.unassigned c)

/-- `wire/serializer/community.rs:620-695`. `SourceAs` is written with the code of `RouteTarget` (line 657) -/
def FourOctetKind.subType : FourOctetKind → UInt8
  | .routeTarget => 0x02
  | .routeOrigin => 0x03
  | .ospfDomainIdentifier => 0x05
  | .bgpDataCollection => 0x08
  | .sourceAs => 0x02
  | .ciscoVpnDistinguisher => 0x10
  | .routeTargetRecord => 0x13
  | .rtDerivedEc => 0x15
  | .unassigned c => c

/-- `TransitiveIpv6ExtendedCommunity`, `community.rs:1112-1181` -/
inductive Ipv6Kind where
  | routeTarget | routeOrigin | ipv6Ifit | vrfRouteImport | flowSpecRedirectToIpv6 | flowSpecRtRedirectToIpv6 | ciscoVpnDistinguisher | interAreaP2MpSegmentedNextHop | rtDerivedEc
  | unassigned (subType : UInt8)
  deriving DecidableEq, Repr

/-- `wire/deserializer/community.rs:755-815`: the sub-types the parser knows -/
def Ipv6Kind.table : List (UInt8 × Ipv6Kind) :=
  [(0x02, .routeTarget), (0x03, .routeOrigin), (0x05, .ipv6Ifit), (0x0b, .vrfRouteImport), (0x0c, .flowSpecRedirectToIpv6), (0x0d, .flowSpecRtRedirectToIpv6), (0x10, .ciscoVpnDistinguisher), (0x12, .interAreaP2MpSegmentedNextHop), (0x15, .rtDerivedEc)]

/-- `wire/deserializer/community.rs:755-815` -/
def Ipv6Kind.ofSubType (c : UInt8) : Ipv6Kind := (Ipv6Kind.table.lookup c).getD (.unassigned c)

/-- `wire/serializer/community.rs:881-964`. `VrfRouteImport` takes its code from the IPv4 enum (line 910), the same number -/
def Ipv6Kind.subType : Ipv6Kind → UInt8
  | .routeTarget => 0x02
  | .routeOrigin => 0x03
  | .ipv6Ifit => 0x05
  | .vrfRouteImport => 0x0b
  | .flowSpecRedirectToIpv6 => 0x0c
  | .flowSpecRtRedirectToIpv6 => 0x0d
  | .ciscoVpnDistinguisher => 0x10
  | .interAreaP2MpSegmentedNextHop => 0x12
  | .rtDerivedEc => 0x15
  | .unassigned c => c

/-- `TransitiveOpaqueExtendedCommunity`, `community.rs:915-948` -/
inductive TransOpaque where
  | upa (drop : Bool) (routerId : UInt32)
  | defaultGateway
  | unassigned (subType : UInt8) (value : Bytes)
  deriving DecidableEq, Repr

/-- `EvpnExtendedCommunity`, `community.rs:1259-1368` -/
inductive EvpnComm where
  | macMobility (flags : UInt8) (seqNo : UInt32)
  | esiLabel (flags : UInt8) (label : Bytes)
  | esImportRouteTarget (rt : Bytes)
  | routersMac (mac : Bytes)
  | l2Attribute (controlFlags l2Mtu : UInt16)
  | unassigned (subType : UInt8) (value : Bytes)
  deriving DecidableEq, Repr

/-- `ExtendedCommunity`, `community.rs:168-200` -/
inductive ExtComm where
  | transTwoOctet (k : TwoOctetKind) (g : UInt16) (l : UInt32)
  | nonTransTwoOctet (k : NtTwoOctetKind) (g : UInt16) (l : UInt32)
  | transIpv4 (k : Ipv4Kind) (g : UInt32) (l : UInt16)
  | nonTransIpv4 (subType : UInt8) (g : UInt32) (l : UInt16)
  | transFourOctet (k : FourOctetKind) (g : UInt32) (l : UInt16)
  | nonTransFourOctet (subType : UInt8) (g : UInt32) (l : UInt16)
  | transOpaque (v : TransOpaque)
  | nonTransOpaque (subType : UInt8) (value : Bytes)
  | evpn (v : EvpnComm)
  | experimental (code subType : UInt8) (value : Bytes)
  | unknown (code subType : UInt8) (value : Bytes)
  deriving DecidableEq, Repr

/-- `ExtendedCommunityIpv6`, `community.rs:1079-1088` -/
inductive ExtComm6 where
  | trans (k : Ipv6Kind) (g : BitVec 128) (l : UInt16)
  | nonTrans (subType : UInt8) (g : BitVec 128) (l : UInt16)
  | unknown (code subType : UInt8) (value : Bytes)
  deriving DecidableEq, Repr

/-- `LargeCommunity`, `community.rs:96-139` -/
structure LargeComm where
  globalAdmin : UInt32
  localData1 : UInt32
  localData2 : UInt32
  deriving DecidableEq, Repr

/-! ## Parsing -/

/-- `wire/deserializer/community.rs:233-308` -/
def parseTwoOctet : Parser ParseError ExtComm := do
  let st ← readU8
  let g ← readU16
  let l ← readU32
  pure (.transTwoOctet (.ofSubType st) g l)

/-- `wire/deserializer/community.rs:352-379` -/
def parseNtTwoOctet : Parser ParseError ExtComm := do
  let st ← readU8
  let g ← readU16
  let l ← readU32
  pure (.nonTransTwoOctet (.ofSubType st) g l)

/-- `wire/deserializer/community.rs:387-493` -/
def parseIpv4Comm : Parser ParseError ExtComm := do
  let st ← readU8
  let g ← readU32
  let l ← readU16
  pure (.transIpv4 (.ofSubType st) g l)

/-- `wire/deserializer/community.rs:501-515` -/
def parseNtIpv4Comm : Parser ParseError ExtComm := do
  let st ← readU8
  let g ← readU32
  let l ← readU16
  pure (.nonTransIpv4 st g l)

/-- `wire/deserializer/community.rs:523-586` -/
def parseFourOctet : Parser ParseError ExtComm := do
  let st ← readU8
  let g ← readU32
  let l ← readU16
  pure (.transFourOctet (.ofSubType st) g l)

/-- `wire/deserializer/community.rs:594-607` -/
def parseNtFourOctet : Parser ParseError ExtComm := do
  let st ← readU8
  let g ← readU32
  let l ← readU16
  pure (.nonTransFourOctet st g l)

/-- the arms of `wire/deserializer/community.rs:619-640` -/
def transOpaqueBody (st : UInt8) : Parser ParseError TransOpaque :=
  if st = 0x09 then do
    let flags ← readU8
    let _ ← readU8
    let id ← readU32
    pure (.upa (flags &&& 0x80 == 0x80) id)
  else if st = 0x0d then do
    let _ ← readBytes 6
    pure .defaultGateway
  else do
    let v ← readArray 6
    pure (.unassigned st v)

/-- `wire/deserializer/community.rs:615-643` -/
def parseTransOpaque : Parser ParseError ExtComm := do
  let st ← readU8
  let v ← transOpaqueBody st
  pure (.transOpaque v)

/-- the arms of `wire/deserializer/community.rs:672-706` -/
def evpnCommBody (st : UInt8) : Parser ParseError EvpnComm :=
  if st = 0x00 then do
    let flags ← readU8
    let _ ← readU8
    let n ← readU32
    pure (.macMobility flags n)
  else if st = 0x01 then do
    let flags ← readU8
    let _ ← readU16
    let v ← readArray 3
    pure (.esiLabel flags v)
  else if st = 0x02 then do
    let v ← readArray 6
    pure (.esImportRouteTarget v)
  else if st = 0x03 then do
    let v ← readArray 6
    pure (.routersMac v)
  else if st = 0x04 then do
    let c ← readU16
    let m ← readU16
    let _ ← readU16
    pure (.l2Attribute c m)
  else do
    let v ← readArray 6
    pure (.unassigned st v)

/-- `wire/deserializer/community.rs:668-709` -/
def parseEvpnComm : Parser ParseError ExtComm := do
  let st ← readU8
  let v ← evpnCommBody st
  pure (.evpn v)

/-- `wire/deserializer/community.rs:651-658`, `717-724`, `732-739`: sub-type and six octets -/
def parseOpaque7 (mk : UInt8 → Bytes → ExtComm) : Parser ParseError ExtComm := do
  let st ← readU8
  let v ← readArray 6
  pure (mk st v)

/-- the `BgpExtendedCommunityType` codes routed to `Experimental`,
`wire/deserializer/community.rs:170-201` with `iana.rs:812-872` -/
def expCommType (c : UInt8) : Bool :=
  (0x83 ≤ c.toNat && c.toNat ≤ 0x8f) || (0xc0 ≤ c.toNat && c.toNat ≤ 0xcf)

/-- the `match` on the type octet, `wire/deserializer/community.rs:85-206`. The arms for the defined types without a
dedicated parser (0x04, 0x44, 0x05, 0x08, 0x09, 0x0a, 0x4a, 0x0b, 0x0c, 0x80, 0x81, 0x82) and for undefined ones all run
`UnknownExtendedCommunity::parse(cur, code)`. -/
def extCommBody (code : UInt8) : Parser ParseError ExtComm :=
  if code = 0x00 then parseTwoOctet
  else if code = 0x40 then parseNtTwoOctet
  else if code = 0x01 then parseIpv4Comm
  else if code = 0x41 then parseNtIpv4Comm
  else if code = 0x02 then parseFourOctet
  else if code = 0x42 then parseNtFourOctet
  else if code = 0x03 then parseTransOpaque
  else if code = 0x43 then parseOpaque7 .nonTransOpaque
  else if code = 0x06 then parseEvpnComm
  else if expCommType code then parseOpaque7 (.experimental code)
  else parseOpaque7 (.unknown code)

/-- `wire/deserializer/community.rs:80-209` -/
def parseExtComm : Parser ParseError ExtComm := do
  let code ← readU8
  extCommBody code

/-- the `match` of `wire/deserializer/community.rs:328-341` -/
def extComm6Body (code : UInt8) : Parser ParseError ExtComm6 :=
  if code = 0x00 then do
    let st ← readU8
    let g ← readU128
    let l ← readU16
    pure (.trans (.ofSubType st) g l)
  else if code = 0x40 then do
    let st ← readU8
    let g ← readU128
    let l ← readU16
    pure (.nonTrans st g l)
  else do
    let st ← readU8
    let v ← readArray 18
    pure (.unknown code st v)

/-- `wire/deserializer/community.rs:323-344`, with `747-840` and `848-855` -/
def parseExtComm6 : Parser ParseError ExtComm6 := do
  let code ← readU8
  extComm6Body code

/-- `wire/deserializer/community.rs:217-225` -/
def parseLargeComm : Parser ParseError LargeComm := do
  let g ← readU32
  let a ← readU32
  let b ← readU32
  pure ⟨g, a, b⟩

/-! ## Writing -/

/-- `wire/serializer/community.rs:750-778` -/
def TransOpaque.write : TransOpaque → Bytes
  | .upa d id => 0x09 :: (if d then 0x80 else 0) :: 0 :: u32be id
  | .defaultGateway => 0x0d :: (u16be 0 ++ u32be 0)
  | .unassigned st v => st :: v

/-- `wire/serializer/community.rs:1045-1089` -/
def EvpnComm.write : EvpnComm → Bytes
  | .macMobility f n => 0x00 :: f :: 0 :: u32be n
  | .esiLabel f l => 0x01 :: f :: (u16be 0 ++ l)
  | .esImportRouteTarget v => 0x02 :: v
  | .routersMac v => 0x03 :: v
  | .l2Attribute c m => 0x04 :: (u16be c ++ (u16be m ++ u16be 0))
  | .unassigned st v => st :: v

/-- `wire/serializer/community.rs:116-168` with the sub-type writers -/
def ExtComm.write : ExtComm → Bytes
  | .transTwoOctet k g l => 0x00 :: k.subType :: (u16be g ++ u32be l)
  | .nonTransTwoOctet k g l => 0x40 :: k.subType :: (u16be g ++ u32be l)
  | .transIpv4 k g l => 0x01 :: k.subType :: (u32be g ++ u16be l)
  | .nonTransIpv4 st g l => 0x41 :: st :: (u32be g ++ u16be l)
  | .transFourOctet k g l => 0x02 :: k.subType :: (u32be g ++ u16be l)
  | .nonTransFourOctet st g l => 0x42 :: st :: (u32be g ++ u16be l)
  | .transOpaque v => 0x03 :: v.write
  | .nonTransOpaque st v => 0x43 :: st :: v
  | .evpn v => 0x06 :: v.write
  | .experimental c st v => c :: st :: v
  | .unknown c st v => c :: st :: v

/-- `wire/serializer/community.rs:96-114`: 1 + 7 in every arm -/
def ExtComm.len (_ : ExtComm) : Nat := 1 + 7

/-- `wire/serializer/community.rs:198-219` -/
def ExtComm6.write : ExtComm6 → Bytes
  | .trans k g l => 0x00 :: k.subType :: (u128be g ++ u16be l)
  | .nonTrans st g l => 0x40 :: st :: (u128be g ++ u16be l)
  | .unknown c st v => c :: st :: v

/-- `wire/serializer/community.rs:186-196`: 1 + 19 in every arm -/
def ExtComm6.len (_ : ExtComm6) : Nat := 1 + 19

/-- `wire/serializer/community.rs:231-243` -/
def LargeComm.write (c : LargeComm) : Bytes :=
  u32be c.globalAdmin ++ (u32be c.localData1 ++ u32be c.localData2)

/-! ## Classification -/

/-- `transitive()`, `community.rs:219-233` with the implementations at 639, 668, 736, 757, 882, 904, 955, 972, 1013, 1054
and 1375 -/
def ExtComm.transitive : ExtComm → Bool
  | .transTwoOctet .. => true
  | .nonTransTwoOctet .. => false
  | .transIpv4 .. => true
  | .nonTransIpv4 .. => false
  | .transFourOctet .. => true
  | .nonTransFourOctet .. => true
  | .transOpaque _ => false
  | .nonTransOpaque .. => false
  | .experimental c _ _ => c &&& 0x40 == 0
  | .evpn _ => true
  | .unknown c _ _ => c &&& 0x40 == 0

/-- `transitive()`, `community.rs:1099-1105` with 1188, 1210 and 1251 -/
def ExtComm6.transitive : ExtComm6 → Bool
  | .trans .. => true
  | .nonTrans .. => false
  | .unknown c _ _ => c &&& 0x40 == 0

/-! ## Well-formedness: values a parser can produce and the type system allows -/

def TwoOctetKind.Canon : TwoOctetKind → Prop
  | .sourceAs => False
  | .unassigned c => TwoOctetKind.table.lookup c = none
  | _ => True
def NtTwoOctetKind.Canon : NtTwoOctetKind → Prop
  | .unassigned c => NtTwoOctetKind.table.lookup c = none
  | _ => True
def Ipv4Kind.Canon : Ipv4Kind → Prop
  | .unassigned c => Ipv4Kind.table.lookup c = none
  | _ => True
def FourOctetKind.Canon : FourOctetKind → Prop
  | .sourceAs => False
  | .unassigned c => FourOctetKind.table.lookup c = none
  | _ => True
def Ipv6Kind.Canon : Ipv6Kind → Prop
  | .unassigned c => Ipv6Kind.table.lookup c = none
  | _ => True

def TransOpaque.WF : TransOpaque → Prop
  | .unassigned st v => st ≠ 0x09 ∧ st ≠ 0x0d ∧ v.length = 6
  | _ => True

def EvpnComm.WF : EvpnComm → Prop
  | .esiLabel _ l => l.length = 3
  | .esImportRouteTarget v => v.length = 6
  | .routersMac v => v.length = 6
  | .unassigned st v => 4 < st.toNat ∧ v.length = 6
  | _ => True

/-- the type octets with a dedicated parser -/
def extCommKnown : List UInt8 := [0x00, 0x40, 0x01, 0x41, 0x02, 0x42, 0x03, 0x43, 0x06]

/-- Array lengths are right and a variant that keeps its code generic (`Unassigned`, `Experimental`, `Unknown`) does not
carry a code owned by another variant; the two `SourceAs` variants, which the writer confuses with `RouteTarget`, are
excluded. -/
def ExtComm.WF : ExtComm → Prop
  | .transTwoOctet k _ _ => k.Canon
  | .nonTransTwoOctet k _ _ => k.Canon
  | .transIpv4 k _ _ => k.Canon
  | .transFourOctet k _ _ => k.Canon
  | .transOpaque v => v.WF
  | .nonTransOpaque _ v => v.length = 6
  | .evpn v => v.WF
  | .experimental c _ v => expCommType c = true ∧ v.length = 6
  | .unknown c _ v => c ∉ extCommKnown ∧ expCommType c = false ∧ v.length = 6
  | _ => True

def ExtComm6.WF : ExtComm6 → Prop
  | .trans k _ _ => k.Canon
  | .nonTrans .. => True
  | .unknown c _ v => c ≠ 0x00 ∧ c ≠ 0x40 ∧ v.length = 18

/-! ## Lemmas -/

theorem TwoOctetKind.ofSubType_subType {k : TwoOctetKind} (h : k.Canon) : TwoOctetKind.ofSubType k.subType = k := by
  cases k
  case unassigned c => unfold TwoOctetKind.Canon at h; simp only [TwoOctetKind.ofSubType, TwoOctetKind.subType, h, Option.getD_none]
  case sourceAs => exact h.elim
  all_goals decide

theorem NtTwoOctetKind.ofSubType_subType {k : NtTwoOctetKind} (h : k.Canon) : NtTwoOctetKind.ofSubType k.subType = k := by
  cases k
  case unassigned c => unfold NtTwoOctetKind.Canon at h; simp only [NtTwoOctetKind.ofSubType, NtTwoOctetKind.subType, h, Option.getD_none]
  all_goals decide

theorem Ipv4Kind.ofSubType_subType {k : Ipv4Kind} (h : k.Canon) : Ipv4Kind.ofSubType k.subType = k := by
  cases k
  case unassigned c => unfold Ipv4Kind.Canon at h; simp only [Ipv4Kind.ofSubType, Ipv4Kind.subType, h, Option.getD_none]
  all_goals decide

theorem FourOctetKind.ofSubType_subType {k : FourOctetKind} (h : k.Canon) : FourOctetKind.ofSubType k.subType = k := by
  cases k
  case unassigned c => unfold FourOctetKind.Canon at h; simp only [FourOctetKind.ofSubType, FourOctetKind.subType, h, Option.getD_none]
  case sourceAs => exact h.elim
  all_goals decide

theorem Ipv6Kind.ofSubType_subType {k : Ipv6Kind} (h : k.Canon) : Ipv6Kind.ofSubType k.subType = k := by
  cases k
  case unassigned c => unfold Ipv6Kind.Canon at h; simp only [Ipv6Kind.ofSubType, Ipv6Kind.subType, h, Option.getD_none]
  all_goals decide

theorem reads_transOpaque {v : TransOpaque} (h : v.WF) :
    ∃ st w, v.write = st :: w ∧ Reads (transOpaqueBody st) v w := by
  cases v with
  | upa d id =>
    refine ⟨_, _, rfl, ?_⟩
    unfold transOpaqueBody
    refine Reads.ite_pos rfl ?_
    preads
    have : ((if d then (0x80 : UInt8) else 0) &&& 0x80 == 0x80) = d := by cases d <;> decide
    rw [this]; exact Reads.pure _
  | defaultGateway =>
    refine ⟨_, _, rfl, ?_⟩
    unfold transOpaqueBody
    refine Reads.ite_neg (by decide) (Reads.ite_pos rfl ?_)
    exact Reads.bind_last (reads_bytes (by simp)) (Reads.pure _)
  | unassigned st v =>
    obtain ⟨h1, h2, h3⟩ := h
    refine ⟨_, _, rfl, ?_⟩
    unfold transOpaqueBody
    refine Reads.ite_neg h1 (Reads.ite_neg h2 ?_)
    preads

theorem reads_evpnComm {v : EvpnComm} (h : v.WF) :
    ∃ st w, v.write = st :: w ∧ Reads (evpnCommBody st) v w := by
  cases v with
  | macMobility f n =>
    refine ⟨_, _, rfl, ?_⟩
    unfold evpnCommBody
    refine Reads.ite_pos rfl ?_
    preads
  | esiLabel f l =>
    have h : l.length = 3 := h
    refine ⟨_, _, rfl, ?_⟩
    unfold evpnCommBody
    refine Reads.ite_neg (by decide) (Reads.ite_pos rfl ?_)
    preads
  | esImportRouteTarget v =>
    have h : v.length = 6 := h
    refine ⟨_, _, rfl, ?_⟩
    unfold evpnCommBody
    refine Reads.ite_neg (by decide) (Reads.ite_neg (by decide) (Reads.ite_pos rfl ?_))
    preads
  | routersMac v =>
    have h : v.length = 6 := h
    refine ⟨_, _, rfl, ?_⟩
    unfold evpnCommBody
    refine Reads.ite_neg (by decide) (Reads.ite_neg (by decide) (Reads.ite_neg (by decide) (Reads.ite_pos rfl ?_)))
    preads
  | l2Attribute c m =>
    refine ⟨_, _, rfl, ?_⟩
    unfold evpnCommBody
    refine Reads.ite_neg (by decide) (Reads.ite_neg (by decide) (Reads.ite_neg (by decide)
      (Reads.ite_neg (by decide) (Reads.ite_pos rfl ?_))))
    preads
  | unassigned st v =>
    obtain ⟨h1, h3⟩ := h
    have hne : ∀ c : UInt8, c.toNat ≤ 4 → st ≠ c := fun c hc e => by subst e; omega
    refine ⟨_, _, rfl, ?_⟩
    unfold evpnCommBody
    refine Reads.ite_neg (hne 0 (by decide)) (Reads.ite_neg (hne 1 (by decide)) (Reads.ite_neg (hne 2 (by decide))
      (Reads.ite_neg (hne 3 (by decide)) (Reads.ite_neg (hne 4 (by decide)) ?_))))
    preads

theorem reads_opaque7 (mk : UInt8 → Bytes → ExtComm) (st : UInt8) {v : Bytes} (h : v.length = 6) :
    Reads (parseOpaque7 mk) (mk st v) (st :: v) := by
  unfold parseOpaque7
  preads

theorem expCommType_ne {c x : UInt8} (h : expCommType c = true) (hx : expCommType x = false := by decide) : c ≠ x := by
  intro e; subst e; rw [h] at hx; exact absurd hx (by decide)

theorem reads_extComm {c : ExtComm} (h : c.WF) : Reads parseExtComm c c.write := by
  unfold parseExtComm
  cases c with
  | transTwoOctet k g l =>
    refine Reads.u8_cons' ?_
    unfold extCommBody parseTwoOctet
    refine Reads.ite_pos rfl ?_
    preads
    rw [TwoOctetKind.ofSubType_subType h]; exact Reads.pure _
  | nonTransTwoOctet k g l =>
    refine Reads.u8_cons' ?_
    unfold extCommBody parseNtTwoOctet
    refine Reads.ite_neg (by decide) (Reads.ite_pos rfl ?_)
    preads
    rw [NtTwoOctetKind.ofSubType_subType h]; exact Reads.pure _
  | transIpv4 k g l =>
    refine Reads.u8_cons' ?_
    unfold extCommBody parseIpv4Comm
    refine Reads.ite_neg (by decide) (Reads.ite_neg (by decide) (Reads.ite_pos rfl ?_))
    preads
    rw [Ipv4Kind.ofSubType_subType h]; exact Reads.pure _
  | nonTransIpv4 st g l =>
    refine Reads.u8_cons' ?_
    unfold extCommBody parseNtIpv4Comm
    refine Reads.ite_neg (by decide) (Reads.ite_neg (by decide) (Reads.ite_neg (by decide) (Reads.ite_pos rfl ?_)))
    preads
  | transFourOctet k g l =>
    refine Reads.u8_cons' ?_
    unfold extCommBody parseFourOctet
    refine Reads.ite_neg (by decide) (Reads.ite_neg (by decide) (Reads.ite_neg (by decide) (Reads.ite_neg (by decide)
      (Reads.ite_pos rfl ?_))))
    preads
    rw [FourOctetKind.ofSubType_subType h]; exact Reads.pure _
  | nonTransFourOctet st g l =>
    refine Reads.u8_cons' ?_
    unfold extCommBody parseNtFourOctet
    refine Reads.ite_neg (by decide) (Reads.ite_neg (by decide) (Reads.ite_neg (by decide) (Reads.ite_neg (by decide)
      (Reads.ite_neg (by decide) (Reads.ite_pos rfl ?_)))))
    preads
  | transOpaque v =>
    refine Reads.u8_cons' ?_
    unfold extCommBody parseTransOpaque
    refine Reads.ite_neg (by decide) (Reads.ite_neg (by decide) (Reads.ite_neg (by decide) (Reads.ite_neg (by decide)
      (Reads.ite_neg (by decide) (Reads.ite_neg (by decide) (Reads.ite_pos rfl ?_))))))
    obtain ⟨st, w, hw, hr⟩ := reads_transOpaque h
    rw [hw]
    preads [hr]
  | nonTransOpaque st v =>
    refine Reads.u8_cons' ?_
    unfold extCommBody
    refine Reads.ite_neg (by decide) (Reads.ite_neg (by decide) (Reads.ite_neg (by decide) (Reads.ite_neg (by decide)
      (Reads.ite_neg (by decide) (Reads.ite_neg (by decide) (Reads.ite_neg (by decide) (Reads.ite_pos rfl ?_)))))))
    exact reads_opaque7 _ _ h
  | evpn v =>
    refine Reads.u8_cons' ?_
    unfold extCommBody parseEvpnComm
    refine Reads.ite_neg (by decide) (Reads.ite_neg (by decide) (Reads.ite_neg (by decide) (Reads.ite_neg (by decide)
      (Reads.ite_neg (by decide) (Reads.ite_neg (by decide) (Reads.ite_neg (by decide) (Reads.ite_neg (by decide)
      (Reads.ite_pos rfl ?_))))))))
    obtain ⟨st, w, hw, hr⟩ := reads_evpnComm h
    rw [hw]
    preads [hr]
  | experimental c st v =>
    obtain ⟨h1, h2⟩ := h
    refine Reads.u8_cons' ?_
    unfold extCommBody
    refine Reads.ite_neg (expCommType_ne h1) (Reads.ite_neg (expCommType_ne h1) (Reads.ite_neg (expCommType_ne h1)
      (Reads.ite_neg (expCommType_ne h1) (Reads.ite_neg (expCommType_ne h1) (Reads.ite_neg (expCommType_ne h1)
      (Reads.ite_neg (expCommType_ne h1) (Reads.ite_neg (expCommType_ne h1) (Reads.ite_neg (expCommType_ne h1)
      (Reads.ite_pos h1 ?_)))))))))
    exact reads_opaque7 _ _ h2
  | unknown c st v =>
    obtain ⟨h0, h1, h2⟩ := h
    simp only [extCommKnown, List.mem_cons, List.not_mem_nil, or_false, not_or] at h0
    obtain ⟨a0, a1, a2, a3, a4, a5, a6, a7, a8⟩ := h0
    refine Reads.u8_cons' ?_
    unfold extCommBody
    refine Reads.ite_neg a0 (Reads.ite_neg a1 (Reads.ite_neg a2 (Reads.ite_neg a3 (Reads.ite_neg a4 (Reads.ite_neg a5
      (Reads.ite_neg a6 (Reads.ite_neg a7 (Reads.ite_neg a8 (Reads.ite_neg (by rw [h1]; decide) ?_)))))))))
    exact reads_opaque7 _ _ h2

theorem reads_extComm6 {c : ExtComm6} (h : c.WF) : Reads parseExtComm6 c c.write := by
  unfold parseExtComm6
  cases c with
  | trans k g l =>
    refine Reads.u8_cons' ?_
    unfold extComm6Body
    refine Reads.ite_pos rfl ?_
    preads
    rw [Ipv6Kind.ofSubType_subType h]; exact Reads.pure _
  | nonTrans st g l =>
    refine Reads.u8_cons' ?_
    unfold extComm6Body
    refine Reads.ite_neg (by decide) (Reads.ite_pos rfl ?_)
    preads
  | unknown c st v =>
    obtain ⟨h1, h2, h3⟩ := h
    refine Reads.u8_cons' ?_
    unfold extComm6Body
    refine Reads.ite_neg h1 (Reads.ite_neg h2 ?_)
    preads

theorem reads_largeComm (c : LargeComm) : Reads parseLargeComm c c.write := by
  unfold parseLargeComm LargeComm.write
  preads

theorem length_transOpaque {v : TransOpaque} (h : v.WF) : v.write.length = 7 := by
  cases v <;> simp [TransOpaque.write, TransOpaque.WF] at h ⊢ <;> simp [h]
theorem length_evpnComm {v : EvpnComm} (h : v.WF) : v.write.length = 7 := by
  cases v <;> simp [EvpnComm.write, EvpnComm.WF] at h ⊢ <;> simp [h]
theorem length_extComm {c : ExtComm} (h : c.WF) : c.write.length = 8 := by
  cases c
  case transOpaque v => simp only [ExtComm.write, List.length_cons, length_transOpaque h]
  case evpn v => simp only [ExtComm.write, List.length_cons, length_evpnComm h]
  all_goals simp [ExtComm.write, ExtComm.WF] at h ⊢ <;> simp [h]
theorem length_extComm6 {c : ExtComm6} (h : c.WF) : c.write.length = 20 := by
  cases c <;> simp [ExtComm6.write, ExtComm6.WF] at h ⊢ <;> simp [h]
theorem length_largeComm (c : LargeComm) : c.write.length = 12 := by simp [LargeComm.write]

theorem safe_extCommBody (c : UInt8) : Safe 0 (extCommBody c) := by
  unfold extCommBody parseTwoOctet parseNtTwoOctet parseIpv4Comm parseNtIpv4Comm parseFourOctet parseNtFourOctet
    parseTransOpaque parseEvpnComm parseOpaque7 transOpaqueBody evpnCommBody
  psafe
theorem safe_parseExtComm : Safe 1 parseExtComm :=
  safe_bind_l safe_readU8 fun c => safe_extCommBody c
theorem safe_extComm6Body (c : UInt8) : Safe 0 (extComm6Body c) := by
  unfold extComm6Body
  psafe
theorem safe_parseExtComm6 : Safe 1 parseExtComm6 :=
  safe_bind_l safe_readU8 fun c => safe_extComm6Body c
theorem safe_parseLargeComm : Safe 1 parseLargeComm :=
  (safe_bind_l safe_readU32 fun c => by psafe).mono (by omega)

end Verif.Bgp
