import Verif.Core.Write
import Verif.Bgp.LsAttr
/-!
# BGP Prefix-SID path attribute (RFC 8669, RFC 9252)

Files: `crates/bgp-pkt/src/wire/deserializer/path_attribute/bgp_sid.rs` (D),
`wire/serializer/path_attribute/bgp_sid.rs` (S), `path_attribute/bgp_sid.rs` (T), `iana.rs` (I). An MPLS label
and an SRGB range size are lists of three octets (`WF`). The capacity hints (`count_tlvs_t8_l16`) have no
observable effect and are left out.
-/
namespace Verif.Bgp
open Parser

/-- `BgpPrefixSidSubSubTlvParsingError`, D:76-86 -/
inductive SidSubSubError where
  | parse (e : ParseError)
  | badType (offset : Nat) (code : UInt8)
  deriving DecidableEq, Repr

/-- `BgpPrefixSidSubTlvParsingError`, D:63-74 -/
inductive SidSubError where
  | parse (e : ParseError)
  | badType (offset : Nat) (code : UInt8)
  | subSub (e : SidSubSubError)
  deriving DecidableEq, Repr

/-- `BgpSRv6SRGBParsingError`, D:277-283; an MPLS label error is always a `ParseError` -/
inductive SrgbError where
  | parse (e : ParseError)
  | label (e : ParseError)
  deriving DecidableEq, Repr

/-- `BgpPrefixSidTlvParsingError`, D:45-61 -/
inductive SidTlvError where
  | parse (e : ParseError)
  | badType (offset : Nat) (code : UInt8)
  | srgb (e : SrgbError)
  | sub (e : SidSubError)
  deriving DecidableEq, Repr

/-- `SegmentIdentifierParsingError`, D:36-43 -/
inductive SidError where
  | parse (e : ParseError)
  | tlv (e : SidTlvError)
  deriving DecidableEq, Repr

/-- `SegmentRoutingGlobalBlock`, T:23-26 -/
structure Srgb where
  label : Bytes
  range : Bytes
  deriving DecidableEq, Repr

/-- `SRv6ServiceSubSubTlv`, T:324-382 -/
inductive SidSubSub where
  | sidStructure (block node function arg transLen transOff : UInt8)
  | unknown (code : UInt8) (v : Bytes)
  deriving DecidableEq, Repr

/-- `SRv6ServiceSubTlv`, T:211-277 -/
inductive SidSub where
  | information (reserved1 : UInt8) (sid : BitVec 128) (flags : UInt8) (behaviour : UInt16) (reserved2 : UInt8)
      (subs : List SidSubSub)
  | unknown (code : UInt8) (v : Bytes)
  deriving DecidableEq, Repr

/-- `BgpSidAttribute`, T:48-182 -/
inductive SidTlv where
  | labelIndex (flags : UInt16) (index : UInt32)
  | originator (flags : UInt16) (srgbs : List Srgb)
  | serviceL3 (reserved : UInt8) (subs : List SidSub)
  | serviceL2 (reserved : UInt8) (subs : List SidSub)
  | unknown (code : UInt8) (v : Bytes)
  deriving DecidableEq, Repr

/-! ## Parsing -/

/-- `SRv6ServiceSubSubTlv::parse` after the header, D:235-273; code classes I:2025-2038 -/
def sidSubSubBody (o : Nat) (t : UInt8) (_l : UInt16) : Parser SidSubSubError SidSubSub :=
  if t = 1 then do
    let a ← mapErr .parse readU8
    let b ← mapErr .parse readU8
    let c ← mapErr .parse readU8
    let d ← mapErr .parse readU8
    let e ← mapErr .parse readU8
    let f ← mapErr .parse readU8
    pure (.sidStructure a b c d e f)
  else if t = 0 ∨ t = 255 then fail (.badType o t)
  else .unknown t <$> restBytes .parse

/-- `SRv6ServiceSubSubTlv::parse`, D:227-275 -/
def parseSidSubSub : Parser SidSubSubError SidSubSub := tlv8 .parse sidSubSubBody

/-- the fields of `SRv6SIDInformation`, D:200-221 -/
def sidInformation : Parser SidSubError SidSub := do
  let r1 ← mapErr .parse readU8
  let sid ← mapErr .parse readU128
  let fl ← mapErr .parse readU8
  let eb ← mapErr .parse readU16
  let r2 ← mapErr .parse readU8
  let subs ← mapErr .subSub (many parseSidSubSub)
  pure (.information r1 sid fl eb r2 subs)

/-- `SRv6ServiceSubTlv::parse` after the header, D:182-224; code classes I:1984-1997 -/
def sidSubBody (o : Nat) (t : UInt8) (_l : UInt16) : Parser SidSubError SidSub :=
  if t = 1 then sidInformation
  else if t = 0 ∨ t = 255 then fail (.badType o t)
  else .unknown t <$> restBytes .parse

/-- `SRv6ServiceSubTlv::parse`, D:175-225 -/
def parseSidSub : Parser SidSubError SidSub := tlv8 .parse sidSubBody

/-- `SegmentRoutingGlobalBlock::parse`, D:285-293 -/
def parseSrgb : Parser SrgbError Srgb := do
  let l ← mapErr .label (readArray 3)
  let r ← mapErr .parse (readArray 3)
  pure ⟨l, r⟩

/-- D:130-135 -/
def sidLabelIndex : Parser SidTlvError SidTlv := do
  let _ ← mapErr .parse readU8
  let f ← mapErr .parse readU16
  let i ← mapErr .parse readU32
  pure (.labelIndex f i)
/-- D:136-147 -/
def sidOriginator : Parser SidTlvError SidTlv := do
  let f ← mapErr .parse readU16
  let l ← mapErr .srgb (many parseSrgb)
  pure (.originator f l)
/-- D:148-169 -/
def sidService (mk : UInt8 → List SidSub → SidTlv) : Parser SidTlvError SidTlv := do
  let r ← mapErr .parse readU8
  let l ← mapErr .sub (many parseSidSub)
  pure (mk r l)

/-- `BgpSidAttribute::parse` after the header, D:113-172; code classes I:1941-1956 -/
def sidTlvBody (o : Nat) (t : UInt8) (_l : UInt16) : Parser SidTlvError SidTlv :=
  if t = 1 then sidLabelIndex
  else if t = 3 then sidOriginator
  else if t = 5 then sidService .serviceL3
  else if t = 6 then sidService .serviceL2
  else if t = 0 ∨ t = 255 ∨ t = 2 then fail (.badType o t)
  else .unknown t <$> restBytes .parse

/-- `BgpSidAttribute::parse`, D:106-173 -/
def parseSidTlv : Parser SidTlvError SidTlv := tlv8 .parse sidTlvBody

/-- `PrefixSegmentIdentifier::parse`, D:88-104 -/
def parseSid (ext : Bool) : Parser SidError (List SidTlv) := do
  let d ← attrSlice .parse ext
  let x ← onSub d (mapErr .tlv (many parseSidTlv))
  pure x.1

/-! ## Writing -/

/-- T:384-400 -/
def SidSubSub.code : SidSubSub → UInt8 | sidStructure .. => 1 | unknown c _ => c
/-- S:222-237 -/
def SidSubSub.value : SidSubSub → Bytes
  | sidStructure a b c d e f => [a, b, c, d, e, f]
  | unknown _ v => v
/-- S:206-212 -/
def SidSubSub.len : SidSubSub → Nat | sidStructure .. => 3 + 6 | unknown _ v => 3 + v.length
/-- S:214-239 -/
def SidSubSub.write (s : SidSubSub) : Res AttrWriteErr Bytes := (tlvHead8 s.code s.len).cat (.ok s.value)

/-- T:279-295 -/
def SidSub.code : SidSub → UInt8 | information .. => 1 | unknown c _ => c
/-- S:150-165 without the header -/
def SidSub.valueLen : SidSub → Nat
  | information _ _ _ _ _ l => 1 + 16 + 1 + 2 + 1 + (l.map SidSubSub.len).sum
  | unknown _ v => v.length
/-- S:170-191 -/
def SidSub.value : SidSub → Res AttrWriteErr Bytes
  | information r1 sid fl eb r2 l =>
    Res.cat (.ok (r1 :: (u128be sid ++ (fl :: (u16be eb ++ [r2]))))) (Res.catAll (l.map SidSubSub.write))
  | unknown _ v => .ok v
/-- S:150-165 -/
def SidSub.len (s : SidSub) : Nat := 3 + s.valueLen
/-- S:167-193 -/
def SidSub.write (s : SidSub) : Res AttrWriteErr Bytes := (tlvHead8 s.code s.len).cat s.value

/-- S:129-134 -/
def Srgb.write (s : Srgb) : Bytes := s.label ++ s.range

/-- T:433-450 -/
def SidTlv.code : SidTlv → UInt8
  | labelIndex .. => 1 | originator .. => 3 | serviceL3 .. => 5 | serviceL2 .. => 6 | unknown c _ => c
/-- S:64-75 without the header -/
def SidTlv.valueLen : SidTlv → Nat
  | labelIndex .. => 7
  | originator _ l => 2 + 6 * l.length
  | serviceL3 _ l | serviceL2 _ l => 1 + (l.map SidSub.len).sum
  | unknown _ v => v.length
/-- S:80-107 -/
def SidTlv.value : SidTlv → Res AttrWriteErr Bytes
  | labelIndex f i => .ok (0 :: (u16be f ++ u32be i))
  | originator f l => .ok (u16be f ++ (l.map Srgb.write).flatten)
  | serviceL3 r l | serviceL2 r l => Res.cat (.ok [r]) (Res.catAll (l.map SidSub.write))
  | unknown _ v => .ok v
/-- S:64-75 -/
def SidTlv.len (s : SidTlv) : Nat := 3 + s.valueLen
/-- S:77-109 -/
def SidTlv.write (s : SidTlv) : Res AttrWriteErr Bytes := (tlvHead8 s.code s.len).cat s.value

/-- S:27-31 without the length octets -/
def lenSid (l : List SidTlv) : Nat := (l.map SidTlv.len).sum
/-- S:40-42 -/
def writeSid (l : List SidTlv) : Res AttrWriteErr Bytes := Res.catAll (l.map SidTlv.write)

end Verif.Bgp
