import Verif.Bgp.Ls
import Verif.Bgp.Caps
/-!
# BGP-LS path attribute (RFC 7752 section 3.3)

Files: `crates/bgp-pkt/src/wire/deserializer/path_attribute/bgp_ls.rs` (D),
`wire/serializer/path_attribute/bgp_ls.rs` (S), `path_attribute/bgp_ls.rs` (T), `iana.rs` (I). A 32-bit float
is its bit pattern (`f32::from_be_bytes`/`to_be_bytes` copy the bits). UTF-8 validity is Lean core's.
-/
namespace Verif.Bgp
open Parser

/-- `BgpLsAttributeParsingError`, D:36-57 -/
inductive LsAttrError where
  | parse (e : ParseError)
  | unknownTlvType (offset : Nat) (code : UInt16)
  | utf8 (offset : Nat)
  | wrongIpAddrLength (offset length : Nat)
  | mplsLabel (e : ParseError)
  | badSidValue (offset : Nat) (value : UInt8)
  | multiTopology (e : LsError)
  deriving DecidableEq, Repr

/-- the errors of the path attribute writers that are not I/O errors -/
inductive AttrWriteErr where
  /-- `BgpLsAttributeWritingError::NodeNameTlvStringTooLong`, S:38-39 -/
  | nodeNameTooLong (len : Nat)
  deriving DecidableEq, Repr

/-- `BgpLsPeerSid`, T:489-500 -/
inductive PeerSid where
  | label (flags weight : UInt8) (l : Bytes)
  | index (flags weight : UInt8) (i : UInt32)
  deriving DecidableEq, Repr

/-- `BgpLsAttributeValue`, T:64-285 -/
inductive LsAttr where
  | localV4 (a : UInt32)
  | localV6 (a : BitVec 128)
  | remoteV4 (a : UInt32)
  | remoteV6 (a : BitVec 128)
  | color (c : UInt32)
  | maxBandwidth (f : UInt32)
  | maxReservable (f : UInt32)
  | unreserved (f : List UInt32)
  | teMetric (m : UInt32)
  | linkProtection (extra unprotected shared d1c1 d1p1 enhanced : Bool)
  | mplsMask (ldp rsvp : Bool)
  | igpMetric (v : Bytes)
  | srlg (v : List UInt32)
  | opaqueLink (v : Bytes)
  | linkName (s : String)
  | igpFlags (updown noUnicast localAddr nssa : Bool)
  | routeTag (v : List UInt32)
  | extRouteTag (v : List UInt64)
  | prefixMetric (m : UInt32)
  | ospfForwarding (a : IpAddr)
  | opaquePrefix (v : Bytes)
  | multiTopology (v : List UInt16)
  | nodeFlags (overload attached external abr router v6 : Bool)
  | opaqueNode (v : Bytes)
  | nodeName (s : String)
  | isisArea (v : Bytes)
  | peerNode (s : PeerSid)
  | peerAdj (s : PeerSid)
  | peerSet (s : PeerSid)
  | unknown (code : UInt16) (v : Bytes)
  deriving DecidableEq

/-! ## Parsing -/

/-- `flags.bitand(bit) == bit` -/
def hasBit (f m : UInt8) : Bool := f &&& m == m
def hasBit16 (f m : UInt16) : Bool := f &&& m == m

/-- D:111-128, bits I:1880-1887 -/
def nodeFlagsOf (f : UInt8) : LsAttr :=
  .nodeFlags (hasBit f 0x80) (hasBit f 0x40) (hasBit f 0x20) (hasBit f 0x10) (hasBit f 0x08) (hasBit f 0x04)
/-- D:184-200, bits T:454-461 -/
def linkProtectionOf (f : UInt16) : LsAttr :=
  .linkProtection (hasBit16 f 0x01) (hasBit16 f 0x02) (hasBit16 f 0x04) (hasBit16 f 0x08) (hasBit16 f 0x10)
    (hasBit16 f 0x20)
/-- D:201-209 -/
def mplsMaskOf (f : UInt8) : LsAttr := .mplsMask (hasBit f 0x80) (hasBit f 0x40)
/-- D:234-245 -/
def igpFlagsOf (f : UInt8) : LsAttr :=
  .igpFlags (hasBit f 0x80) (hasBit f 0x40) (hasBit f 0x20) (hasBit f 0x10)

/-- a UTF-8 string filling the TLV, D:132-142 and D:223-233 -/
def parseLsName (l : UInt16) : Parser LsAttrError String := do
  let o ← getOffset
  let b ← mapErr .parse (readBytes l.toNat)
  ofOption (.utf8 o) (ofUtf8 b)

/-- eight floats, D:171-177 -/
def parseBandwidths : Nat → Parser LsAttrError (List UInt32)
  | 0 => pure []
  | n + 1 => do
    let v ← mapErr .parse readU32
    let vs ← parseBandwidths n
    pure (v :: vs)

/-- `BgpLsPeerSid::parse`, D:305-335; the V flag is 0x80 -/
def parsePeerSid (l : UInt16) : Parser LsAttrError PeerSid := do
  let o ← getOffset
  let f ← mapErr .parse readU8
  let w ← mapErr .parse readU8
  let _ ← mapErr .parse readU16
  if l = 7 ∧ hasBit f 0x80 = true then do
    let b ← mapErr .mplsLabel (readArray 3)
    pure (.label f w b)
  else if l = 8 ∧ hasBit f 0x80 = false then do
    let i ← mapErr .parse readU32
    pure (.index f w i)
  else fail (.badSidValue o f)

/-- OSPF forwarding address, D:266-281 -/
def parseForwarding (o : Nat) (l : UInt16) : Parser LsAttrError LsAttr :=
  if l = 4 then (fun v => .ospfForwarding (.v4 v)) <$> mapErr .parse readU32
  else if l = 16 then (fun v => .ospfForwarding (.v6 v)) <$> mapErr .parse readU128
  else fail (.wrongIpAddrLength o l.toNat)

/-- a list of 32-bit words filling the TLV, D:213-220 -/
def parseWords : Parser LsAttrError (List UInt32) := many (mapErr .parse readU32)

/-- the value of a TLV that is read from its own slice, D:85-293; codes I:1713-1743, reserved range I:1779.
The route tags appear here only for an empty value: `while !data.is_empty()` does not run. -/
def lsAttrBody (o : Nat) (t l : UInt16) : Parser LsAttrError LsAttr :=
  if t = 263 then .multiTopology <$> mapErr .multiTopology parseMtIds
  else if t = 1024 then nodeFlagsOf <$> mapErr .parse readU8
  else if t = 1025 then .opaqueNode <$> restBytes .parse
  else if t = 1026 then .nodeName <$> parseLsName l
  else if t = 1027 then .isisArea <$> restBytes .parse
  else if t = 1028 then .localV4 <$> mapErr .parse readU32
  else if t = 1029 then .localV6 <$> mapErr .parse readU128
  else if t = 1030 then .remoteV4 <$> mapErr .parse readU32
  else if t = 1031 then .remoteV6 <$> mapErr .parse readU128
  else if t = 1088 then .color <$> mapErr .parse readU32
  else if t = 1089 then .maxBandwidth <$> mapErr .parse readU32
  else if t = 1090 then .maxReservable <$> mapErr .parse readU32
  else if t = 1091 then .unreserved <$> parseBandwidths 8
  else if t = 1092 then .teMetric <$> mapErr .parse readU32
  else if t = 1093 then linkProtectionOf <$> mapErr .parse readU16
  else if t = 1094 then mplsMaskOf <$> mapErr .parse readU8
  else if t = 1095 then .igpMetric <$> restBytes .parse
  else if t = 1096 then .srlg <$> parseWords
  else if t = 1097 then .opaqueLink <$> restBytes .parse
  else if t = 1098 then .linkName <$> parseLsName l
  else if t = 1101 then .peerNode <$> parsePeerSid l
  else if t = 1102 then .peerAdj <$> parsePeerSid l
  else if t = 1103 then .peerSet <$> parsePeerSid l
  else if t = 1152 then igpFlagsOf <$> mapErr .parse readU8
  else if t = 1153 then pure (.routeTag [])
  else if t = 1154 then pure (.extRouteTag [])
  else if t = 1155 then .prefixMetric <$> mapErr .parse readU32
  else if t = 1156 then parseForwarding o l
  else if t = 1157 then .opaquePrefix <$> restBytes .parse
  else if t.toNat ≤ 255 then fail (.unknownTlvType o t)
  else .unknown t <$> restBytes .parse

/-- `while !data.is_empty() { vec.push(cur.read_..()?) }` where `data` is not read from, D:246-253 and
D:254-261: with a non-empty value the loop only ends when a read of the *attribute* reader fails. The fuel
is the number of octets left plus one; each read consumes at least one, so it is never exhausted
(`tagLoop_err`). -/
def tagLoop (rd : Parser LsAttrError α) : Nat → Parser LsAttrError β
  | 0 => fun r => (.fault .hang, r)
  | n + 1 => do
    let _ ← rd
    tagLoop rd n

/-- `BgpLsAttributeValue::parse`, D:79-295 -/
def parseLsAttr : Parser LsAttrError LsAttr := do
  let o ← getOffset
  let t ← mapErr .parse readU16
  let l ← mapErr .parse readU16
  let d ← mapErr .parse (takeSlice l.toNat)
  if t = 1153 ∧ d.buf ≠ [] then do
    let n ← getRemaining
    tagLoop (mapErr .parse readU32) (n + 1)
  else if t = 1154 ∧ d.buf ≠ [] then do
    let n ← getRemaining
    tagLoop (mapErr .parse readU64) (n + 1)
  else do
    let x ← onSub d (lsAttrBody o t l)
    pure x.1

/-- the attribute length, one or two octets, and the slice it covers (D:62-68 and every other attribute) -/
def attrSlice (g : ParseError → ε) (ext : Bool) : Parser ε Reader :=
  if ext then do
    let l ← mapErr g readU16
    mapErr g (takeSlice l.toNat)
  else do
    let l ← mapErr g readU8
    mapErr g (takeSlice l.toNat)

/-- `BgpLsAttribute::parse`, D:59-77 -/
def parseLsAttrs (ext : Bool) : Parser LsAttrError (List LsAttr) := do
  let d ← attrSlice .parse ext
  let x ← onSub d (many parseLsAttr)
  pure x.1

/-! ## Writing -/

/-- T:557-631 -/
def LsAttr.code : LsAttr → UInt16
  | localV4 _ => 1028 | localV6 _ => 1029 | remoteV4 _ => 1030 | remoteV6 _ => 1031 | color _ => 1088
  | maxBandwidth _ => 1089 | maxReservable _ => 1090 | unreserved _ => 1091 | teMetric _ => 1092
  | linkProtection .. => 1093 | mplsMask .. => 1094 | igpMetric _ => 1095 | srlg _ => 1096
  | opaqueLink _ => 1097 | linkName _ => 1098 | igpFlags .. => 1152 | routeTag _ => 1153
  | extRouteTag _ => 1154 | prefixMetric _ => 1155 | ospfForwarding _ => 1156 | opaquePrefix _ => 1157
  | multiTopology _ => 263 | nodeFlags .. => 1024 | opaqueNode _ => 1025 | nodeName _ => 1026
  | isisArea _ => 1027 | peerNode _ => 1101 | peerAdj _ => 1102 | peerSet _ => 1103 | unknown c _ => c

/-- S:311-317 -/
def PeerSid.len : PeerSid → Nat | label .. => 7 | index .. => 8
/-- S:319-332 -/
def PeerSid.write : PeerSid → Bytes
  | label f w l => f :: w :: (u16be 0 ++ l)
  | index f w i => f :: w :: (u16be 0 ++ u32be i)

/-- `IpAddr::len` as `WritablePdu`, `wire/serializer/mod.rs:135-141`: the address octets only -/
def lenIpPdu : IpAddr → Nat | .v4 _ => 4 | .v6 _ => 16
/-- `IpAddr::write` as `WritablePdu`, `wire/serializer/mod.rs:143-155`: a length octet and the address -/
def writeIpPdu : IpAddr → Bytes | .v4 a => 4 :: u32be a | .v6 a => 16 :: u128be a

/-- S:78-112 without the header -/
def LsAttr.valueLen : LsAttr → Nat
  | localV4 _ => 4 | localV6 _ => 16 | remoteV4 _ => 4 | remoteV6 _ => 16 | color _ => 4
  | maxBandwidth _ => 4 | maxReservable _ => 4 | unreserved _ => 4 * 8 | teMetric _ => 4
  | linkProtection .. => 2 | mplsMask .. => 1 | igpMetric v => v.length | srlg v => 4 * v.length
  | opaqueLink v => v.length | linkName s => (utf8 s).length | igpFlags .. => 1 | routeTag v => 4 * v.length
  | extRouteTag v => 8 * v.length | prefixMetric _ => 4 | ospfForwarding a => lenIpPdu a
  | opaquePrefix v => v.length | multiTopology v => lenMtIds v | nodeFlags .. => 1
  | opaqueNode v => v.length | nodeName s => (utf8 s).length | isisArea v => v.length
  | peerNode s => s.len | peerAdj s => s.len | peerSet s => s.len | unknown _ v => v.length

/-- `if *flag { flags |= bit }` -/
def orBit (b : Bool) (m : UInt8) : UInt8 := if b then m else 0

/-- S:117-297 -/
def LsAttr.value : LsAttr → Res AttrWriteErr Bytes
  | localV4 a | remoteV4 a => .ok (u32be a)
  | localV6 a | remoteV6 a => .ok (u128be a)
  | color v | maxBandwidth v | maxReservable v | teMetric v | prefixMetric v => .ok (u32be v)
  | unreserved v | srlg v | routeTag v => .ok (v.map u32be).flatten
  | extRouteTag v => .ok (v.map u64be).flatten
  | linkProtection a b c d e f =>
    .ok [orBit a 0x01 ||| orBit b 0x02 ||| orBit c 0x04 ||| orBit d 0x08 ||| orBit e 0x10 ||| orBit f 0x20]
  | mplsMask a b => .ok [orBit a 0x80 ||| orBit b 0x40]
  | igpFlags a b c d => .ok [orBit a 0x80 ||| orBit b 0x40 ||| orBit c 0x20 ||| orBit d 0x10]
  | nodeFlags a b c d e f =>
    .ok [orBit a 0x80 ||| orBit b 0x40 ||| orBit c 0x20 ||| orBit d 0x10 ||| orBit e 0x08 ||| orBit f 0x04]
  | igpMetric v | opaqueLink v | opaquePrefix v | opaqueNode v | isisArea v | unknown _ v => .ok v
  | linkName s => .ok (utf8 s)
  | nodeName s => if (utf8 s).length > 255 then .err (.nodeNameTooLong (utf8 s).length) else .ok (utf8 s)
  | ospfForwarding a => .ok (writeIpPdu a)
  | multiTopology v => .ok (writeMtIds v)
  | peerNode s | peerAdj s | peerSet s => .ok s.write

/-- S:78-112 -/
def LsAttr.len (a : LsAttr) : Nat := 4 + a.valueLen
/-- S:114-297 -/
def LsAttr.write (a : LsAttr) : Res AttrWriteErr Bytes := (tlvHead16 a.code a.len).cat a.value

/-- S:53-58 without the length octets -/
def lenLsAttrs (l : List LsAttr) : Nat := (l.map LsAttr.len).sum
/-- S:67-69 -/
def writeLsAttrs (l : List LsAttr) : Res AttrWriteErr Bytes := Res.catAll (l.map LsAttr.write)

end Verif.Bgp
