import Verif.Bgp.Family
/-!
# BGP capabilities (`crates/bgp-pkt/src/capabilities.rs`, `wire/deserializer/capabilities.rs`,
`wire/serializer/capabilities.rs`)
-/
namespace Verif.Bgp
open Verif

/-- `BgpRoleValue`, `crates/bgp-pkt/src/iana.rs:1335-1354` -/
inductive Role where
  | provider | customer | rs | rsClient | peer
  deriving DecidableEq, Repr

/-- `From<BgpRoleValue> for u8` -/
def Role.toU8 : Role → UInt8
  | provider => 0 | customer => 1 | rs => 2 | rsClient => 3 | peer => 4

/-- `TryFrom<u8> for BgpRoleValue`, `iana.rs:1365-1374` -/
def Role.ofU8 (c : UInt8) : Option Role :=
  if c = 0 then some .provider else if c = 1 then some .customer else if c = 2 then some .rs
  else if c = 3 then some .rsClient else if c = 4 then some .peer else none

/-- `GracefulRestartAddressFamily`, `capabilities.rs:334-337` -/
structure GrFamily where
  forwarding : Bool
  family : AddressType
  deriving DecidableEq, Repr

/-- `LongLivedGracefulRestartAddressFamily`, `capabilities.rs:385-389` -/
structure LlgrFamily where
  forwarding : Bool
  family : AddressType
  staleTime : UInt32
  deriving DecidableEq, Repr

/-- `AddPathAddressFamily`, `capabilities.rs:529-533` -/
structure AddPathFamily where
  family : AddressType
  send : Bool
  receive : Bool
  deriving DecidableEq, Repr

/-- `ExtendedNextHopEncoding`, `capabilities.rs:616-619` -/
structure EnhEncoding where
  family : AddressType
  nextHopAfi : Afi
  deriving DecidableEq, Repr

/-- `MultipleLabel`, `capabilities.rs:650-653` -/
structure MultipleLabel where
  family : AddressType
  count : UInt8
  deriving DecidableEq, Repr

/-- `ExperimentalCapabilityCode`, `capabilities.rs:197-214`: the codes 239 to 254 -/
abbrev ExpCode := { c : UInt8 // 239 ≤ c.toNat ∧ c.toNat ≤ 254 }

/-- `BgpCapability`, `capabilities.rs:43-90`. `Box<str>` is `String` (both are valid UTF-8 by construction). -/
inductive Cap where
  | mpe (family : AddressType)
  | routeRefresh
  | enhancedRouteRefresh
  | ciscoRouteRefresh
  | gracefulRestart (restart notification : Bool) (time : UInt16) (families : List GrFamily)
  | llgr (families : List LlgrFamily)
  | fqdn (hostname domain : String)
  | addPath (families : List AddPathFamily)
  | extendedMessage
  | multipleLabels (labels : List MultipleLabel)
  | role (role : Role)
  | fourOctetAs (asn : UInt32)
  | extendedNextHop (encodings : List EnhEncoding)
  | experimental (code : ExpCode) (value : Bytes)
  | unrecognized (code : UInt8) (value : Bytes)
  deriving DecidableEq, Repr

/-- `BgpCapability::code` as the octet written, `capabilities.rs:93-161` -/
def Cap.code : Cap → UInt8
  | mpe _ => 1
  | routeRefresh => 2
  | enhancedRouteRefresh => 70
  | ciscoRouteRefresh => 128
  | gracefulRestart .. => 64
  | llgr _ => 71
  | fqdn .. => 73
  | addPath _ => 69
  | extendedMessage => 6
  | multipleLabels _ => 8
  | role _ => 9
  | fourOctetAs _ => 65
  | extendedNextHop _ => 5
  | experimental c _ => c.val
  | unrecognized c _ => c

/-! ## Serializer -/

/-- `str::as_bytes` -/
def utf8 (s : String) : Bytes := s.toByteArray.data.toList

/-- `String::from_utf8(bytes).ok()`; the check is Lean's `String.fromUTF8?`. -/
def ofUtf8 (b : Bytes) : Option String := String.fromUTF8? ⟨b.toArray⟩

/-- `value_len` of `BgpCapability::len`, `wire/serializer/capabilities.rs:64-93`. Families have constant
lengths: graceful restart 4 (`:349-354`), LLGR 7 (`:289-294`), ADD-PATH 4 (`:390-395`), extended next hop 6
(`:416-419`), multiple labels 4 (`:460-463`). -/
def Cap.valueLen : Cap → Nat
  | mpe _ => 4
  | routeRefresh | enhancedRouteRefresh | ciscoRouteRefresh | extendedMessage => 0
  | fourOctetAs _ => 4
  | gracefulRestart _ _ _ l => 4 + 4 * l.length - 2
  | llgr l => 7 * l.length
  | fqdn h d => 2 + (utf8 h).length + (utf8 d).length
  | addPath l => 4 * l.length
  | extendedNextHop l => 1 + 6 * l.length - 1
  | multipleLabels l => 4 * l.length
  | role _ => 1
  | experimental _ v => v.length
  | unrecognized _ v => v.length

/-- `BgpCapability::len`, `wire/serializer/capabilities.rs:64-93` -/
def Cap.len (c : Cap) : Nat := 2 + c.valueLen

/-- `FqdnCapabilityWritingError::NameTooLong`, `wire/serializer/capabilities.rs:310-319` -/
inductive CapWriteErr where
  | nameTooLong (field : String) (length : Nat)
  deriving DecidableEq, Repr

/-- `GracefulRestartAddressFamily::write`, `wire/serializer/capabilities.rs:356-361` -/
def GrFamily.write (f : GrFamily) : Bytes :=
  u16be f.family.afi ++ [f.family.safi, if f.forwarding then 0x80 else 0]

/-- `LongLivedGracefulRestartAddressFamily::write`, `wire/serializer/capabilities.rs:296-307` -/
def LlgrFamily.write (f : LlgrFamily) : Bytes :=
  u16be f.family.afi ++ [f.family.safi, if f.forwarding then 0x80 else 0] ++ (u32be f.staleTime).drop 1

/-- `AddPathAddressFamily::write`, `wire/serializer/capabilities.rs:397-406` -/
def AddPathFamily.write (f : AddPathFamily) : Bytes :=
  u16be f.family.afi ++
    [f.family.safi, ((if f.send then 1 else 0) * 2) ||| (if f.receive then 1 else 0)]

/-- `ExtendedNextHopEncoding::write`, `wire/serializer/capabilities.rs:420-429` -/
def EnhEncoding.write (f : EnhEncoding) : Bytes :=
  u16be f.family.afi ++ u16be f.family.safi.toUInt16 ++ u16be f.nextHopAfi.val

/-- `MultipleLabel::write`, `wire/serializer/capabilities.rs:465-470` -/
def MultipleLabel.write (f : MultipleLabel) : Bytes :=
  u16be f.family.afi ++ [f.family.safi, f.count]

/-- flags of `GracefulRestartCapability::write`, `wire/serializer/capabilities.rs:237-244` -/
def grHeader (restart notification : Bool) (time : UInt16) : UInt16 :=
  (if restart then 0x8000 else 0) ||| (if notification then 0x4000 else 0) ||| time

/-- `FqdnCapability::write`, `wire/serializer/capabilities.rs:330-345` -/
def writeFqdn (h d : String) : Res CapWriteErr Bytes :=
  if (utf8 h).length > 255 then .err (.nameTooLong "hostname" (utf8 h).length)
  else if (utf8 d).length > 255 then .err (.nameTooLong "domain name" (utf8 d).length)
  else .ok (UInt8.ofNat (utf8 h).length :: utf8 h ++ UInt8.ofNat (utf8 d).length :: utf8 d)

/-- `BgpCapability::write`, `wire/serializer/capabilities.rs:95-169`. The length octet of the extended next
hop capability is `self.len() as u8 - 1` (`:443`), which overflows, a panic in builds with overflow checks,
when the truncated length is 0. -/
def Cap.write (c : Cap) : Res CapWriteErr Bytes :=
  let len := UInt8.ofNat c.valueLen
  match c with
  | mpe t => .ok ([c.code, 4] ++ (u16be t.afi ++ [0, t.safi]))
  | routeRefresh | enhancedRouteRefresh | ciscoRouteRefresh | extendedMessage => .ok [c.code, len]
  | multipleLabels l => .ok (c.code :: (l.map MultipleLabel.write).flatten)
  | role r => .ok ([c.code, len] ++ [r.toU8])
  | gracefulRestart r n t l =>
    .ok ([c.code, len] ++ (u16be (grHeader r n t) ++ (l.map GrFamily.write).flatten))
  | llgr l => .ok ([c.code, len] ++ (l.map LlgrFamily.write).flatten)
  | fqdn h d => (writeFqdn h d).map ([c.code, len] ++ ·)
  | addPath l => .ok ([c.code, len] ++ (l.map AddPathFamily.write).flatten)
  | fourOctetAs a => .ok ([c.code, 4] ++ u32be a)
  | extendedNextHop l =>
    if UInt8.ofNat (1 + 6 * l.length) = 0 then .fault .panic
    else .ok ([c.code, UInt8.ofNat (1 + 6 * l.length) - 1] ++ (l.map EnhEncoding.write).flatten)
  | experimental _ v => .ok ([c.code, len] ++ v)
  | unrecognized _ v => .ok ([c.code, len] ++ v)

/-! ## Deserializer -/

/-- `BgpCapabilityParsingError`, `wire/deserializer/capabilities.rs:33-84`, with the per-capability enums
inlined (`:285-294`, `:311-329`, `:373-385`, `:412-430`, `:433-443`, `:593-608`, `:671-683`, `:743-755`,
`:786-798`). The text of the UTF-8 error is dropped. -/
inductive CapErr where
  | parse (e : ParseError)
  | routeRefreshLength (offset : Nat) (length : UInt8)
  | enhancedRouteRefreshLength (offset : Nat) (length : UInt8)
  | extendedMessageLength (offset : Nat) (length : UInt8)
  | fourOctetAsParse (e : ParseError)
  | fourOctetAsLength (offset : Nat) (length : UInt8)
  | mpe (e : FamErr)
  | mpeLength (offset : Nat) (length : UInt8)
  | gracefulRestart (e : FamErr)
  | llgr (e : FamErr)
  | llgrLength (offset : Nat) (length : UInt8)
  | fqdnParse (e : ParseError)
  | fqdnUtf8 (offset : Nat) (field : String)
  | addPath (e : FamErr)
  | addPathSendReceive (offset : Nat) (value : UInt8)
  | extendedNextHop (e : FamErr)
  | multipleLabel (e : FamErr)
  | roleParse (e : ParseError)
  | roleLength (offset : Nat) (length : UInt8)
  | roleUndefined (offset : Nat) (code : UInt8)
  deriving DecidableEq, Repr

/-- `check_capability_length(cur, expected).map_err(|length| .. { offset: cur.offset(), length })?`,
`wire/deserializer/capabilities.rs:112-120`: a wrong length octet is not consumed. -/
def checkCapLen (expected : UInt8) (mk : Nat → UInt8 → CapErr) : Parser CapErr Unit := fun r =>
  match r.buf with
  | [] => (.err (mk r.offset 0), r)
  | b :: rest => if b = expected then (.ok (), ⟨rest, r.offset + 1⟩) else (.err (mk r.offset b), r)

/-- `MultiProtocolExtensionsCapability::parse`, `wire/deserializer/capabilities.rs:334-369` -/
def parseMpe : Parser CapErr Cap := do
  checkCapLen 4 .mpeLength
  let a ← Parser.mapErr .mpe readAfi
  let _ ← Parser.mapErr (fun e => .mpe (.parse e)) readU8
  let s ← Parser.mapErr .mpe readSafi
  let o ← Parser.getOffset
  let t ← Parser.ofOption (.mpe (.addressType (o - 4) a.val s.val)) (AddressType.ofAfiSafi a s)
  pure (.mpe t)

/-- `GracefulRestartAddressFamily::parse`, `wire/deserializer/capabilities.rs:556-590` -/
def parseGrFamily : Parser FamErr GrFamily := do
  let b ← Parser.mapErr .parse (takeSlice 4)
  let x ← Parser.onSub b (do
    let t ← readFamily
    let flags ← Parser.mapErr FamErr.parse readU8
    pure (GrFamily.mk (flags &&& 0x80 == 0x80) t))
  pure x.1

/-- `GracefulRestartCapability::parse`, `wire/deserializer/capabilities.rs:389-409` -/
def parseGracefulRestart : Parser FamErr Cap := do
  let len ← Parser.mapErr .parse readU8
  let b ← Parser.mapErr .parse (takeSlice len.toNat)
  let x ← Parser.onSub b (do
    let header ← Parser.mapErr FamErr.parse readU16
    let l ← many parseGrFamily
    pure (Cap.gracefulRestart (header &&& 0x8000 == 0x8000) (header &&& 0x4000 == 0x4000)
      (header &&& 0x0fff) l))
  pure x.1

/-- `LongLivedGracefulRestartAddressFamily::parse`, `wire/deserializer/capabilities.rs:503-551` -/
def parseLlgrFamily : Parser CapErr LlgrFamily := do
  let b ← Parser.mapErr (fun e => .llgr (.parse e)) (takeSlice 7)
  let x ← Parser.onSub b (do
    let t ← Parser.mapErr CapErr.llgr readFamily
    let flags ← Parser.mapErr (fun e => CapErr.llgr (.parse e)) readU8
    let st ← Parser.mapErr (fun e => CapErr.llgr (.parse e)) (readArray 3)
    pure (LlgrFamily.mk (flags &&& 0x80 == 0x80) t (u32of (0 :: st))))
  pure x.1

/-- `LongLivedGracefulRestartCapability::parse`, `wire/deserializer/capabilities.rs:475-498` -/
def parseLlgr : Parser CapErr Cap := do
  let o ← Parser.getOffset
  let len ← Parser.mapErr (fun e => .llgr (.parse e)) readU8
  if len % 7 ≠ 0 then Parser.fail (.llgrLength o len)
  else
    let b ← Parser.mapErr (fun e => .llgr (.parse e)) (takeSlice len.toNat)
    let x ← Parser.onSub b (many parseLlgrFamily)
    pure (.llgr x.1)

/-- the closure `read_name`, `wire/deserializer/capabilities.rs:451-462` -/
def readName (field : String) : Parser CapErr String := do
  let n ← Parser.mapErr .fqdnParse readU8
  let o ← Parser.getOffset
  let b ← Parser.mapErr .fqdnParse (readBytes n.toNat)
  Parser.ofOption (.fqdnUtf8 o field) (ofUtf8 b)

/-- `FqdnCapability::parse`, `wire/deserializer/capabilities.rs:447-470` -/
def parseFqdn : Parser CapErr Cap := do
  let len ← Parser.mapErr .fqdnParse readU8
  let b ← Parser.mapErr .fqdnParse (takeSlice len.toNat)
  let x ← Parser.onSub b (do
    let h ← readName "hostname"
    let d ← readName "domain name"
    pure (Cap.fqdn h d))
  pure x.1

/-- `AddPathAddressFamily::parse`, `wire/deserializer/capabilities.rs:626-667` -/
def parseAddPathFamily : Parser CapErr AddPathFamily := do
  let t ← Parser.mapErr .addPath readFamily
  let v ← Parser.mapErr (fun e => .addPath (.parse e)) readU8
  let o ← Parser.getOffset
  if v > 3 then Parser.fail (.addPathSendReceive (o - 1) v)
  else pure ⟨t, v &&& 2 == 2, v &&& 1 == 1⟩

/-- `AddPathCapability::parse`, `wire/deserializer/capabilities.rs:612-621` -/
def parseAddPath : Parser CapErr Cap := do
  let len ← Parser.mapErr (fun e => .addPath (.parse e)) readU8
  let b ← Parser.mapErr (fun e => .addPath (.parse e)) (takeSlice len.toNat)
  let x ← Parser.onSub b (many parseAddPathFamily)
  pure (.addPath x.1)

/-- `ExtendedNextHopEncoding::parse`, `wire/deserializer/capabilities.rs:701-740`; the SAFI is read as 16
bits and truncated. -/
def parseEnhEncoding : Parser FamErr EnhEncoding := do
  let b ← Parser.mapErr .parse (takeSlice 6)
  let x ← Parser.onSub b (do
    let a ← readAfi
    let s16 ← Parser.mapErr FamErr.parse readU16
    let o ← Parser.getOffset
    let s ← Parser.ofOption (.undefSafi (o - 2) s16.toUInt8) (safiOf s16.toUInt8)
    let t ← Parser.ofOption (.addressType (o - 4) a.val s.val) (AddressType.ofAfiSafi a s)
    let n ← readAfi
    pure (EnhEncoding.mk t n))
  pure x.1

/-- `ExtendedNextHopEncodingCapability::parse`, `wire/deserializer/capabilities.rs:687-696` -/
def parseEnh : Parser FamErr Cap := do
  let len ← Parser.mapErr .parse readU8
  let b ← Parser.mapErr .parse (takeSlice len.toNat)
  let x ← Parser.onSub b (many parseEnhEncoding)
  pure (.extendedNextHop x.1)

/-- `MultipleLabel::parse`, `wire/deserializer/capabilities.rs:759-783` -/
def parseMultipleLabel : Parser FamErr MultipleLabel := do
  let t ← readFamily
  let c ← Parser.mapErr .parse readU8
  pure ⟨t, c⟩

/-- `BgpRoleCapability::parse`, `wire/deserializer/capabilities.rs:802-818` -/
def parseRole : Parser CapErr Cap := do
  checkCapLen 1 .roleLength
  let code ← Parser.mapErr .roleParse peekU8
  let o ← Parser.getOffset
  let r ← Parser.ofOption (.roleUndefined o code) (Role.ofU8 code)
  let _ ← Parser.mapErr .roleParse readU8
  pure (.role r)

/-- `FourOctetAsCapability::parse`, `wire/deserializer/capabilities.rs:298-307` -/
def parseFourOctetAs : Parser CapErr Cap := do
  checkCapLen 4 .fourOctetAsLength
  let a ← Parser.mapErr .fourOctetAsParse readU32
  pure (.fourOctetAs a)

/-- `parse_experimental_capability` / `parse_unrecognized_capability` up to the constructor,
`wire/deserializer/capabilities.rs:86-108` -/
def parseOpaque : Parser CapErr Bytes := do
  let len ← Parser.mapErr .parse readU8
  Parser.mapErr .parse (readBytes len.toNat)

/-- the dispatch of `BgpCapability::parse` on the code, `wire/deserializer/capabilities.rs:157-279`. Codes 3, 7,
67, 68 and 72 are known to the IANA enum but are handled like unknown codes. -/
def capBody (code : UInt8) : Parser CapErr Cap :=
  if code = 1 then parseMpe
  else if code = 2 then do checkCapLen 0 .routeRefreshLength; pure .routeRefresh
  else if code = 5 then Parser.mapErr .extendedNextHop parseEnh
  else if code = 128 then do checkCapLen 0 .routeRefreshLength; pure .ciscoRouteRefresh
  else if code = 6 then do checkCapLen 0 .extendedMessageLength; pure .extendedMessage
  else if code = 8 then do
    let l ← Parser.mapErr .multipleLabel (many parseMultipleLabel)
    pure (.multipleLabels l)
  else if code = 9 then parseRole
  else if code = 64 then Parser.mapErr .gracefulRestart parseGracefulRestart
  else if code = 65 then parseFourOctetAs
  else if code = 69 then parseAddPath
  else if code = 70 then do checkCapLen 0 .enhancedRouteRefreshLength; pure .enhancedRouteRefresh
  else if code = 71 then parseLlgr
  else if code = 73 then parseFqdn
  else if h : 239 ≤ code.toNat ∧ code.toNat ≤ 254 then do
    let v ← parseOpaque
    pure (.experimental ⟨code, h⟩ v)
  else do
    let v ← parseOpaque
    pure (.unrecognized code v)

/-- `BgpCapability::parse`, `wire/deserializer/capabilities.rs:149-281` -/
def parseCap : Parser CapErr Cap := Parser.mapErr .parse readU8 >>= capBody

end Verif.Bgp
