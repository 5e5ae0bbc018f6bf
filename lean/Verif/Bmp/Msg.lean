import Verif.Bmp.Header
/-!
# BMP messages of versions 3 and 4: parsing and writing

Paths are under `crates/bmp-pkt/src`. Error values keep their offsets and codes; the text of a UTF-8 error is left out.
Writing errors of the nested types are flattened to `WErr`. Everything is otherwise as in the code, including the
truncating casts of lengths.
-/
namespace Verif.Bmp
open Verif Bgp Parser

/-- the `..WritingError` types: a BGP message or a capability could not be written -/
inductive WErr where
  | msg (e : MsgWriteErr)
  | cap (e : CapWriteErr)

/-- the writing of a BGP message inside a BMP message -/
def msgBytes (m : Msg) : Res WErr Bytes := m.write.mapErr .msg

/-! ## Information elements -/

/-- the textual elements of `InitiationInformationTlvType`, `iana.rs:177-195` -/
inductive TextKind where
  | string | sysDescr | sysName | vrfTableName | adminLabel
  deriving DecidableEq, Repr

/-- `iana.rs:178-186` -/
def TextKind.code : TextKind → UInt16
  | string => 0 | sysDescr => 1 | sysName => 2 | vrfTableName => 3 | adminLabel => 4
/-- `from_repr` -/
def TextKind.ofCode (c : UInt16) : Option TextKind :=
  if c = 0 then some string else if c = 1 then some sysDescr else if c = 2 then some sysName
  else if c = 3 then some vrfTableName else if c = 4 then some adminLabel else none

/-- `InitiationInformationTlvType`, `iana.rs:177-195` -/
inductive InfoType where
  | text (k : TextKind)
  | experimental (n : Fin 4)
  deriving DecidableEq, Repr

/-- `InitiationInformation`, `v3.rs:108-145` -/
inductive Info where
  | text (k : TextKind) (s : String)
  | experimental (n : Fin 4) (v : Bytes)
  deriving DecidableEq, Repr

/-- `InitiationInformation::get_type`, `v3.rs:148-162` -/
def Info.type : Info → InfoType
  | text k _ => .text k
  | experimental n _ => .experimental n

/-- `InitiationInformationTlvType::try_from` -/
def InfoType.ofCode (c : UInt16) : Option InfoType :=
  match TextKind.ofCode c with
  | some k => some (.text k)
  | none => (ofExp16 c).map .experimental
/-- `iana.rs:177-195` -/
def InfoType.code : InfoType → UInt16
  | text k => k.code
  | experimental n => exp16 n

/-- `InitiationInformationParsingError`, `D/v3.rs:147-157` -/
inductive InfoErr where
  | parse (e : ParseError)
  | undefined (offset : Nat) (code : UInt16)
  | utf8 (offset : Nat)
  deriving DecidableEq, Repr

/-- the arms of `D/v3.rs:176-249`, on the slice -/
def infoBody (t : InfoType) : Parser InfoErr Info := do
  let o ← getOffset
  let b ← restBytes .parse
  match t with
  | .text k => do
    let s ← ofOption (.utf8 o) (ofUtf8 b)
    pure (.text k s)
  | .experimental n => pure (.experimental n b)

/-- `InitiationInformation::parse`, `D/v3.rs:159-251` -/
def parseInfo : Parser InfoErr Info := do
  let c ← mapErr .parse readU16
  let o ← getOffset
  let t ← ofOption (.undefined (o - 2) c) (InfoType.ofCode c)
  let l ← mapErr .parse readU16
  let d ← mapErr .parse (takeSlice l.toNat)
  let x ← onSub d (infoBody t)
  pure x.1

/-- the value of an element -/
def Info.value : Info → Bytes
  | text _ s => utf8 s
  | experimental _ v => v
/-- `InitiationInformation::write`, `S/v3.rs:394-440`; the length is `value.len() as u16` -/
def Info.write (i : Info) : Bytes := u16be i.type.code ++ (u16be (UInt16.ofNat i.value.length) ++ i.value)
/-- `InitiationInformation::len`, `S/v3.rs:379-392` -/
def Info.len (i : Info) : Nat := 4 + i.value.length

/-- the writing of several elements -/
def infosWrite (l : List Info) : Bytes := l.flatMap Info.write
/-- their length, `S/v3.rs:357-359` -/
def infosLen (l : List Info) : Nat := (l.map Info.len).sum

/-! ## Termination -/

/-- `PeerTerminationCode`, `iana.rs:267-285` -/
abbrev TermReason := { c : UInt16 // c.toNat ≤ 4 ∨ (65531 ≤ c.toNat ∧ c.toNat ≤ 65534) }

/-- `TerminationInformation`, `v3.rs:209-217` -/
inductive TermInfo where
  | string (s : String)
  | reason (r : TermReason)
  | experimental (n : Fin 4) (v : Bytes)
  deriving DecidableEq, Repr

/-- `TerminationInformationTlvType`, `iana.rs:225-237` -/
inductive TermType where
  | string | reason
  | experimental (n : Fin 4)
  deriving DecidableEq, Repr

/-- `iana.rs:225-237` -/
def TermType.code : TermType → UInt16
  | string => 0 | reason => 1 | experimental n => exp16 n
/-- `TerminationInformationTlvType::try_from` -/
def TermType.ofCode (c : UInt16) : Option TermType :=
  if c = 0 then some .string else if c = 1 then some .reason else (ofExp16 c).map .experimental

/-- `TerminationInformation::get_type`, `v3.rs:220-230` -/
def TermInfo.type : TermInfo → TermType
  | string _ => .string
  | reason _ => .reason
  | experimental n _ => .experimental n

/-- `TerminationInformationParsingError`, `D/v3.rs:784-806` -/
inductive TermErr where
  | parse (e : ParseError)
  | undefinedType (offset : Nat) (code : UInt16)
  | undefinedReason (offset : Nat) (code : UInt16)
  | utf8 (offset : Nat)
  | unparsed (offset : Nat) (length : UInt16) (remaining : Nat)
  deriving DecidableEq, Repr

/-- `PeerTerminationCode::try_from` -/
def TermReason.ofCode (c : UInt16) : Option TermReason :=
  if h : c.toNat ≤ 4 ∨ (65531 ≤ c.toNat ∧ c.toNat ≤ 65534) then some ⟨c, h⟩ else none

/-- the arms of `D/v3.rs:825-873`, on the slice -/
def termBody : TermType → Parser TermErr TermInfo
  | .string => do
    let o ← getOffset
    let b ← restBytes .parse
    let s ← ofOption (.utf8 o) (ofUtf8 b)
    pure (.string s)
  | .reason => do
    let c ← mapErr .parse readU16
    let o ← getOffset
    let r ← ofOption (.undefinedReason (o - 2) c) (TermReason.ofCode c)
    pure (.reason r)
  | .experimental n => do
    let b ← restBytes .parse
    pure (.experimental n b)

/-- `TerminationInformation::parse`, `D/v3.rs:808-882` -/
def parseTermInfo : Parser TermErr TermInfo := do
  let c ← mapErr .parse readU16
  let o ← getOffset
  let t ← ofOption (.undefinedType (o - 2) c) (TermType.ofCode c)
  let l ← mapErr .parse readU16
  let d ← mapErr .parse (takeSlice l.toNat)
  let x ← onSub d (termBody t)
  if x.2.buf = [] then pure x.1 else fail (.unparsed x.2.offset l x.2.buf.length)

/-- the value of an element -/
def TermInfo.value : TermInfo → Bytes
  | string s => utf8 s
  | reason r => u16be r.1
  | experimental _ v => v
/-- `TerminationInformation::write`, `S/v3.rs:639-651` -/
def TermInfo.write (i : TermInfo) : Bytes :=
  u16be i.type.code ++ (u16be (UInt16.ofNat i.value.length) ++ i.value)
/-- `TerminationInformation::len`, `S/v3.rs:627-637` -/
def TermInfo.len (i : TermInfo) : Nat := 4 + i.value.length

/-! ## Statistics -/

/-- the statistics that are 32-bit counters or gauges, `D/v3.rs:978-1047` -/
def codes32 : List UInt16 := [0, 1, 2, 3, 4, 5, 6, 11, 12, 13]
/-- the statistics that are 64-bit gauges -/
def codes64 : List UInt16 := [7, 8, 14, 15, 18, 20, 29, 31, 33, 39]
/-- the statistics that are 64-bit gauges of an address family -/
def codesFam : List UInt16 :=
  [9, 10, 16, 17, 19, 21, 22, 23, 26, 27, 28, 30, 32, 34, 35, 36, 37, 38, 40, 41, 42, 43]

/-- `StatisticsCounter`, `v3.rs:672-723`. The statistics of a kind are one constructor with the code of the statistic. -/
inductive Counter where
  | u32 (c : { c : UInt16 // c ∈ codes32 }) (v : UInt32)
  | u64 (c : { c : UInt16 // c ∈ codes64 }) (v : UInt64)
  | family (c : { c : UInt16 // c ∈ codesFam }) (t : AddressType) (v : UInt64)
  | experimental (n : Fin 4) (v : Bytes)
  | unknown (c : UInt16) (v : Bytes)
  deriving DecidableEq, Repr

/-- `StatisticsCounterParsingError`, `D/v3.rs:914-941`; `FamErr` has the errors of `parse_address_type`,
`D/v3.rs:943-969` -/
inductive StatErr where
  | parse (e : ParseError)
  | family (e : FamErr)
  | unparsed (offset : Nat) (length : UInt16) (remaining : Nat)
  deriving DecidableEq, Repr

/-- the arms of `D/v3.rs:977-1197`, on the slice -/
def counterBody (c : UInt16) : Parser StatErr Counter :=
  if h : c ∈ codes32 then do
    let v ← mapErr .parse readU32
    pure (.u32 ⟨c, h⟩ v)
  else if h : c ∈ codes64 then do
    let v ← mapErr .parse readU64
    pure (.u64 ⟨c, h⟩ v)
  else if h : c ∈ codesFam then do
    let t ← mapErr .family readFamily
    let v ← mapErr .parse readU64
    pure (.family ⟨c, h⟩ t v)
  else do
    let b ← restBytes .parse
    match ofExp16 c with
    | some n => pure (.experimental n b)
    | none => pure (.unknown c b)

/-- `StatisticsCounter::parse`, `D/v3.rs:971-1207` -/
def parseCounter : Parser StatErr Counter := do
  let c ← mapErr .parse readU16
  let l ← mapErr .parse readU16
  let d ← mapErr .parse (takeSlice l.toNat)
  let x ← onSub d (counterBody c)
  if x.2.buf = [] then pure x.1 else fail (.unparsed x.2.offset l x.2.buf.length)

/-- the code, `StatisticsCounter::get_type`, `v3.rs:726-810` and `S/v3.rs:753-765` -/
def Counter.code : Counter → UInt16
  | u32 c _ => c.1 | u64 c _ => c.1 | family c .. => c.1 | experimental n _ => exp16 n | unknown c _ => c
/-- the value, `S/v3.rs:766-956` -/
def Counter.value : Counter → Bytes
  | u32 _ v => u32be v
  | u64 _ v => u64be v
  | family _ t v => u16be t.afi ++ (t.safi :: u64be v)
  | experimental _ v => v
  | unknown _ v => v
/-- `StatisticsCounter::len`, `S/v3.rs:698-751` -/
def Counter.len (c : Counter) : Nat := 4 + c.value.length
/-- `StatisticsCounter::write`, `S/v3.rs:753-958` -/
def Counter.write (c : Counter) : Bytes := u16be c.code ++ (u16be (UInt16.ofNat (c.len - 4)) ++ c.value)

/-- `for _ in 0..n` -/
def times {ε α : Type} (p : Parser ε α) : Nat → Parser ε (List α)
  | 0 => pure []
  | n + 1 => do
    let a ← p
    let l ← times p n
    pure (a :: l)

/-- `StatisticsReportMessage`, `v3.rs:635-638` -/
structure Stats where
  header : PeerHeader
  counters : List Counter
  deriving DecidableEq, Repr

/-- `StatisticsReportMessageParsingError`, `D/v3.rs:884-894` -/
inductive StatsErr where
  | parse (e : ParseError)
  | header (e : HeaderErr)
  | counter (e : StatErr)
  deriving DecidableEq, Repr

/-- `StatisticsReportMessage::parse`, `D/v3.rs:896-912` -/
def parseStats : Parser StatsErr Stats := do
  let h ← mapErr .header parseHeader
  let n ← mapErr .parse readU32
  let l ← times (mapErr .counter parseCounter) n.toNat
  pure ⟨h, l⟩

/-- `StatisticsReportMessage::write`, `S/v3.rs:677-684` -/
def Stats.write (s : Stats) : Bytes :=
  s.header.write ++ (u32be (UInt32.ofNat s.counters.length) ++ s.counters.flatMap Counter.write)
/-- `StatisticsReportMessage::len`, `S/v3.rs:671-675` -/
def Stats.len (s : Stats) : Nat := 4 + s.header.len + (s.counters.map Counter.len).sum

/-! ## Route mirroring -/

/-- `RouteMirroringInformation`, `iana.rs:407-419` -/
abbrev MirrorInfo := { c : UInt16 // c.toNat ≤ 1 ∨ (65531 ≤ c.toNat ∧ c.toNat ≤ 65534) }
/-- `RouteMirroringInformation::try_from` -/
def MirrorInfo.ofCode (c : UInt16) : Option MirrorInfo :=
  if h : c.toNat ≤ 1 ∨ (65531 ≤ c.toNat ∧ c.toNat ≤ 65534) then some ⟨c, h⟩ else none

/-- `MirroredBgpMessage`, `v3.rs:313-316` -/
inductive Mirrored where
  | parsed (m : Msg)
  | raw (b : Bytes)
  deriving DecidableEq

/-- `RouteMirroringValue`, `v3.rs:321-335` -/
inductive MirrorValue where
  | message (m : Mirrored)
  | information (i : MirrorInfo)
  | experimental (n : Fin 4) (v : Bytes)
  deriving DecidableEq

/-- `RouteMirroringTlvType`, `iana.rs:365-377` -/
inductive MirrorType where
  | message | information
  | experimental (n : Fin 4)
  deriving DecidableEq, Repr
/-- `iana.rs:365-377` -/
def MirrorType.code : MirrorType → UInt16
  | message => 0 | information => 1 | experimental n => exp16 n
/-- `RouteMirroringTlvType::try_from` -/
def MirrorType.ofCode (c : UInt16) : Option MirrorType :=
  if c = 0 then some .message else if c = 1 then some .information else (ofExp16 c).map .experimental
/-- `RouteMirroringValue::get_type`, `v3.rs:338-348` -/
def MirrorValue.type : MirrorValue → MirrorType
  | message _ => .message
  | information _ => .information
  | experimental n _ => .experimental n

/-- `RouteMirroringValueParsingError`, `D/v3.rs:671-693` -/
inductive MirrorValErr where
  | parse (e : ParseError)
  | undefinedType (offset : Nat) (code : UInt16)
  | undefinedInfo (offset : Nat) (code : UInt16)
  | unparsed (offset : Nat) (length : UInt16) (remaining : Nat)
  | msg (e : MsgErr)
  deriving DecidableEq, Repr

/-- the arms of `D/v3.rs:716-750`, on the slice -/
def mirrorBody (l : UInt16) : MirrorType → CParser PeerCtx MirrorValErr MirrorValue
  | .message => do
    let m ← CParser.mapErr .msg bgpMsg
    pure (.message (.parsed m))
  | .information => CParser.lift do
    let c ← mapErr .parse readU16
    let o ← getOffset
    let i ← ofOption (.undefinedInfo (o - 2) c) (MirrorInfo.ofCode c)
    pure (.information i)
  | .experimental n => CParser.lift do
    let d ← mapErr .parse (takeSlice l.toNat)
    pure (.experimental n d.buf)

/-- `RouteMirroringValue::parse`, `D/v3.rs:695-760` -/
def parseMirrorValue : CParser PeerCtx MirrorValErr MirrorValue := do
  let c ← CParser.lift (mapErr .parse readU16)
  let o ← CParser.lift getOffset
  let t ← CParser.lift (ofOption (.undefinedType (o - 2) c) (MirrorType.ofCode c))
  let l ← CParser.lift (mapErr .parse readU16)
  let d ← CParser.lift (mapErr .parse (takeSlice l.toNat))
  let x ← CParser.onSub d (mirrorBody l t)
  if x.2.buf = [] then pure x.1 else CParser.fail (.unparsed x.2.offset l x.2.buf.length)

/-- `RouteMirroringMessage`, `v3.rs:288-291` -/
structure Mirroring where
  header : PeerHeader
  values : List MirrorValue
  deriving DecidableEq

/-- `RouteMirroringMessageParsingError`, `D/v3.rs:645-652` -/
inductive MirrorErr where
  | header (e : HeaderErr)
  | value (e : MirrorValErr)
  deriving DecidableEq, Repr

/-- `RouteMirroringMessage::parse`, `D/v3.rs:654-669` -/
def parseMirroring : CParser Peers MirrorErr Mirroring := do
  let h ← CParser.lift (mapErr .header Bmp.parseHeader)
  let l ← atPeer h.key do
    setAsn4 h.type.asn4
    CParser.cmany (CParser.mapErr .value do
      let v ← parseMirrorValue
      pure (some v))
  pure ⟨h, l⟩

/-- the octets of the value, `S/v3.rs:304-312` -/
def MirrorValue.value : MirrorValue → Res WErr Bytes
  | message (.parsed m) => msgBytes m
  | message (.raw b) => .ok b
  | information i => .ok (u16be i.1)
  | experimental _ v => .ok v
/-- `RouteMirroringValue::len`, `S/v3.rs:284-297` -/
def MirrorValue.len : MirrorValue → Nat
  | message (.parsed m) => 4 + m.len
  | message (.raw b) => 4 + b.length
  | information _ => 4 + 2
  | experimental _ v => 4 + v.length
/-- `RouteMirroringValue::write`, `S/v3.rs:299-314` -/
def MirrorValue.write (v : MirrorValue) : Res WErr Bytes :=
  Res.cat (.ok (u16be v.type.code ++ u16be (UInt16.ofNat (v.len - 4)))) v.value

/-- `RouteMirroringMessage::write`, `S/v3.rs:123-129` -/
def Mirroring.write (m : Mirroring) : Res WErr Bytes :=
  Res.cat (.ok m.header.write) (Res.catAll (m.values.map MirrorValue.write))
/-- `RouteMirroringMessage::len`, `S/v3.rs:117-121` -/
def Mirroring.len (m : Mirroring) : Nat := m.header.len + (m.values.map MirrorValue.len).sum

/-! ## Peer down -/

/-- `PeerDownNotificationReason`, `v3.rs:548-592` -/
inductive Reason where
  | localNotification (m : Msg)
  | localFsm (event : UInt16)
  | remoteNotification (m : Msg)
  | remoteNoData
  | deConfigured
  | localTlv (i : Info)
  | experimental (n : Fin 4) (v : Bytes)
  deriving DecidableEq

/-- `PeerDownNotificationReasonParsingError`, `D/v3.rs:565-578` -/
inductive ReasonErr where
  | parse (e : ParseError)
  | undefined (offset : Nat) (code : UInt8)
  | msg (e : MsgErr)
  | info (e : InfoErr)
  deriving DecidableEq, Repr

/-- the arms of `D/v3.rs:599-641`, for a defined code -/
def reasonBody (offset : Nat) (c : UInt8) : CParser PeerCtx ReasonErr Reason :=
  if c = 1 then do
    let m ← CParser.mapErr .msg bgpMsg
    pure (.localNotification m)
  else if c = 2 then do
    let e ← CParser.lift (mapErr .parse readU16)
    pure (.localFsm e)
  else if c = 3 then do
    let m ← CParser.mapErr .msg bgpMsg
    pure (.remoteNotification m)
  else if c = 4 then pure .remoteNoData
  else if c = 5 then pure .deConfigured
  else if c = 6 then do
    let i ← CParser.lift (mapErr .info parseInfo)
    pure (.localTlv i)
  else match ofExp8 c with
    | some n => do
      let b ← CParser.lift (restBytes .parse)
      pure (.experimental n b)
    | none => CParser.fail (.undefined (offset - 1) c)

/-- `PeerDownNotificationReason::parse`, `D/v3.rs:580-643` -/
def parseReason : CParser PeerCtx ReasonErr Reason := do
  let c ← CParser.lift (mapErr .parse readU8)
  let o ← CParser.lift getOffset
  reasonBody o c

/-- `PeerDownReasonCode`, `iana.rs:315-335` -/
def Reason.code : Reason → UInt8
  | localNotification _ => 1 | localFsm _ => 2 | remoteNotification _ => 3 | remoteNoData => 4 | deConfigured => 5
  | localTlv _ => 6 | experimental n _ => exp8 n
/-- `PeerDownNotificationReason::write`, `S/v3.rs:565-585` -/
def Reason.write (r : Reason) : Res WErr Bytes :=
  Res.cat (.ok [r.code]) (match r with
    | localNotification m => msgBytes m
    | localFsm e => .ok (u16be e)
    | remoteNotification m => msgBytes m
    | remoteNoData => .ok []
    | deConfigured => .ok []
    | localTlv i => .ok i.write
    | experimental _ v => .ok v)
/-- `PeerDownNotificationReason::len`, `S/v3.rs:549-563` -/
def Reason.len : Reason → Nat
  | localNotification m => 1 + m.len
  | localFsm _ => 1 + 2
  | remoteNotification m => 1 + m.len
  | remoteNoData => 1
  | deConfigured => 1
  | localTlv i => 1 + i.len
  | experimental _ v => 1 + v.length

/-- `PeerDownNotificationMessageError`, `v3.rs:468-474` -/
inductive DownBuildErr where
  | message (t : MsgType)
  | info (t : InfoType)
  deriving DecidableEq, Repr

/-- the checks of `PeerDownNotificationMessage::build`, `v3.rs:501-526` and the same at `v4.rs:462-487` -/
def Reason.check : Reason → Option DownBuildErr
  | localNotification m => if m.type = .notification then none else some (.message m.type)
  | remoteNotification m => if m.type = .notification then none else some (.message m.type)
  | localTlv i => if i.type = .text .vrfTableName then none else some (.info i.type)
  | _ => none

/-- `v3::PeerDownNotificationMessage`, `v3.rs:491-494` -/
structure Down3 where
  header : PeerHeader
  reason : Reason
  deriving DecidableEq

/-- `D/v3.rs:530-543` and `D/v4.rs:351-367` -/
inductive DownErr where
  | build (offset : Nat) (e : DownBuildErr)
  | header (e : HeaderErr)
  | reason (e : ReasonErr)
  | tlv (e : ParseError)
  deriving DecidableEq, Repr

/-- `v3::PeerDownNotificationMessage::parse`, `D/v3.rs:545-563` -/
def parseDown3 : CParser Peers DownErr Down3 := do
  let o ← CParser.lift getOffset
  let h ← CParser.lift (mapErr .header Bmp.parseHeader)
  let r ← atPeer h.key do
    setAsn4 h.type.asn4
    CParser.mapErr .reason parseReason
  match r.check with
  | some e => CParser.fail (.build o e)
  | none => pure ⟨h, r⟩

/-- `v3::PeerDownNotificationMessage::write`, `S/v3.rs:519-526` -/
def Down3.write (d : Down3) : Res WErr Bytes := Res.cat (.ok d.header.write) d.reason.write
/-- `S/v3.rs:515-517` -/
def Down3.len (d : Down3) : Nat := d.header.len + d.reason.len

/-- `PeerDownTlv`, `v4.rs:48-50`, with the single variant `Unknown` -/
structure DownTlv where
  code : UInt16
  value : Bytes
  deriving DecidableEq, Repr

/-- `PeerDownTlv::parse`, `D/v4.rs:137-147` -/
def parseDownTlv : Parser ParseError DownTlv :=
  tlv16 id fun _ t _ => do
    let b ← restBytes id
    pure ⟨t, b⟩

/-- `PeerDownTlv::write`, `S/v4.rs:162-174` -/
def DownTlv.write (t : DownTlv) : Res WErr Bytes := Res.cat (tlvHead16 t.code (4 + t.value.length)) (.ok t.value)
/-- `PeerDownTlv::len`, `S/v4.rs:155-160` -/
def DownTlv.len (t : DownTlv) : Nat := 4 + t.value.length

/-- `v4::PeerDownNotificationMessage`, `v4.rs:450-454` -/
structure Down4 where
  header : PeerHeader
  reason : Reason
  tlvs : List DownTlv
  deriving DecidableEq

/-- `v4::PeerDownNotificationMessage::parse`, `D/v4.rs:369-392` -/
def parseDown4 : CParser Peers DownErr Down4 := do
  let o ← CParser.lift getOffset
  let h ← CParser.lift (mapErr .header Bmp.parseHeader)
  let r ← atPeer h.key do
    setAsn4 h.type.asn4
    CParser.mapErr .reason parseReason
  let l ← CParser.lift (many (mapErr .tlv parseDownTlv))
  match r.check with
  | some e => CParser.fail (.build o e)
  | none => pure ⟨h, r, l⟩

/-- `v4::PeerDownNotificationMessage::write`, `S/v4.rs:132-142` -/
def Down4.write (d : Down4) : Res WErr Bytes :=
  Res.cat (.ok d.header.write) (Res.cat d.reason.write (Res.catAll (d.tlvs.map DownTlv.write)))
/-- `S/v4.rs:125-129` -/
def Down4.len (d : Down4) : Nat := d.header.len + d.reason.len + (d.tlvs.map DownTlv.len).sum

/-! ## Peer up -/

/-- `PeerUpNotificationMessage`, `v3.rs:375-385` -/
structure PeerUp where
  header : PeerHeader
  address : Option IpAddr
  localPort : Option UInt16
  remotePort : Option UInt16
  sent : Msg
  received : Msg
  infos : List Info
  deriving DecidableEq

/-- `PeerUpNotificationMessageError`, `v3.rs:392-398` -/
inductive UpBuildErr where
  | sent (t : MsgType)
  | received (t : MsgType)
  deriving DecidableEq, Repr

/-- the checks of `PeerUpNotificationMessage::build`, `v3.rs:411-422`; the error for the received message carries the
type of the sent one -/
def upCheck (sent received : Msg) : Option UpBuildErr :=
  if sent.type ≠ .open then some (.sent sent.type)
  else if received.type ≠ .open then some (.received sent.type) else none

/-- `PeerUpNotificationMessageParsingError`, `D/v3.rs:416-449`; `UnexpectedPeerType` is never produced -/
inductive UpErr where
  | parse (e : ParseError)
  | build (offset : Nat) (e : UpBuildErr)
  | header (e : HeaderErr)
  | msg (e : MsgErr)
  | info (e : InfoErr)
  deriving DecidableEq, Repr

/-- a port, `D/v3.rs:489-500` -/
def portOf (p : UInt16) : Option UInt16 := if p = 0 then none else some p

/-- `PeerUpNotificationMessage::parse`, `D/v3.rs:464-528`; the second `ctx.entry(peer_key).or_default()` finds the entry
of the first -/
def parseUp : CParser Peers UpErr PeerUp := do
  let o ← CParser.lift getOffset
  let h ← CParser.lift (mapErr .header Bmp.parseHeader)
  let a ← CParser.lift (mapErr .parse readU128)
  let lp ← CParser.lift (mapErr .parse readU16)
  let rp ← CParser.lift (mapErr .parse readU16)
  let m ← atPeer h.key do
    setAsn4 h.type.asn4
    let sent ← CParser.mapErr .msg bgpMsg
    setAsn4 h.type.asn4
    let received ← CParser.mapErr .msg bgpMsg
    pure (sent, received)
  let l ← CParser.lift (many (mapErr .info parseInfo))
  match upCheck m.1 m.2 with
  | some e => CParser.fail (.build o e)
  | none => pure ⟨h, addressOf h.type.ipv6 a, portOf lp, portOf rp, m.1, m.2, l⟩

/-- `PeerUpNotificationMessage::write`, `S/v3.rs:471-493` -/
def PeerUp.write (u : PeerUp) : Res WErr Bytes :=
  Res.cat (.ok (u.header.write ++ (addressBytes u.address ++ (u16be (u.localPort.getD 0) ++ u16be (u.remotePort.getD 0)))))
    (Res.cat (msgBytes u.sent) (Res.cat (msgBytes u.received) (.ok (infosWrite u.infos))))
/-- `S/v3.rs:463-470` -/
def PeerUp.len (u : PeerUp) : Nat := 20 + u.header.len + u.sent.len + u.received.len + infosLen u.infos

/-! ## Route monitoring, version 3 -/

/-- `v3::RouteMonitoringMessage`, `v3.rs:253-256` -/
structure Rm3 where
  header : PeerHeader
  msg : Msg
  deriving DecidableEq

/-- `D/v3.rs:253-266`; `build` is the type of a message other than UPDATE -/
inductive RmErr3 where
  | build (offset : Nat) (t : MsgType)
  | header (e : HeaderErr)
  | msg (e : MsgErr)
  deriving DecidableEq, Repr

/-- `v3::RouteMonitoringMessage::parse`, `D/v3.rs:268-295` -/
def parseRm3 : CParser Peers RmErr3 Rm3 := do
  let h ← CParser.lift (mapErr .header Bmp.parseHeader)
  let x ← atPeer h.key do
    setAsn4 h.type.asn4
    let o ← CParser.lift getOffset
    let m ← CParser.mapErr .msg bgpMsg
    pure (o, m)
  if x.2.type ≠ .update then CParser.fail (.build x.1 x.2.type) else pure ⟨h, x.2⟩

/-- `v3::RouteMonitoringMessage::write`, `S/v3.rs:337-341` -/
def Rm3.write (m : Rm3) : Res WErr Bytes := Res.cat (.ok m.header.write) (msgBytes m.msg)
/-- `S/v3.rs:333-335` -/
def Rm3.len (m : Rm3) : Nat := m.header.len + m.msg.len

/-! ## Route monitoring, version 4 -/

/-- `PathMarkingReason`, `v4.rs:319-322`: the well-known codes are 1 to 11, `v4.rs:354-366` -/
inductive PathReason where
  | wellKnown (c : { c : UInt16 // 1 ≤ c.toNat ∧ c.toNat ≤ 11 })
  | unknown (c : UInt16)
  deriving DecidableEq, Repr
/-- `PathMarkingReason::code`, `v4.rs:325-330` -/
def PathReason.code : PathReason → UInt16
  | wellKnown c => c.1
  | unknown c => c
/-- `PathMarkingReason::from_code`, `v4.rs:336-341` -/
def PathReason.ofCode (c : UInt16) : PathReason :=
  if h : 1 ≤ c.toNat ∧ c.toNat ≤ 11 then .wellKnown ⟨c, h⟩ else .unknown c

/-- `RouteMonitoringTlvValue`, `v4.rs:174-184`; `PathStatus` keeps all 32 bits (`v4.rs:249`) -/
inductive RmVal where
  | stateless (c : Cap)
  | group (l : List UInt16)
  | vrf (s : String)
  | update (m : Msg)
  | path (status : UInt32) (reason : Option PathReason)
  | unknown (code : UInt16) (v : Bytes)
  deriving DecidableEq

/-- `RouteMonitoringTlv`, `v4.rs:81-84` -/
structure RmTlv where
  index : UInt16
  value : RmVal
  deriving DecidableEq

/-- `RouteMonitoringTlvError`, `v4.rs:88-97` -/
inductive TlvBuildErr where
  | index (i : UInt16)
  | message (t : MsgType)
  | vrfTooLong (n : Nat)
  deriving DecidableEq, Repr

/-- the checks of `RouteMonitoringTlv::build`, `v4.rs:100-129` -/
def tlvCheck (index : UInt16) : RmVal → Option TlvBuildErr
  | .group _ => if index &&& 0x8000 ≠ 0x8000 then some (.index index) else none
  | .vrf s => if (utf8 s).length > 255 then some (.vrfTooLong (utf8 s).length) else none
  | .update m => if m.type ≠ .update then some (.message m.type) else none
  | _ => none

/-- `PathMarkingParsingError`, `D/v4.rs:394-401` -/
inductive PathErr where
  | parse (e : ParseError)
  | length (offset n : Nat)
  deriving DecidableEq, Repr

/-- `PathMarking::parse`, `D/v4.rs:403-431` -/
def parsePath : Parser PathErr RmVal := do
  let s ← mapErr .parse readU32
  let o ← getOffset
  let n ← getRemaining
  if n = 0 then pure (.path s none)
  else if n = 2 then do
    let c ← mapErr .parse readU16
    pure (.path s (some (PathReason.ofCode c)))
  else fail (.length o n)

/-- `RouteMonitoringTlvParsingError`, `D/v4.rs:245-276` -/
inductive TlvErr where
  | parse (e : ParseError)
  | length (offset : Nat) (expected actual : UInt16)
  | utf8 (offset : Nat)
  | cap (e : CapErr)
  | msg (e : MsgErr)
  | path (e : PathErr)
  | build (offset : Nat) (e : TlvBuildErr)
  deriving DecidableEq, Repr

/-- `data.as_slice()` -/
def sliceBytes {ε : Type} : Parser ε Bytes := fun r => (.ok r.buf, r)

/-- the update of a context by a capability -/
def PeerCtx.update (c : PeerCtx) (out : Bool) (cap : Cap) : PeerCtx :=
  { c with ctx := { c.ctx with attr := AttrCtx.update c.ctx.attr out cap } }

/-- the arms of `D/v4.rs:302-341`, on the slice; `RouteMonitoringTlvType`, `v4.rs:163-169` -/
def tlvBody (out : Bool) (t : UInt16) : CParser PeerCtx TlvErr RmVal :=
  if t = 3 then CParser.lift do
    let o ← getOffset
    let b ← sliceBytes
    let s ← ofOption (.utf8 o) (ofUtf8 b)
    pure (.vrf s)
  else if t = 4 then do
    let m ← CParser.mapErr .msg bgpMsg
    pure (.update m)
  else if t = 2 then CParser.lift do
    let l ← many (mapErr .parse readU16)
    pure (.group l)
  else if t = 1 then do
    let c ← CParser.lift (mapErr .cap parseCap)
    CParser.modify fun g => g.update out c
    pure (.stateless c)
  else if t = 5 then CParser.lift (mapErr .path parsePath)
  else CParser.lift do
    let b ← sliceBytes
    pure (.unknown t b)

/-- `RouteMonitoringTlv::parse`, `D/v4.rs:278-349` -/
def parseRmTlv (out : Bool) : CParser PeerCtx TlvErr RmTlv := do
  let o ← CParser.lift getOffset
  let t ← CParser.lift (mapErr .parse readU16)
  let l ← CParser.lift (mapErr .parse readU16)
  let i ← CParser.lift (mapErr .parse readU16)
  let o' ← CParser.lift getOffset
  let n ← CParser.lift getRemaining
  if n < l.toNat then CParser.fail (.length (o' - 6) l (UInt16.ofNat n)) else do
    let d ← CParser.lift (mapErr .parse (takeSlice l.toNat))
    let x ← CParser.onSub d (tlvBody out t)
    match tlvCheck i x.1 with
    | some e => CParser.fail (.build o e)
    | none => pure ⟨i, x.1⟩

/-- `v4::RouteMonitoringMessage`, `v4.rs:403-407`; `pdu` is the message inside `update_pdu`, whose index is 0 -/
structure Rm4 where
  header : PeerHeader
  pdu : Msg
  tlvs : List RmTlv
  deriving DecidableEq

/-- `D/v4.rs:149-171` -/
inductive RmErr4 where
  | parse (e : ParseError)
  | build (offset : Nat) (e : TlvBuildErr)
  | missing (offset : Nat)
  | header (e : HeaderErr)
  | msg (e : MsgErr)
  | tlv (e : TlvErr)
  deriving DecidableEq, Repr

/-- one pass of the loop of `D/v4.rs:200-221`: either the octets of a BGP message TLV, kept for later, or another TLV -/
def rm4Item (out : Bool) : CParser PeerCtx RmErr4 (Reader ⊕ RmTlv) := do
  let t ← CParser.lift (mapErr .parse peekU16)
  if t = 4 then CParser.lift do
    let _ ← mapErr .parse readU16
    let l ← mapErr .parse readU16
    let _ ← mapErr .parse readU16
    let d ← mapErr .parse (takeSlice l.toNat)
    pure (.inl d)
  else do
    let x ← CParser.mapErr .tlv (parseRmTlv out)
    pure (.inr x)

/-- `bgp_pdu` after the loop: the last BGP message TLV -/
def lastPdu (l : List (Reader ⊕ RmTlv)) : Option Reader := (l.filterMap Sum.getLeft?).getLast?
/-- `tlvs` after the loop -/
def tlvsOf (l : List (Reader ⊕ RmTlv)) : List RmTlv := l.filterMap Sum.getRight?

/-- `let mut ctx_clone = bgp_ctx.clone()`: what follows works on a copy of the context -/
def scratch {ε α : Type} (p : CParser PeerCtx ε α) : CParser PeerCtx ε α := fun s =>
  let x := p s
  (x.1, (x.2.1, s.2))

/-- the part of `D/v4.rs:192-233` that works on the copy of the context -/
def rm4Body (out : Bool) : CParser PeerCtx RmErr4 (Msg × List RmTlv) := do
  let l ← CParser.cmany (do
    let x ← rm4Item out
    pure (some x))
  match lastPdu l with
  | some d => do
    let x ← CParser.onSub d (CParser.mapErr .msg bgpMsg)
    pure (x.1, tlvsOf l)
  | none => do
    let o ← CParser.lift getOffset
    CParser.fail (.missing o)

/-- `v4::RouteMonitoringMessage::parse`, `D/v4.rs:173-243` -/
def parseRm4 : CParser Peers RmErr4 Rm4 := do
  let o ← CParser.lift getOffset
  let h ← CParser.lift (mapErr .header Bmp.parseHeader)
  let x ← atPeer h.key do
    setAsn4 h.type.asn4
    scratch (rm4Body h.type.adjRibOut)
  match tlvCheck 0 (.update x.1) with
  | some e => CParser.fail (.build o e)
  | none => pure ⟨h, x.1, x.2⟩

/-- `RouteMonitoringTlvValue::get_type`, `v4.rs:131-148` -/
def RmVal.code : RmVal → UInt16
  | vrf _ => 3 | update _ => 4 | group _ => 2 | stateless _ => 1 | path .. => 5 | unknown c _ => c
/-- the value of a TLV, `S/v4.rs:276-299` -/
def RmVal.write : RmVal → Res WErr Bytes
  | vrf s => .ok (utf8 s)
  | update m => msgBytes m
  | group l => .ok (l.flatMap u16be)
  | stateless c => c.write.mapErr .cap
  | path s r => .ok (u32be s ++ (match r with | some r => u16be r.code | none => []))
  | unknown _ v => .ok v
/-- `RouteMonitoringTlvValue::len`, `S/v4.rs:262-273` -/
def RmVal.len : RmVal → Nat
  | vrf s => (utf8 s).length
  | update m => m.len
  | group l => 2 * l.length
  | stateless c => c.len
  | path _ r => 4 + (match r with | some _ => 2 | none => 0)
  | unknown _ v => v.length
/-- `RouteMonitoringTlv::len`, `S/v4.rs:224-228` -/
def RmTlv.len (t : RmTlv) : Nat := 6 + t.value.len
/-- `RouteMonitoringTlv::write`, `S/v4.rs:230-243`: `write_tlv_header_t16_l16(type, (len - 2) as u16)`, index, value -/
def RmTlv.write (t : RmTlv) : Res WErr Bytes :=
  Res.cat (tlvHead16 t.value.code (t.len - 2)) (Res.cat (.ok (u16be t.index)) t.value.write)

/-- the TLV of the BGP message -/
def Rm4.pduTlv (m : Rm4) : RmTlv := ⟨0, .update m.pdu⟩
/-- `v4::RouteMonitoringMessage::write`, `S/v4.rs:199-208` -/
def Rm4.write (m : Rm4) : Res WErr Bytes :=
  Res.cat (.ok m.header.write) (Res.cat (Res.catAll (m.tlvs.map RmTlv.write)) m.pduTlv.write)
/-- `S/v4.rs:192-196` -/
def Rm4.len (m : Rm4) : Nat := m.header.len + (m.tlvs.map RmTlv.len).sum + m.pduTlv.len

/-! ## Messages -/

/-- `v3::BmpMessageValue` (`v3.rs:31-43`) and `v4::BmpMessageValue` (`v4.rs:31-43`), which differ in the route monitoring
and the peer down messages -/
inductive Value (R D : Type) where
  | routeMonitoring (m : R)
  | stats (m : Stats)
  | peerDown (m : D)
  | peerUp (m : PeerUp)
  | initiation (l : List Info)
  | termination (l : List TermInfo)
  | mirroring (m : Mirroring)
  | experimental (n : Fin 4) (b : Bytes)
  deriving DecidableEq

/-- `D/v3.rs:35-62`, `D/v4.rs:38-65` -/
inductive ValueErr (RE : Type) where
  | parse (e : ParseError)
  | undefined (offset : Nat) (code : UInt8)
  | routeMonitoring (e : RE)
  | stats (e : StatsErr)
  | peerDown (e : DownErr)
  | peerUp (e : UpErr)
  | initiation (e : InfoErr)
  | termination (e : TermErr)
  | mirroring (e : MirrorErr)
  deriving DecidableEq, Repr

section
variable {R D RE : Type}

/-- the arms of `D/v3.rs:77-124` and `D/v4.rs:80-127`; `BmpMessageType`, `iana.rs:79-101` -/
def valueBody (rm : CParser Peers RE R) (down : CParser Peers DownErr D) (offset : Nat) (c : UInt8) :
    CParser Peers (ValueErr RE) (Value R D) :=
  if c = 0 then do
    let m ← CParser.mapErr .routeMonitoring rm
    pure (.routeMonitoring m)
  else if c = 1 then do
    let m ← CParser.lift (mapErr .stats parseStats)
    pure (.stats m)
  else if c = 2 then do
    let m ← CParser.mapErr .peerDown down
    pure (.peerDown m)
  else if c = 3 then do
    let m ← CParser.mapErr .peerUp parseUp
    pure (.peerUp m)
  else if c = 4 then do
    let l ← CParser.lift (many (mapErr .initiation parseInfo))
    pure (.initiation l)
  else if c = 5 then do
    let l ← CParser.lift (many (mapErr .termination parseTermInfo))
    pure (.termination l)
  else if c = 6 then do
    let m ← CParser.mapErr .mirroring parseMirroring
    pure (.mirroring m)
  else match ofExp8 c with
    | some n => do
      let b ← CParser.lift (restBytes .parse)
      pure (.experimental n b)
    | none => CParser.fail (.undefined (offset - 1) c)

/-- `BmpMessageValue::parse`, `D/v3.rs:64-126`, `D/v4.rs:67-129` -/
def parseValue (rm : CParser Peers RE R) (down : CParser Peers DownErr D) : CParser Peers (ValueErr RE) (Value R D) := do
  let c ← CParser.lift (mapErr .parse readU8)
  let o ← CParser.lift getOffset
  valueBody rm down o c

/-- `BmpMessageValue::get_type`, `v3.rs:47-62`, `v4.rs:61-76` -/
def Value.code : Value R D → UInt8
  | routeMonitoring _ => 0 | stats _ => 1 | peerDown _ => 2 | peerUp _ => 3 | initiation _ => 4 | termination _ => 5
  | mirroring _ => 6 | experimental n _ => exp8 n

/-- the body of a message, `S/v3.rs:85-97`, `S/v4.rs:87-99` -/
def Value.body (rm : R → Res WErr Bytes) (down : D → Res WErr Bytes) : Value R D → Res WErr Bytes
  | routeMonitoring m => rm m
  | stats m => .ok m.write
  | peerDown m => down m
  | peerUp m => m.write
  | initiation l => .ok (infosWrite l)
  | termination l => .ok (l.flatMap TermInfo.write)
  | mirroring m => m.write
  | experimental _ b => .ok b
/-- `BmpMessageValue::write`, `S/v3.rs:82-98`, `S/v4.rs:84-100` -/
def Value.write (rm : R → Res WErr Bytes) (down : D → Res WErr Bytes) (v : Value R D) : Res WErr Bytes :=
  Res.cat (.ok [v.code]) (v.body rm down)
/-- `BmpMessageValue::len`, `S/v3.rs:65-80`, `S/v4.rs:67-82` -/
def Value.len (rm : R → Nat) (down : D → Nat) : Value R D → Nat
  | routeMonitoring m => 1 + rm m
  | stats m => 1 + m.len
  | peerDown m => 1 + down m
  | peerUp m => 1 + m.len
  | initiation l => 1 + infosLen l
  | termination l => 1 + (l.map TermInfo.len).sum
  | mirroring m => 1 + m.len
  | experimental _ b => 1 + b.length
end

/-- a message of version 3 -/
abbrev Value3 := Value Rm3 Down3
/-- a message of version 4 -/
abbrev Value4 := Value Rm4 Down4

/-- `BmpMessage`, `L:51-54` -/
inductive BmpMsg where
  | v3 (v : Value3)
  | v4 (v : Value4)
  deriving DecidableEq

/-- `BmpMessageParsingError`, `D/mod.rs:61-86` -/
inductive BmpErr where
  | parse (e : ParseError)
  | version (offset : Nat) (value : UInt8)
  | length (offset : Nat) (length : UInt32)
  | v3 (e : ValueErr RmErr3)
  | v4 (e : ValueErr RmErr4)
  | unparsed (offset : Nat) (length : UInt32) (remaining : Nat)
  deriving DecidableEq, Repr

/-- `BmpVersion`, `iana.rs:46-49` -/
inductive Version where
  | v3 | v4
  deriving DecidableEq, Repr
/-- `BmpVersion::try_from` -/
def Version.ofCode (c : UInt8) : Option Version := if c = 3 then some .v3 else if c = 4 then some .v4 else none
/-- `iana.rs:46-49` -/
def Version.code : Version → UInt8
  | v3 => 3 | v4 => 4
/-- `BmpMessage::get_version` -/
def BmpMsg.version : BmpMsg → Version
  | v3 _ => .v3 | v4 _ => .v4

/-- the value, `D/mod.rs:155-164` -/
def versionBody : Version → CParser Peers BmpErr BmpMsg
  | .v3 => do
    let v ← CParser.mapErr .v3 (parseValue parseRm3 parseDown3)
    pure (.v3 v)
  | .v4 => do
    let v ← CParser.mapErr .v4 (parseValue parseRm4 parseDown4)
    pure (.v4 v)

/-- `BmpMessage::parse`, `D/mod.rs:135-175` -/
def parseBmp : CParser Peers BmpErr BmpMsg := do
  let c ← CParser.lift (mapErr .parse readU8)
  let o ← CParser.lift getOffset
  let v ← CParser.lift (ofOption (.version (o - 1) c) (Version.ofCode c))
  let l ← CParser.lift (mapErr .parse readU32)
  let o ← CParser.lift getOffset
  if l.toNat < 5 then CParser.fail (.length (o - 4) l) else do
    let d ← CParser.lift (mapErr .parse (takeSlice (l.toNat - 5)))
    let x ← CParser.onSub d (versionBody v)
    if x.2.buf = [] then pure x.1 else CParser.fail (.unparsed x.2.offset l x.2.buf.length)

/-- the value of a message -/
def BmpMsg.body : BmpMsg → Res WErr Bytes
  | v3 v => v.write Rm3.write Down3.write
  | v4 v => v.write Rm4.write Down4.write
/-- `BmpMessage::len`, `S/mod.rs:42-48` -/
def BmpMsg.len : BmpMsg → Nat
  | v3 v => 5 + v.len Rm3.len Down3.len
  | v4 v => 5 + v.len Rm4.len Down4.len
/-- `BmpMessage::write`, `S/mod.rs:50-63` -/
def BmpMsg.write (m : BmpMsg) : Res WErr Bytes :=
  Res.cat (.ok (m.version.code :: u32be (UInt32.ofNat m.len))) m.body

end Verif.Bmp
