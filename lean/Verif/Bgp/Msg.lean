import Verif.Core.Ctx
import Verif.Bgp.Caps
import Verif.Bgp.Attr
/-!
# BGP messages: OPEN, UPDATE, NOTIFICATION, KEEPALIVE, ROUTE-REFRESH and the message header

Paths are under `crates/bgp-pkt/src`. Abbreviations: `D` is `wire/deserializer`, `S` is `wire/serializer`.

Left out: the capacity hints (`count_nlri`, `count_path_attributes`, `count_t8_l8_tlvs`), which only size vectors, and
the logging.
-/
namespace Verif.Bgp
open Parser

/-! ## NOTIFICATION -/

/-- `BgpErrorNotificationCode`, `iana.rs:186-208`, which is also the constructor of `BgpNotificationMessage`,
`notification.rs:31-39` -/
inductive NotifKind where
  | header | openMsg | updateMsg | holdTimer | fsm | cease | routeRefresh
  deriving DecidableEq, Repr

/-- the wire codes, `iana.rs:186-208` -/
def NotifKind.code : NotifKind → UInt8
  | header => 1 | openMsg => 2 | updateMsg => 3 | holdTimer => 4 | fsm => 5 | cease => 6 | routeRefresh => 7

/-- `BgpErrorNotificationCode::try_from` -/
def NotifKind.ofCode (c : UInt8) : Option NotifKind :=
  if c = 1 then some .header else if c = 2 then some .openMsg else if c = 3 then some .updateMsg
  else if c = 4 then some .holdTimer else if c = 5 then some .fsm else if c = 6 then some .cease
  else if c = 7 then some .routeRefresh else none

/-- the sub-codes each error type has: `iana.rs:236-242, 271-285, 314-327, 356-368, 397-427, 456-459`; a hold timer
error takes any (`HoldTimerExpiredError::Unspecific { sub_code, .. }`) -/
def NotifKind.subOk : NotifKind → UInt8 → Bool
  | header, s => [0, 1, 2, 3].contains s
  | openMsg, s => [0, 1, 2, 3, 4, 6, 7, 11].contains s
  | updateMsg, s => [0, 1, 2, 3, 4, 5, 6, 8, 9, 10, 11].contains s
  | holdTimer, _ => true
  | fsm, s => [0, 1, 2, 3].contains s
  | cease, s => [1, 2, 3, 4, 5, 6, 7, 8, 9, 10].contains s
  | routeRefresh, s => [1].contains s

/-- `BgpNotificationMessage`, `notification.rs:31-126`: the error type, its variant (given by its sub-code) and the
data -/
structure Notif where
  kind : NotifKind
  sub : UInt8
  value : Bytes
  ok : kind.subOk sub = true
  deriving DecidableEq, Repr

/-- `BgpNotificationMessageParsingError`, `D/notification.rs:36-63`, with the nested errors -/
inductive NotifErr where
  | parse (e : ParseError)
  | undefinedCode (offset : Nat) (code : UInt8)
  | subParse (k : NotifKind) (e : ParseError)
  | undefinedSub (k : NotifKind) (offset : Nat) (code : UInt8)
  deriving DecidableEq, Repr

/-- `try_from` of the sub-code, with the value read so far -/
def Notif.make (k : NotifKind) (s : UInt8) (v : Bytes) : Option Notif :=
  if h : k.subOk s = true then some ⟨k, s, v, h⟩ else none

/-- `MessageHeaderError::parse` and the other sub-code parsers, `D/notification.rs:120-383`. The hold timer parser reads
the sub-code without looking first (258-266), which makes no difference as it has no undefined sub-codes. -/
def parseNotifBody (k : NotifKind) : Parser NotifErr Notif := do
  let c ← mapErr (.subParse k) peekU8
  let o ← getOffset
  if k.subOk c then do
    let _ ← mapErr (.subParse k) readU8
    let n ← getRemaining
    let v ← mapErr (.subParse k) (readBytes n)
    ofOption (.undefinedSub k o c) (Notif.make k c v)
  else fail (.undefinedSub k o c)

/-- `BgpNotificationMessage::parse`, `D/notification.rs:65-109` -/
def parseNotif : Parser NotifErr Notif := do
  let c ← mapErr .parse peekU8
  let o ← getOffset
  let k ← ofOption (.undefinedCode o c) (NotifKind.ofCode c)
  let _ ← mapErr .parse readU8
  parseNotifBody k

/-- `S/notification.rs:73-108` with the sub-code writers (118-499) -/
def Notif.write (n : Notif) : Bytes := n.kind.code :: n.sub :: n.value
/-- `S/notification.rs:60-71` -/
def Notif.len (n : Notif) : Nat := 1 + (1 + n.value.length)

/-! ## ROUTE-REFRESH -/

/-- `RouteRefreshSubcode`, `iana.rs:651-655` -/
inductive RefreshOp where
  | normal | begin | stop
  deriving DecidableEq, Repr
/-- `iana.rs:651-661` -/
def RefreshOp.code : RefreshOp → UInt8
  | normal => 0 | begin => 1 | stop => 2
/-- `iana.rs:668-677` -/
def RefreshOp.ofCode (c : UInt8) : Option RefreshOp :=
  if c = 0 then some .normal else if c = 1 then some .begin else if c = 2 then some .stop else none

/-- `BgpRouteRefreshMessage`, `route_refresh.rs:36-39` -/
structure Refresh where
  type : AddressType
  op : RefreshOp
  deriving DecidableEq, Repr

/-- `BgpRouteRefreshMessageParsingError`, `D/route_refresh.rs:28-45` -/
inductive RefreshErr where
  | parse (e : ParseError)
  | undefinedOp (offset : Nat) (code : UInt8)
  | undefinedAfi (offset : Nat) (afi : UInt16)
  | undefinedSafi (offset : Nat) (safi : UInt8)
  | addressType (offset : Nat) (afi : UInt16) (safi : UInt8)
  deriving DecidableEq, Repr

/-- `BgpRouteRefreshMessage::parse`, `D/route_refresh.rs:47-88` -/
def parseRefresh : Parser RefreshErr Refresh := do
  let c ← mapErr .parse peekU16
  let o ← getOffset
  let afi ← ofOption (.undefinedAfi o c) (afiOf c)
  let _ ← mapErr .parse readU16
  let p ← mapErr .parse peekU8
  let o ← getOffset
  let op ← ofOption (.undefinedOp o p) (RefreshOp.ofCode p)
  let _ ← mapErr .parse readU8
  let s ← mapErr .parse peekU8
  let o ← getOffset
  let safi ← ofOption (.undefinedSafi o s) (safiOf s)
  let _ ← mapErr .parse readU8
  let o ← getOffset
  let t ← ofOption (.addressType (o - 4) afi.val safi.val) (AddressType.ofAfiSafi afi safi)
  pure ⟨t, op⟩

/-- `S/route_refresh.rs:36-44` -/
def Refresh.write (m : Refresh) : Bytes := u16be m.type.afi ++ [m.op.code, m.type.safi]

/-! ## The parsing context -/

/-- `BgpParsingIgnoredErrors`, `D/mod.rs:61-66` -/
structure Ignored where
  withdraw : List Net
  update : List Net
  caps : List CapErr
  attrs : List AttrErr
  deriving DecidableEq, Repr

/-- `BgpParsingIgnoredErrors::default()` -/
def Ignored.none : Ignored := ⟨[], [], [], []⟩

/-- `BgpParsingContext`, `D/mod.rs:87-96`, without `parsing_errors`, which is the mutable state of the parsers -/
structure MsgCtx where
  attr : AttrCtx
  failWithdraw : Bool
  failUpdate : Bool
  failCap : Bool
  failAttr : Bool

/-- a parser with the list of ignored errors as its mutable state -/
abbrev MParser (ε α : Type) := CParser Ignored ε α

/-! ## OPEN -/

/-- `BgpOpenMessage`, `open.rs:46-52`: the version is always 4 (`BgpOpenMessage::new`, 56-69); a parameter is
always a list of capabilities (`BgpOpenMessageParameter::Capabilities`) -/
structure Open where
  myAs : UInt16
  hold : UInt16
  bgpId : UInt32
  params : List (List Cap)
  deriving DecidableEq, Repr

/-- `BgpOpenMessage::capabilities`, `open.rs:108-115` -/
def Open.caps (m : Open) : List Cap := m.params.flatten

/-- the filter in `BgpOpenMessage::my_asn4`, `open.rs:95-101` -/
def Cap.asn4? : Cap → Option UInt32
  | .fourOctetAs a => some a
  | _ => none

/-- `BgpOpenMessage::my_asn4`, `open.rs:92-105` -/
def Open.myAsn4 (m : Open) : UInt32 := ((m.caps.filterMap Cap.asn4?).getLast?).getD (UInt32.ofNat m.myAs.toNat)

/-- `BgpParameterParsingError`, `D/open.rs:55-64` -/
inductive ParamErr where
  | parse (e : ParseError)
  | undefinedType (offset : Nat) (code : UInt8)
  | capability (e : CapErr)
  deriving DecidableEq, Repr

/-- `BgpOpenMessageParsingError`, `D/open.rs:32-51` -/
inductive OpenErr where
  | parse (e : ParseError)
  | version (offset : Nat) (v : UInt8)
  | holdTime (offset : Nat) (t : UInt16)
  | bgpId (offset : Nat) (id : UInt32)
  | param (e : ParamErr)
  deriving DecidableEq, Repr

/-- one iteration of the loop of `parse_capability_param`, `D/open.rs:166-181` -/
def capStep (c : MsgCtx) : MParser ParamErr (Option Cap) := do
  match ← CParser.attempt parseCap with
  | .ok x => pure (some x)
  | .error e =>
    if c.failCap then CParser.fail (.capability e)
    else do
      CParser.modify fun g => { g with caps := g.caps ++ [e] }
      pure none

/-- `parse_capability_param`, `D/open.rs:158-186` -/
def parseCapParam (c : MsgCtx) : MParser ParamErr (List Cap) := do
  let l ← CParser.lift (mapErr .parse readU8)
  let buf ← CParser.lift (mapErr .parse (takeSlice l.toNat))
  let (l, _) ← CParser.onSub buf (CParser.cmany (capStep c))
  pure l

/-- `BgpOpenMessageParameter::parse`, `D/open.rs:131-155`: the codes are 2 and 255 (`iana.rs:488-494`), both the
extended-length parameter and an unknown one are refused with the same error -/
def parseParam (c : MsgCtx) : MParser ParamErr (List Cap) := do
  let code ← CParser.lift (mapErr .parse peekU8)
  let o ← CParser.lift getOffset
  if code = 2 then do
    let _ ← CParser.lift (mapErr .parse readU8)
    parseCapParam c
  else CParser.fail (.undefinedType o code)

/-- the checks on the BGP identifier, `D/open.rs:103` -/
def badBgpId (id : UInt32) : Bool := isBroadcast4 (u32be id) || isMulticast4 (u32be id) || id == 0

/-- the loop over the parameters, `D/open.rs:118-121` -/
def parseParams (c : MsgCtx) : MParser ParamErr (List (List Cap)) := CParser.cmany (do let p ← parseParam c; pure (some p))

/-- the fixed part of an OPEN, `D/open.rs:70-111` -/
def parseOpenFixed : Parser OpenErr (UInt16 × UInt16 × UInt32 × UInt8) := do
  let v ← mapErr .parse peekU8
  let o ← getOffset
  if v ≠ 4 then fail (.version o v)
  else do
    let _ ← mapErr .parse readU8
    let as ← mapErr .parse readU16
    let h ← mapErr .parse peekU16
    let o ← getOffset
    if h = 1 ∨ h = 2 then fail (.holdTime (o - 2) h)
    else do
      let _ ← mapErr .parse readU16
      let id ← mapErr .parse peekU32
      let o ← getOffset
      if badBgpId id then fail (.bgpId o id)
      else do
        let _ ← mapErr .parse readU32
        let l ← mapErr .parse readU8
        pure (as, h, id, l)

/-- `BgpOpenMessage::parse`, `D/open.rs:66-129` -/
def parseOpen (c : MsgCtx) : MParser OpenErr Open := do
  let (as, h, id, l) ← CParser.lift parseOpenFixed
  if l = 0 then pure ⟨as, h, id, []⟩
  else do
    let buf ← CParser.lift (mapErr .parse (takeSlice l.toNat))
    let (ps, _) ← CParser.onSub buf (CParser.mapErr .param (parseParams c))
    pure ⟨as, h, id, ps⟩

/-- `BgpOpenMessageParameter::len`, `S/open.rs:63-70` -/
def paramLen (p : List Cap) : Nat := 2 + (p.map Cap.len).sum
/-- `BgpOpenMessageParameter::write`, `S/open.rs:72-84`: the length is cast to one octet -/
def writeParam (p : List Cap) : Res CapWriteErr Bytes :=
  Res.cat (.ok [2, UInt8.ofNat (paramLen p - 2)]) (Res.catAll (p.map Cap.write))
/-- `BgpOpenMessage::len`, `S/open.rs:40-43` -/
def Open.len (m : Open) : Nat := 10 + (m.params.map paramLen).sum
/-- `BgpOpenMessage::write`, `S/open.rs:45-56`: the length of the parameters is cast to one octet -/
def Open.write (m : Open) : Res CapWriteErr Bytes :=
  Res.cat
    (.ok ([4] ++ u16be m.myAs ++ u16be m.hold ++ u32be m.bgpId ++ [UInt8.ofNat (m.params.map paramLen).sum]))
    (Res.catAll (m.params.map writeParam))

/-! ## UPDATE -/

/-- `BgpUpdateMessage`, `update.rs:43-47` -/
structure Update where
  withdrawn : List NetAddr
  attrs : List PathAttr
  nlri : List NetAddr
  deriving DecidableEq

/-- `BgpUpdateMessageParsingError`, `D/update.rs:44-56` -/
inductive UpdateErr where
  | parse (e : ParseError)
  | attr (e : AttrErr)
  | pfx (e : PrefixError)
  | invalidNetwork (offset : Nat) (n : Net)
  deriving DecidableEq, Repr

/-- one iteration of `parse_nlri`, `D/update.rs:99-131`. In strict mode a bad network of an UPDATE is both recorded
as ignored (116-118) and returned as the error (123-128). -/
def nlriStep (c : MsgCtx) (addPath isUpdate : Bool) : MParser UpdateErr (Option NetAddr) := do
  let id ← CParser.lift (if addPath then some <$> mapErr .parse readU32 else pure none)
  let o ← CParser.lift getOffset
  let n ← CParser.lift (mapErr .pfx (parseNet 4))
  if uni4Ok n then pure (some ⟨id, n⟩)
  else do
    if isUpdate && c.failUpdate then CParser.modify fun g => { g with update := g.update ++ [n] } else pure ()
    if !isUpdate && !c.failWithdraw then do
      CParser.modify fun g => { g with withdraw := g.withdraw ++ [n] }
      pure none
    else if isUpdate && !c.failUpdate then do
      CParser.modify fun g => { g with update := g.update ++ [n] }
      pure none
    else CParser.fail (.invalidNetwork o n)

/-- `parse_nlri`, `D/update.rs:92-133` -/
def parseNlri (c : MsgCtx) (addPath isUpdate : Bool) : MParser UpdateErr (List NetAddr) :=
  CParser.cmany (nlriStep c addPath isUpdate)

/-- `advance_attr_buffer`, `D/update.rs:177-192`; the slice is not used -/
def advanceAttr : Parser ParseError Unit := do
  let f ← readU8
  let _ ← readU8
  let l ← (if hasBit f 0x10 then UInt16.toNat <$> readU16 else UInt8.toNat <$> readU8)
  let _ ← takeSlice l
  pure ()

/-- `advance_attr_buffer_fixed`, `D/update.rs:197-215` -/
def advanceAttrFixed (n : Nat) : Parser ParseError Unit := do
  let f ← readU8
  let _ ← takeSlice (if hasBit f 0x10 then n + 3 else n + 2)
  pure ()

/-- `handle_path_error`, `D/update.rs:259-363`: `error e` aborts with a parse error, `ok` says how to go on -/
inductive Recovery where
  | abort (e : ParseError)
  | skip (n : Nat)
  | fixed (n : Nat)
  | attr
  deriving DecidableEq, Repr

/-- the case distinction of `handle_path_error`. The elements of the community lists fail with a parse error only. -/
def recovery (asn4 : Bool) : AttrErr → Recovery
  | .parse e | .origin (.parse e) | .asPath (.parse e) | .nextHop (.parse e) | .med (.parse e)
  | .localPref (.parse e) | .atomicAggregate (.parse e) | .aggregator (.parse e)
  | .communities (.parse e) | .communities (.element e) | .extCommunities (.parse e)
  | .extCommunities (.element e) | .extCommunities6 (.parse e) | .extCommunities6 (.element e) => .abort e
  | .origin _ | .asPath _ => .skip 0
  | .nextHop (.invalidLength ..) | .med (.invalidLength ..) | .localPref (.invalidLength ..) => .skip 4
  | .atomicAggregate (.invalidLength ..) => .skip 0
  | .aggregator (.invalidLength ..) => .skip (if asn4 then 8 else 6)
  | .originator _ => .fixed 4
  | .largeCommunities _ | .clusterList _ | .mpReach _ | .mpUnreach _ | .onlyToCustomer _ | .aigp _
  | .unknown _ | .invalid .. | .bgpLs _ | .prefixSid _ => .attr

/-- what `handle_path_error` does to the buffer -/
def Recovery.run : Recovery → Parser ParseError Unit
  | abort e => fail e
  | skip n => do let _ ← takeSlice n; pure ()
  | fixed n => advanceAttrFixed n
  | attr => advanceAttr

/-- one iteration of the attribute loop, `D/update.rs:230-249` -/
def attrStep (c : MsgCtx) : MParser UpdateErr (Option PathAttr) := do
  match ← CParser.attempt (parseAttr c.attr) with
  | .ok a => pure (some a)
  | .error (.parse e) => CParser.fail (.parse e)
  | .error e =>
    if c.failAttr then CParser.fail (.attr e)
    else do
      CParser.lift (mapErr .parse (recovery c.attr.asn4 e).run)
      CParser.modify fun g => { g with attrs := g.attrs ++ [e] }
      pure none

/-- `BgpUpdateMessage::parse`, `D/update.rs:217-257` -/
def parseUpdate (c : MsgCtx) : MParser UpdateErr Update := do
  let addPath := c.attr.ap .ipv4Unicast
  let l ← CParser.lift (mapErr .parse readU16)
  let buf ← CParser.lift (mapErr .parse (takeSlice l.toNat))
  let (wd, _) ← CParser.onSub buf (parseNlri c addPath false)
  let l ← CParser.lift (mapErr .parse readU16)
  let buf ← CParser.lift (mapErr .parse (takeSlice l.toNat))
  let (attrs, _) ← CParser.onSub buf (CParser.cmany (attrStep c))
  let nlri ← parseNlri c addPath true
  pure ⟨wd, attrs, nlri⟩

/-- `S/update.rs:39-52` -/
def Update.len (m : Update) : Nat :=
  4 + (m.withdrawn.map NetAddr.len).sum + (m.attrs.map PathAttr.len).sum + (m.nlri.map NetAddr.len).sum
/-- `S/update.rs:54-77`: both lengths are cast to two octets -/
def Update.write (m : Update) : Res AttrWriteErr Bytes :=
  Res.cat
    (.ok (u16be (UInt16.ofNat (m.withdrawn.map NetAddr.len).sum) ++ (m.withdrawn.map NetAddr.write).flatten ++
      u16be (UInt16.ofNat (m.attrs.map PathAttr.len).sum)))
    (Res.cat (Res.catAll (m.attrs.map PathAttr.write)) (.ok (m.nlri.map NetAddr.write).flatten))

/-! ## Messages -/

/-- `BgpMessage`, `lib.rs:62-68` -/
inductive Msg where
  | «open» (m : Open)
  | update (m : Update)
  | notification (m : Notif)
  | keepAlive
  | routeRefresh (m : Refresh)
  deriving DecidableEq

/-- `BgpMessageType`, `iana.rs:26-33` -/
inductive MsgType where
  | «open» | update | notification | keepAlive | routeRefresh
  deriving DecidableEq, Repr

/-- `iana.rs:26-33` -/
def MsgType.code : MsgType → UInt8
  | «open» => 1 | update => 2 | notification => 3 | keepAlive => 4 | routeRefresh => 5
/-- `BgpMessageType::try_from` -/
def MsgType.ofCode (c : UInt8) : Option MsgType :=
  if c = 1 then some .open else if c = 2 then some .update else if c = 3 then some .notification
  else if c = 4 then some .keepAlive else if c = 5 then some .routeRefresh else none

/-- `BgpMessage::get_type`, `lib.rs:72-80` -/
def Msg.type : Msg → MsgType
  | «open» _ => .open | update _ => .update | notification _ => .notification
  | keepAlive => .keepAlive | routeRefresh _ => .routeRefresh

/-- `BgpMessageParsingError`, `D/mod.rs:214-257`; `BgpMessageOpenAndLengthParsingError` (262-277) is a part of it -/
inductive MsgErr where
  | parse (e : ParseError)
  | notSynchronized (offset : Nat) (header : BitVec 128)
  | undefinedType (offset : Nat) (code : UInt8)
  | badLength (offset : Nat) (length : UInt16)
  | unparseable (offset : Nat) (length : UInt16) (left : Nat)
  | «open» (e : OpenErr)
  | update (e : UpdateErr)
  | notification (e : NotifErr)
  | routeRefresh (e : RefreshErr)
  deriving DecidableEq, Repr

/-- `BGP_MIN_MESSAGE_LENGTH`, `BGP_MAX_MESSAGE_LENGTH`, `D/mod.rs:52-58` -/
def minLen : Nat := 19
def maxLen : Nat := 4096

/-- `length.take_slice(length - 18)` with any failure turned into the length error, `D/mod.rs:299-307` -/
def takeFrame (length : UInt16) : Parser MsgErr Reader := fun r =>
  match takeSlice (length.toNat - 18) r with
  | (.err _, r') => (.err (.badLength (r'.offset - 2) length), r')
  | (.ok s, r') => (.ok s, r')
  | (.fault x, r') => (.fault x, r')

/-- `parse_bgp_message_length_and_type`, `D/mod.rs:286-327` -/
def parseHeader : Parser MsgErr (UInt16 × MsgType × Reader) := do
  let length ← mapErr .parse readU16
  let o ← getOffset
  if length.toNat < minLen then fail (.badLength (o - 2) length)
  else do
    let buf ← takeFrame length
    let (c, buf) ← onSub buf (mapErr .parse readU8)
    let t ← ofOption (.undefinedType (buf.offset - 1) c) (MsgType.ofCode c)
    if (t = .open ∨ t = .keepAlive) ∧ ¬ (minLen ≤ length.toNat ∧ length.toNat ≤ maxLen) then
      fail (.badLength (buf.offset - 3) length)
    else pure (length, t, buf)

/-- the body, `D/mod.rs:362-381` -/
def parseBody (c : MsgCtx) : MsgType → MParser MsgErr Msg
  | .open => do let m ← CParser.mapErr .open (parseOpen c); pure (.open m)
  | .update => do let m ← CParser.mapErr .update (parseUpdate c); pure (.update m)
  | .notification => do let m ← CParser.lift (mapErr .notification parseNotif); pure (.notification m)
  | .keepAlive => pure .keepAlive
  | .routeRefresh => do let m ← CParser.lift (mapErr .routeRefresh parseRefresh); pure (.routeRefresh m)

/-- the marker, `D/mod.rs:332-338` -/
def parseMarker : Parser MsgErr Unit := do
  let h ← mapErr .parse readU128
  let o ← getOffset
  if h ≠ BitVec.allOnes 128 then fail (.notSynchronized (o - 16) h) else pure ()

/-- `BgpMessage::parse`, `D/mod.rs:329-392` -/
def parseMsg (c : MsgCtx) : MParser MsgErr Msg := do
  CParser.lift parseMarker
  let (length, t, buf) ← CParser.lift parseHeader
  let (m, buf) ← CParser.onSub buf (parseBody c t)
  if buf.buf ≠ [] then CParser.fail (.unparseable buf.offset length buf.buf.length) else pure m

/-- `BgpMessageWritingError`, `S/mod.rs:48-72` -/
inductive MsgWriteErr where
  | overflow (n : Nat)
  | «open» (e : CapWriteErr)
  | update (e : AttrWriteErr)
  deriving DecidableEq

/-- the body's `len()`, `S/mod.rs:78-84` -/
def Msg.bodyLen : Msg → Nat
  | «open» m => m.len | update m => m.len | notification m => m.len | keepAlive => 0 | routeRefresh _ => 4

/-- `BgpMessage::len`, `S/mod.rs:77-86` -/
def Msg.len (m : Msg) : Nat := minLen + m.bodyLen

/-- the body, `S/mod.rs:101-121` -/
def Msg.body : Msg → Res MsgWriteErr Bytes
  | «open» m => m.write.mapErr .open
  | update m => m.write.mapErr .update
  | notification m => .ok m.write
  | keepAlive => .ok []
  | routeRefresh m => .ok m.write

/-- `BgpMessage::write`, `S/mod.rs:88-123`: only OPEN and KEEPALIVE are checked against a maximum, and the length is
cast to two octets. What a failed write leaves behind in the output is not modelled. -/
def Msg.write (m : Msg) : Res MsgWriteErr Bytes :=
  if (m.type = .open ∨ m.type = .keepAlive) ∧ m.len > maxLen then .err (.overflow m.len)
  else Res.cat (.ok (u128be (BitVec.allOnes 128) ++ u16be (UInt16.ofNat m.len) ++ [m.type.code])) m.body

/-! ## Error to NOTIFICATION -/

/-- `From<BgpParameterParsingError> for OpenMessageError`, `D/open.rs:188-213` -/
def ParamErr.notif : ParamErr → Notif
  | parse _ => ⟨.openMsg, 0, [], rfl⟩
  | undefinedType _ code => ⟨.openMsg, 4, [code], rfl⟩
  | capability _ => ⟨.openMsg, 0, [], rfl⟩

/-- `From<BgpOpenMessageParsingError> for OpenMessageError`, `D/open.rs:215-250` -/
def OpenErr.notif : OpenErr → Notif
  | parse _ => ⟨.openMsg, 0, [], rfl⟩
  | version .. => ⟨.openMsg, 1, [0, 4], rfl⟩
  | holdTime _ t => ⟨.openMsg, 6, u16be t, rfl⟩
  | bgpId _ id => ⟨.openMsg, 3, u32be id, rfl⟩
  | param e => e.notif

/-- the path attribute errors in `From<BgpUpdateMessageParsingError> for UpdateMessageError`, `D/update.rs:383-507` -/
def AttrErr.notif : AttrErr → Notif
  | parse _ => ⟨.updateMsg, 1, [], rfl⟩
  | origin _ => ⟨.updateMsg, 6, [], rfl⟩
  | asPath _ => ⟨.updateMsg, 11, [], rfl⟩
  | nextHop _ => ⟨.updateMsg, 8, [], rfl⟩
  | med _ | localPref _ | atomicAggregate _ | aggregator _ | communities _ | extCommunities _ | extCommunities6 _
  | largeCommunities _ | originator _ | clusterList _ | mpReach _ | mpUnreach _ | onlyToCustomer _ | aigp _
  | prefixSid _ => ⟨.updateMsg, 9, [], rfl⟩
  | unknown _ => ⟨.updateMsg, 0, [], rfl⟩
  | invalid .. => ⟨.updateMsg, 4, [], rfl⟩
  | bgpLs _ => ⟨.updateMsg, 0, [], rfl⟩

/-- `From<BgpUpdateMessageParsingError> for UpdateMessageError`, `D/update.rs:365-531` -/
def UpdateErr.notif : UpdateErr → Notif
  | parse (.eof ..) => ⟨.updateMsg, 1, [], rfl⟩
  | parse (.invalidPaddingLength ..) => ⟨.updateMsg, 0, [], rfl⟩
  | attr e => e.notif
  | pfx (.parse _) => ⟨.updateMsg, 1, [], rfl⟩
  | pfx _ => ⟨.updateMsg, 10, [], rfl⟩
  | invalidNetwork .. => ⟨.updateMsg, 0, [], rfl⟩

/-- `From<BgpMessageParsingError> for BgpNotificationMessage`, `D/mod.rs:394-447` -/
def MsgErr.notif : MsgErr → Notif
  | parse _ => ⟨.header, 0, [], rfl⟩
  | notSynchronized _ h => ⟨.header, 1, u128be h, rfl⟩
  | undefinedType _ c => ⟨.header, 3, [c], rfl⟩
  | badLength _ l => ⟨.header, 2, u16be l, rfl⟩
  | unparseable _ l _ => ⟨.header, 2, u16be l, rfl⟩
  | «open» e => e.notif
  | update e => e.notif
  | notification _ => ⟨.fsm, 0, [], rfl⟩
  | routeRefresh _ => ⟨.routeRefresh, 1, [], rfl⟩

end Verif.Bgp
