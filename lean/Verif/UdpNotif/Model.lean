import Verif.Core.Reader
import Verif.Core.HMap
/-!
# UDP-notif packets and codec (`crates/udp-notif-pkt`)
-/
namespace Verif.UdpNotif
open Verif

/-- `crates/udp-notif-pkt/src/raw.rs:56-73` -/
inductive MediaType where
  | reserved | yangDataJson | yangDataXml | yangDataCbor
  | unknown (v : UInt8) | priv (v : UInt8)
  deriving DecidableEq, Repr

/-- `MediaType::from_wire`, `raw.rs:78-89` -/
def MediaType.fromWire (v : UInt8) (p : Bool) : MediaType :=
  if p then .priv v
  else if v = 0 then .reserved
  else if v = 1 then .yangDataJson
  else if v = 2 then .yangDataXml
  else if v = 3 then .yangDataCbor
  else .unknown v

/-- `MediaType::is_private`, `raw.rs:93-95` -/
def MediaType.isPrivate : MediaType → Bool
  | .priv _ => true
  | _ => false

/-- `From<MediaType> for u8`, `raw.rs:106-116` -/
def MediaType.toU8 : MediaType → UInt8
  | .reserved => 0 | .yangDataJson => 1 | .yangDataXml => 2 | .yangDataCbor => 3
  | .unknown v => v | .priv v => v

/-- `UdpNotifOptionCode`, `raw.rs:121-125` -/
inductive OptCode where
  | segment | privateEncoding | unknown (v : UInt8)
  deriving DecidableEq, Repr

/-- `UdpNotifOption`, `raw.rs:139-143` -/
inductive Opt where
  | segment (number : UInt16) (last : Bool)
  | privateEncoding (value : Bytes)
  | unknown (typ : UInt8) (value : Bytes)
  deriving DecidableEq, Repr

/-- `UdpNotifOption::code`, `raw.rs:146-152` -/
def Opt.code : Opt → OptCode
  | .segment .. => .segment
  | .privateEncoding _ => .privateEncoding
  | .unknown t _ => .unknown t

/-- `UdpNotifPacket`, `raw.rs:158-165`; the options `HashMap` is its lookup function. -/
structure Packet where
  mediaType : MediaType
  publisherId : UInt32
  messageId : UInt32
  options : HMap OptCode Opt
  payload : Bytes

/-! ## Serializer -/

/-- `UdpNotifOption::len`, `wire/serialize.rs:33-43` -/
def Opt.len : Opt → Nat
  | .segment .. => 4
  | .privateEncoding v => 2 + v.length
  | .unknown _ v => 2 + v.length

/-- `UdpNotifOption::write`, `wire/serialize.rs:45-64`. `value.len() as u8 + 2` overflows (a panic in
builds with overflow checks) when the truncated length is above 253; the packet writer refuses such
options before it gets here, see `Packet.write`. -/
def Opt.write : Opt → Bytes
  | .segment n last => ([1, 4] : Bytes) ++ u16be ((n <<< 1) ||| (if last then 1 else 0))
  | .privateEncoding v => ([2, UInt8.ofNat v.length + 2] : Bytes) ++ v
  | .unknown t v => ([t, UInt8.ofNat v.length + 2] : Bytes) ++ v

/-- `UdpNotifPacketWritingError`, `wire/serialize.rs:68-80` -/
inductive WriteError where
  | invalidHeaderLength (n : Nat)
  | invalidMessageLength (n : Nat)
  deriving DecidableEq, Repr

/-- sum of the option lengths, in the iteration order `order` -/
def optsLen (order : List (OptCode × Opt)) : Nat := (order.map (·.2.len)).sum

/-- `UdpNotifPacket::len`, `wire/serialize.rs:87-95` -/
def Packet.len (p : Packet) (order : List (OptCode × Opt)) : Nat :=
  12 + optsLen order + p.payload.length

/-- first octet, `wire/serialize.rs:98-107` -/
def firstByte (m : MediaType) : UInt8 :=
  ((1 : UInt8) <<< 5) ||| (if m.isPrivate then 0x10 else 0) ||| m.toU8

/-- `UdpNotifPacket::write`, `wire/serialize.rs:97-134`. `order` is the iteration order of the options
`HashMap`. On error Rust has already written a few bytes to the writer; they are not modelled. -/
def Packet.write (p : Packet) (order : List (OptCode × Opt)) : Res WriteError Bytes :=
  let headerLen := 12 + optsLen order
  if headerLen > 255 then .err (.invalidHeaderLength headerLen)
  else
    let messageLen := headerLen + p.payload.length
    if messageLen > 65535 then .err (.invalidMessageLength messageLen)
    else .ok ([firstByte p.mediaType, UInt8.ofNat headerLen] ++ u16be (UInt16.ofNat messageLen)
      ++ u32be p.publisherId ++ u32be p.messageId ++ (order.map (·.2.write)).flatten ++ p.payload)

/-! ## Deserializer -/

/-- `UdpNotifOptionParsingError` and `UdpNotifPacketParsingError` (the variants still produced),
`wire/deserialize.rs:25-31, 63-90` -/
inductive ParseErr where
  | parse (e : ParseError)
  | optParse (e : ParseError)
  | optInvalidLength (l : UInt8)
  | invalidVersion (v : UInt8)
  | invalidHeaderLength (l : UInt8)
  deriving DecidableEq, Repr

/-- `UdpNotifOption::parse`, `wire/deserialize.rs:36-59` -/
def parseOpt : Parser ParseErr Opt := do
  let typ ← Parser.mapErr .optParse readU8
  let len ← Parser.mapErr .optParse readU8
  if len.toNat < 2 then Parser.fail (.optInvalidLength len)
  else
    let value ← Parser.mapErr .optParse (readBytes (len.toNat - 2))
    if typ = 1 then
      let hl ← Parser.onSub (Reader.new value) (do
        let high ← Parser.mapErr ParseErr.optParse readU8
        let low ← Parser.mapErr ParseErr.optParse readU8
        pure (high, low))
      let high := hl.1.1
      let low := hl.1.2
      pure (.segment ((high.toUInt16 <<< 7) ||| (low.toUInt16 >>> 1)) ((low &&& 1) != 0))
    else if typ = 2 then pure (.privateEncoding value)
    else pure (.unknown typ value)

/-- `UdpNotifHeader`, `wire/deserialize.rs:96-104` -/
structure Header where
  mediaType : MediaType
  publisherId : UInt32
  messageId : UInt32
  options : HMap OptCode Opt
  payloadLen : Nat

/-- `message_len` and `header_len` from the peeked first word, `wire/deserialize.rs:114-115` -/
def wordMessageLen (w : UInt32) : UInt16 := (w &&& 0x0000ffff).toUInt16
def wordHeaderLen (w : UInt32) : UInt8 := ((w &&& 0x00ff0000) >>> 16).toUInt8

/-- the option loop, `wire/deserialize.rs:152-156`: later options replace earlier ones with the same code -/
def optsMap (l : List Opt) : HMap OptCode Opt :=
  l.foldl (fun m o => HMap.insert m o.code o) HMap.empty

/-- `UdpNotifHeader::parse`, `wire/deserialize.rs:109-165` -/
def parseHeader : Parser ParseErr Header := do
  let rem ← Parser.getRemaining
  let off ← Parser.getOffset
  if rem < 12 then Parser.fail (.parse (.eof off 12 rem))
  else
    let w ← Parser.mapErr .parse peekU32
    let messageLen := wordMessageLen w
    let headerLen := wordHeaderLen w
    if headerLen.toNat > messageLen.toNat then Parser.fail (.invalidHeaderLength headerLen)
    else
      let payloadLen := messageLen.toNat - headerLen.toNat
      let first ← Parser.mapErr .parse readU8
      let version := (first >>> 5) &&& 7
      if version ≠ 1 then Parser.fail (.invalidVersion version)
      else
        let mt := MediaType.fromWire (first &&& 0x0f) ((first &&& 0x10) != 0)
        let hl ← Parser.mapErr .parse readU8
        if hl.toNat < 2 then Parser.fail (.invalidHeaderLength hl)
        else
          let rem ← Parser.getRemaining
          if rem < hl.toNat - 2 then Parser.fail (.invalidHeaderLength hl)
          else
            let hb ← Parser.mapErr .parse (takeSlice (hl.toNat - 2))
            let sub ← Parser.onSub hb (do
              let _ ← Parser.mapErr ParseErr.parse readU16
              let pub ← Parser.mapErr ParseErr.parse readU32
              let mid ← Parser.mapErr ParseErr.parse readU32
              let opts ← many parseOpt
              pure (pub, mid, opts))
            pure ⟨mt, sub.1.1, sub.1.2.1, optsMap sub.1.2.2, payloadLen⟩

/-- `UdpNotifPacket::from_bytes`, `wire/deserialize.rs:192-208`: `Bytes::slice` panics when the range
exceeds the buffer. -/
def fromBytes (buf : Bytes) : Res ParseErr Packet :=
  match parseHeader (Reader.new buf) with
  | (.ok h, r) =>
    if r.offset + h.payloadLen ≤ buf.length then
      .ok ⟨h.mediaType, h.publisherId, h.messageId, h.options,
        (buf.drop r.offset).take h.payloadLen⟩
    else .fault .panic
  | (.err e, _) => .err e
  | (.fault f, _) => .fault f

/-- `ParseFrom for UdpNotifPacket`, `wire/deserialize.rs:171-184` (the borrowing path). -/
def parsePacket : Parser ParseErr Packet := do
  let h ← parseHeader
  let payload ← Parser.mapErr .parse (readBytes h.payloadLen)
  pure ⟨h.mediaType, h.publisherId, h.messageId, h.options, payload⟩

/-! ## Reassembly -/

/-- `ReassemblyBufferError`, `codec.rs:29-67` (the ids are those of the packet, dropped here). -/
inductive ReassemblyError where
  | lastSegmentIsNotReceived
  | incompleteSegments
  | missingSegment (segNo : Nat)
  deriving DecidableEq, Repr

/-- `ReassemblyBuffer`, `codec.rs:72-77`; `Instant` is a natural number. -/
structure RBuf where
  timestamp : Nat
  hasLast : Bool
  expectedCount : Nat
  segments : BMap Packet

/-- `Default for ReassemblyBuffer`, `codec.rs:154-163` -/
def RBuf.new (now : Nat) : RBuf := ⟨now, false, 1, []⟩

/-- `is_timed_out`, `codec.rs:80-82` -/
def RBuf.isTimedOut (b : RBuf) (now timeout : Nat) : Bool := decide (now - b.timestamp > timeout)

/-- `add_segment`, `codec.rs:84-90`; `segment_number + 1` overflows `u16` for 65535. -/
def RBuf.addSegment (b : RBuf) (n : UInt16) (p : Packet) (last : Bool) : Res Empty RBuf :=
  if last then
    if n.toNat + 1 > 65535 then .fault .panic
    else .ok { b with expectedCount := n.toNat + 1, hasLast := true,
                      segments := BMap.insert n.toNat p b.segments }
  else .ok { b with segments := BMap.insert n.toNat p b.segments }

/-- `ready_to_reassemble`, `codec.rs:93-95` -/
def RBuf.ready (b : RBuf) : Bool := b.hasLast && b.segments.length == b.expectedCount

/-- the check loop `codec.rs:121-132`: the first key that is not its own index -/
def firstGap : Nat → BMap Packet → Option Nat
  | _, [] => none
  | i, (k, _) :: rest => if i ≠ k then some k else firstGap (i + 1) rest

/-- one iteration of the options loop of `reassemble`, `codec.rs:135-143`: the options of `p` replace those
of earlier segments, the segmentation option is skipped; the iteration order inside one segment does not
matter (keys are distinct) -/
def mergeStep (m : HMap OptCode Opt) (p : Packet) : HMap OptCode Opt := fun k =>
  if k = OptCode.segment then m k
  else match p.options k with
    | some o => some o
    | none => m k

/-- the options loop of `reassemble`, `codec.rs:135-143` -/
def mergeOpts (rest : List Packet) : HMap OptCode Opt := rest.foldl mergeStep HMap.empty

/-- `reassemble`, `codec.rs:97-151` -/
def RBuf.reassemble (b : RBuf) : Res ReassemblyError Packet :=
  if !b.hasLast then .err .lastSegmentIsNotReceived
  else if b.expectedCount ≠ b.segments.length then .err .incompleteSegments
  else match firstGap 0 b.segments with
    | some k => .err (.missingSegment k)
    | none =>
      match b.segments with
      | [] => .fault .panic
      | (_, first) :: rest =>
        .ok ⟨first.mediaType, first.publisherId, first.messageId, mergeOpts (rest.map Prod.snd),
          first.payload ++ (rest.map (·.2.payload)).flatten⟩

/-- `UdpPacketCodecError`, `codec.rs:166-184` -/
inductive CodecError where
  | invalidHeaderLength (l : UInt8)
  | invalidMessageLength (l : UInt16)
  | packet (e : ParseErr)
  | reassembly (e : ReassemblyError)
  deriving DecidableEq, Repr

abbrev Key := UInt32 × UInt32

/-- `UdpPacketCodec`, `codec.rs:213-216` -/
structure Codec where
  inMessage : Bool
  incomplete : HMap Key RBuf

def Codec.new : Codec := ⟨false, HMap.empty⟩

/-- `cleanup_timed_out_messages`, `codec.rs:219-222` -/
def Codec.cleanup (c : Codec) (now timeout : Nat) : Codec :=
  { c with incomplete := fun k => match c.incomplete k with
      | some b => if b.isTimedOut now timeout then none else some b
      | none => none }

/-- `check_len`, `codec.rs:230-255`. `buf[1]` and `&buf[2..4]` panic when out of bounds. -/
def checkLen (c : Codec) (buf : Bytes) : Res CodecError (Option (UInt8 × UInt16)) × Codec :=
  if !c.inMessage && decide (buf.length < 12) then (.ok none, c)
  else match buf[1]? with
    | none => (.fault .panic, c)
    | some headerLen =>
      if headerLen.toNat < 12 then (.err (.invalidHeaderLength headerLen), c)
      else if buf.length < headerLen.toNat then (.ok none, { c with inMessage := true })
      else if buf.length < 4 then (.fault .panic, c)
      else
        let messageLength := u16of ((buf.drop 2).take 2)
        if messageLength.toNat < headerLen.toNat then
          (.err (.invalidMessageLength messageLength), c)
        else if buf.length < messageLength.toNat then (.ok none, { c with inMessage := true })
        else (.ok (some (headerLen, messageLength)), c)

/-- `extract_segment_info`, `codec.rs:266-277`; `unreachable!()` is a panic. -/
def extractSegmentInfo (o : HMap OptCode Opt) : Res CodecError (UInt16 × Bool) :=
  match o .segment with
  | some (.segment n l) => .ok (n, l)
  | some _ => .fault .panic
  | none => .ok (0, true)

/-- `self.incomplete_messages.entry(key).or_default()`, `codec.rs:295` -/
def Codec.entry (c : Codec) (key : Key) (now : Nat) : RBuf :=
  match c.incomplete key with
  | some b => b
  | none => RBuf.new now

/-- `try_reassemble_segments`, `codec.rs:280-307` -/
def tryReassemble (c : Codec) (now : Nat) (p : Packet) : Res CodecError (Option Packet) × Codec :=
  match extractSegmentInfo p.options with
  | .fault f => (.fault f, c)
  | .err e => (.err e, c)
  | .ok (seg, last) =>
    if seg = 0 ∧ last = true then (.ok (some p), c)
    else
      let key : Key := (p.publisherId, p.messageId)
      match (c.entry key now).addSegment seg p last with
      | .fault f => (.fault f, c)
      | .err e => nomatch e
      | .ok b =>
        if b.ready then
          let c' := { c with incomplete := c.incomplete.erase key }
          match b.reassemble with
          | .ok p' => (.ok (some p'), c')
          | .err e => (.err (.reassembly e), c')
          | .fault f => (.fault f, c')
        else (.ok none, { c with incomplete := c.incomplete.insert key b })

/-- `Decoder for UdpPacketCodec::decode`, `codec.rs:315-343`; the third component is what is left in the
buffer. -/
def decode (c : Codec) (now : Nat) (buf : Bytes) : Res CodecError (Option Packet) × Codec × Bytes :=
  match checkLen c buf with
  | (.ok none, c') => (.ok none, c', buf)
  | (.err e, c') => (.err e, c', buf)
  | (.fault f, c') => (.fault f, c', buf)
  | (.ok (some (_, msgLen)), c') =>
    if buf.length ≠ msgLen.toNat then
      (.err (.invalidMessageLength msgLen), { c' with inMessage := false }, [])
    else match fromBytes buf with
      | .ok p =>
        let (r, c'') := tryReassemble { c' with inMessage := false } now p
        (r, c'', [])
      | .err e => (.err (.packet e), { c' with inMessage := false }, [])
      | .fault f => (.fault f, c', [])

/-- One datagram handed to the collector actor, `crates/udp-notif-service/src/actor.rs:276-357`
`decode_pkt` restricted to one source address: the per-source codec is kept, the buffer is fresh and what
is left of it is dropped; errors are logged and dropped. -/
def actorStep (c : Codec) (now : Nat) (datagram : Bytes) : Res Empty (Option Packet) × Codec :=
  match decode c now datagram with
  | (.ok o, c', _) => (.ok o, c')
  | (.err _, c', _) => (.ok none, c')
  | (.fault f, c', _) => (.fault f, c')

end Verif.UdpNotif
