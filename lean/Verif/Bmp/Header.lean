import Verif.Core.HMap
import Verif.Core.Write
import Verif.Bgp.CodecLemmas
/-!
# BMP: the per-peer header and the contexts kept per peer

Paths are under `crates/bmp-pkt/src`. Abbreviations: `L` is `lib.rs`, `D` is `wire/deserializer`, `S` is
`wire/serializer`.

The constructors `Experimental251` to `Experimental254` (and `65531` to `65534`) of the Rust types are one constructor
with an index below four here. Capacity hints (`count_tlvs_t16_l16`, `Vec::with_capacity`) are left out.
-/
namespace Verif.Bmp
open Verif Bgp Parser

/-- the code of `Experimental251` .. `Experimental254`, `iana.rs:94-100, 140-146, 328-334` -/
def exp8 (n : Fin 4) : UInt8 := 251 + UInt8.ofNat n.val
/-- `from_repr` for these codes -/
def ofExp8 (c : UInt8) : Option (Fin 4) :=
  if c = 251 then some 0 else if c = 252 then some 1 else if c = 253 then some 2 else if c = 254 then some 3 else none
/-- the code of `Experimental65531` .. `Experimental65534`, `iana.rs:188-194, 230-236, 278-284, 370-376, 412-418, 579-585` -/
def exp16 (n : Fin 4) : UInt16 := 65531 + UInt16.ofNat n.val
/-- `from_repr` for these codes -/
def ofExp16 (c : UInt16) : Option (Fin 4) :=
  if c = 65531 then some 0 else if c = 65532 then some 1 else if c = 65533 then some 2
  else if c = 65534 then some 3 else none

/-! ## Peer type -/

/-- the three kinds of peers that are BGP sessions -/
inductive Instance where
  | global | rd | local
  deriving DecidableEq, Repr

/-- `BmpPeerType`, `L:198-232` -/
inductive PeerType where
  | session (k : Instance) (ipv6 postPolicy asn2 adjRibOut : Bool)
  | locRib (filtered : Bool)
  | experimental (n : Fin 4) (flags : UInt8)
  deriving DecidableEq, Repr

/-- `BmpPeerTypeCode`, `iana.rs:131-147`, which is also what `std::mem::discriminant` of a `BmpPeerType` tells apart -/
inductive PeerKind where
  | session (k : Instance)
  | locRib
  | experimental (n : Fin 4)
  deriving DecidableEq, Repr

/-- `BmpPeerType::get_type`, `L:235-247` -/
def PeerType.kind : PeerType → PeerKind
  | session k .. => .session k
  | locRib _ => .locRib
  | experimental n _ => .experimental n

/-- `iana.rs:131-147` -/
def PeerKind.code : PeerKind → UInt8
  | session .global => 0 | session .rd => 1 | session .local => 2 | locRib => 3 | experimental n => exp8 n

/-- `BmpPeerTypeCode::try_from` -/
def PeerKind.ofCode (c : UInt8) : Option PeerKind :=
  if c = 0 then some (.session .global) else if c = 1 then some (.session .rd) else if c = 2 then some (.session .local)
  else if c = 3 then some .locRib else (ofExp8 c).map .experimental

/-- `BmpPeerTypeParsingError`, `D/v3.rs:297-304` -/
inductive PeerTypeErr where
  | parse (e : ParseError)
  | undefined (offset : Nat) (code : UInt8)
  deriving DecidableEq, Repr

/-- the flags as read, `D/v3.rs:320-349`, with the constants of `iana.rs:22-33` -/
def PeerType.make (k : PeerKind) (f : UInt8) : PeerType :=
  match k with
  | .session k => .session k (f &&& 0x80 == 0x80) (f &&& 0x40 == 0x40) (f &&& 0x20 == 0x20) (f &&& 0x10 == 0x10)
  | .locRib => .locRib (f &&& 0x80 == 0x80)
  | .experimental n => .experimental n f

/-- `BmpPeerType::parse`, `D/v3.rs:306-352` -/
def parsePeerType : Parser PeerTypeErr PeerType := do
  let c ← mapErr .parse readU8
  let o ← getOffset
  let k ← ofOption (.undefined (o - 1) c) (PeerKind.ofCode c)
  let f ← mapErr .parse readU8
  pure (PeerType.make k f)

/-- `get_flags_value`, `S/v3.rs:132-196` -/
def PeerType.flags : PeerType → UInt8
  | session _ v l a o =>
    (if v then 0x80 else 0) ||| (if l then 0x40 else 0) ||| (if a then 0x20 else 0) ||| (if o then 0x10 else 0)
  | locRib f => if f then 0x80 else 0
  | experimental _ f => f

/-- `BmpPeerType::write`, `S/v3.rs:206-210` -/
def PeerType.write (t : PeerType) : Bytes := [t.kind.code, t.flags]

/-- `check_is_ipv6`, `D/v3.rs:451-462`; it never fails -/
def PeerType.ipv6 : PeerType → Bool
  | session _ v .. => v
  | _ => true

/-- `PeerHeader::is_asn4`, `L:158-169` -/
def PeerType.asn4 : PeerType → Bool
  | session _ _ _ a _ => !a
  | _ => true

/-- whether the routes are those the router sends to the peer: `codec.rs:168-173, 213-218`, `D/v4.rs:185-190` -/
def PeerType.adjRibOut : PeerType → Bool
  | session _ _ _ _ o => o
  | _ => false

/-! ## Peer header -/

/-- `chrono::DateTime<Utc>`: seconds since 1970 and nanoseconds; a leap second is second 59 with more than `10^9`
nanoseconds -/
structure Time where
  secs : Int
  nanos : Nat
  deriving DecidableEq, Repr

/-- `Utc.timestamp_opt(secs, nanos)` of chrono 0.4.45 for seconds that fit in 32 bits (the date is always in range) -/
def Time.make (secs nanos : Nat) : Option Time :=
  if nanos < 1000000000 ∨ (nanos < 2000000000 ∧ secs % 60 = 59) then some ⟨secs, nanos⟩ else none

/-- `u32::saturating_mul(1_000)` -/
def satMul1000 (m : UInt32) : Nat := min (m.toNat * 1000) 4294967295

/-- `PeerHeader`, `L:104-113` -/
structure PeerHeader where
  type : PeerType
  rd : Option Rd
  address : Option IpAddr
  peerAs : UInt32
  bgpId : UInt32
  time : Option Time
  deriving DecidableEq, Repr

/-- `PeerHeaderParsingError`, `D/v3.rs:354-373` -/
inductive HeaderErr where
  | parse (e : ParseError)
  | type (e : PeerTypeErr)
  | rd (e : NlriError)
  | time (offset : Nat) (secs micros : UInt32)
  deriving DecidableEq, Repr

/-- an address field of 16 octets, `D/v3.rs:383-389` and `481-488` -/
def addressOf (ipv6 : Bool) (a : BitVec 128) : Option IpAddr :=
  if a = 0 then none else if ipv6 then some (.v6 a) else some (.v4 (UInt32.ofNat a.toNat))

/-- the time fields, `D/v3.rs:395-410` -/
def parseTime (offset : Nat) (secs micros : UInt32) : Parser HeaderErr (Option Time) :=
  if secs ≠ 0 ∨ micros ≠ 0 then some <$> ofOption (.time (offset - 8) secs micros) (Time.make secs.toNat (satMul1000 micros))
  else pure none

/-- `RouteDistinguisher::As2Administrator { asn2: 0, number: 0 }`, `D/v3.rs:380` -/
def zeroRd : Rd := .as2 0 0

/-- `PeerHeader::parse`, `D/v3.rs:375-414` -/
def parseHeader : Parser HeaderErr PeerHeader := do
  let t ← mapErr .type parsePeerType
  let rd ← mapErr .rd parseRd
  let a ← mapErr .parse readU128
  let peerAs ← mapErr .parse readU32
  let id ← mapErr .parse readU32
  let secs ← mapErr .parse readU32
  let micros ← mapErr .parse readU32
  let o ← getOffset
  let time ← parseTime o secs micros
  pure ⟨t, if rd = zeroRd then none else some rd, addressOf t.ipv6 a, peerAs, id, time⟩

/-- the address fields, `S/v3.rs:246-256` and `473-483` -/
def addressBytes : Option IpAddr → Bytes
  | some (.v4 a) => u64be 0 ++ (u32be 0 ++ u32be a)
  | some (.v6 a) => u128be a
  | none => u128be 0

/-- `time.timestamp() as u32` -/
def Time.secs32 (t : Time) : UInt32 := UInt32.ofNat (t.secs % 4294967296).toNat
/-- `time.timestamp_subsec_micros()` -/
def Time.micros (t : Time) : UInt32 := UInt32.ofNat (t.nanos / 1000)

/-- `S/v3.rs:259-265` -/
def timeBytes : Option Time → Bytes
  | some t => u32be t.secs32 ++ u32be t.micros
  | none => u64be 0

/-- `PeerHeader::write`, `S/v3.rs:240-267` -/
def PeerHeader.write (h : PeerHeader) : Bytes :=
  h.type.write ++ ((match h.rd with | some r => r.write | none => u64be 0) ++ (addressBytes h.address ++
    (u32be h.peerAs ++ (u32be h.bgpId ++ timeBytes h.time))))
/-- `PeerHeader::len`, `S/v3.rs:234-238` -/
def PeerHeader.len (_ : PeerHeader) : Nat := 42

/-! ## Contexts -/

/-- `PeerKey`, `L:321-329`; its `Eq` and `Hash` (`L:331-350`) look at the kind of the peer type and not at the flags, so
the key has just the kind -/
structure PeerKey where
  address : Option IpAddr
  kind : PeerKind
  rd : Option Rd
  peerAs : UInt32
  bgpId : UInt32
  deriving DecidableEq, Repr

/-- `PeerKey::from_peer_header`, `L:369-377` -/
def PeerHeader.key (h : PeerHeader) : PeerKey := ⟨h.address, h.type.kind, h.rd, h.peerAs, h.bgpId⟩

/-- a `BgpParsingContext` with its list of ignored errors -/
structure PeerCtx where
  ctx : MsgCtx
  ignored : Ignored

/-- `BgpParsingContext::default()` -/
def PeerCtx.default : PeerCtx := ⟨defaultCtx, .none⟩

/-- `BmpParsingContext`, `D/mod.rs:89-90` -/
abbrev Peers := HMap PeerKey PeerCtx

/-- the entry of a peer, or a fresh one -/
def Peers.at (g : Peers) (k : PeerKey) : PeerCtx := (g k).getD .default

section
variable {ε α : Type}

/-- `let bgp_ctx = ctx.entry(peer_key).or_default()` and what is done with `bgp_ctx` afterwards -/
def atPeer (k : PeerKey) (p : CParser PeerCtx ε α) : CParser Peers ε α := fun s =>
  let x := p (s.1, s.2.at k)
  (x.1, (x.2.1, s.2.insert k x.2.2))

/-- `BgpMessage::parse(cur, bgp_ctx)` -/
def bgpMsg : CParser PeerCtx MsgErr Msg := fun s =>
  let x := parseMsg s.2.ctx (s.1, s.2.ignored)
  (x.1, (x.2.1, { s.2 with ignored := x.2.2 }))

/-- `bgp_ctx.set_asn4(..)` -/
def setAsn4 (b : Bool) : CParser PeerCtx ε Unit := CParser.modify fun c => { c with ctx := c.ctx.setAsn4 b }
end

/-- `HashMap::insert` on the ADD-PATH map of a context -/
def AttrCtx.insertAp (c : AttrCtx) (t : AddressType) (b : Bool) : AttrCtx :=
  { c with addPath := fun t' => if t' = t then some b else c.addPath t' }
/-- `HashMap::insert` on the label map of a context -/
def AttrCtx.insertLabel (c : AttrCtx) (t : AddressType) (n : UInt8) : AttrCtx :=
  { c with labels := fun t' => if t' = t then some n else c.labels t' }

/-- `update_capabilities`, `crates/bgp-pkt/src/wire/deserializer/mod.rs:156-179` -/
def AttrCtx.update (c : AttrCtx) (out : Bool) : Cap → AttrCtx
  | .addPath l => l.foldl (fun c f => AttrCtx.insertAp c f.family (if out then f.send else f.receive)) c
  | .multipleLabels l => l.foldl (fun c f => AttrCtx.insertLabel c f.family f.count) c
  | _ => c

end Verif.Bmp
