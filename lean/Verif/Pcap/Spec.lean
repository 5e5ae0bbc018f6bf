import Verif.Pcap.Decoder
/-!
# What is said about captures: their frames, and the octets of frames
-/
namespace Verif.Pcap
open Verif

/-! ## A capture as a list of events -/

/-- the link type that an event announces -/
def Event.link? : Event → Option Nat
  | .legacyHeader l => some l
  | .interface l => some l
  | _ => none

/-- an event that is a frame: the index of its link type, its octets and how many were captured -/
def Event.frame? : Event → Option (Nat × Bytes × Nat)
  | .legacy d c => some (0, d, c)
  | .enhanced i d c => some (i, d, c)
  | _ => none

/-- the link types announced in a capture -/
def linksIn (es : List Event) : List Nat := es.filterMap Event.link?

/-- the number of frames in a capture -/
def framesIn (es : List Event) : Nat := es.countP fun e => e.frame?.isSome

/-- what is made of the event at a place of a capture: nothing if it is no frame; a panic if it is a frame of no known link type, or of a kind for
which reading panics -/
def outcomeAt (lib : Lib) (es : List Event) (k : Nat) : Res Empty (Option Item) :=
  match es[k]? with
  | none => .ok none
  | some .simple | some .failed => .fault .panic
  | some e =>
    match e.frame? with
    | none => .ok none
    | some (i, d, c) =>
      match (linksIn (es.take k))[i]? with
      | none => .fault .panic
      | some l => parsePacket lib (lib.link l d c)

/-- the packet of the event at a place, with the number of the frame, counted from one -/
def foundAt (lib : Lib) (es : List Event) (k : Nat) : Option (Nat × Item) :=
  match outcomeAt lib es k with
  | .ok (some i) => some (framesIn (es.take (k + 1)), i)
  | _ => none

/-- calling `next` until there is nothing more or it panics: the items with `frame_counter` after each, and whether the end was reached -/
def readAll (lib : Lib) (it : Iter) : List (Nat × Item) × Bool :=
  match hn : it.next lib with
  | (.ok none, _) => ([], true)
  | (.ok (some i), it') =>
    let r := readAll lib it'
    ((it'.frames, i) :: r.1, r.2)
  | (_, _) => ([], false)
  termination_by it.events.length
  decreasing_by exact nextFrom_lt hn

/-! ## Octets on the wire -/

/-- an EtherType and octets with VLAN tags before them: a tag is its EtherType and two octets of control information -/
def tagged : List (UInt16 × UInt16) → UInt16 → Bytes → UInt16 × Bytes
  | [], t, b => (t, b)
  | (tpid, tci) :: ts, t, b => (tpid, u16be tci ++ (u16be (tagged ts t b).1 ++ (tagged ts t b).2))

/-- the EtherTypes of VLAN tags -/
def IsTag (t : UInt16) : Prop := t = 0x8100 ∨ t = 0x88A8 ∨ t = 0x9100

/-- the fields of an IPv4 header that do not matter here -/
structure Misc4 where
  tos : UInt8
  id : UInt16
  dontFragment : Bool
  ttl : UInt8
  checksum : UInt16

/-- an IPv4 packet without options that is not a fragment, with octets behind it that fill the frame -/
def ipv4Packet (m : Misc4) (src dst : UInt32) (proto : UInt8) (body pad : Bytes) : Bytes :=
  [0x45, m.tos] ++ (u16be (UInt16.ofNat (20 + body.length)) ++ (u16be m.id ++ (u16be (if m.dontFragment then 0x4000 else 0) ++
    ([m.ttl, proto] ++ (u16be m.checksum ++ (u32be src ++ (u32be dst ++ (body ++ pad))))))))

/-- an IPv6 packet without extension headers -/
def ipv6Packet (label : UInt32) (hops : UInt8) (src dst : BitVec 128) (next : UInt8) (body pad : Bytes) : Bytes :=
  u32be (0x60000000 ||| (label &&& 0x0fffffff)) ++ (u16be (UInt16.ofNat body.length) ++ ([next, hops] ++ (u128be src ++ (u128be dst ++ (body ++ pad)))))

/-- a UDP datagram -/
def udpPacket (sp dp checksum : UInt16) (payload : Bytes) : Bytes :=
  u16be sp ++ (u16be dp ++ (u16be (UInt16.ofNat (8 + payload.length)) ++ (u16be checksum ++ payload)))

/-- the fields of a TCP header that do not matter here, and the words of its options -/
structure MiscTcp where
  seq : UInt32
  ack : UInt32
  flags : UInt8
  window : UInt16
  checksum : UInt16
  urgent : UInt16
  options : List UInt32

/-- a TCP segment; the length of the header is counted in words of four octets -/
def tcpPacket (m : MiscTcp) (sp dp : UInt16) (payload : Bytes) : Bytes :=
  u16be sp ++ (u16be dp ++ (u32be m.seq ++ (u32be m.ack ++ ([UInt8.ofNat ((5 + m.options.length) * 16), m.flags] ++ (u16be m.window ++ (u16be m.checksum ++
    (u16be m.urgent ++ ((m.options.map u32be).flatten ++ payload))))))))

/-- what `pdu` makes of what is behind an Ethernet header -/
def ethInner (lib : Lib) (t : UInt16) (b : Bytes) : EthInner :=
  if t = 0x0800 then
    match lib.ipv4 b with
    | none => .err
    | some p => .ipv4 p
  else if t = 0x86DD then
    match lib.ipv6 b with
    | none => .err
    | some p => .ipv6 p
  else .raw b

/-- What is supposed of the libraries, for well-formed frames: an Ethernet frame and a Linux cooked capture give their EtherType and what follows, one
802.1Q tag of Ethernet is taken off; an IP packet gives its addresses, the ports, the length of UDP, and as payload all octets behind the header of TCP or
UDP, up to the end of the frame. -/
structure Lib.Faithful (lib : Lib) : Prop where
  ether : ∀ d, lib.link 1 d d.length = some (.l2 d)
  cooked : ∀ (h : Bytes) t b, h.length = 14 → lib.link 113 (h ++ (u16be t ++ b)) (h ++ (u16be t ++ b)).length = some (.l3 t b)
  plain : ∀ (h : Bytes) t b, h.length = 12 → 0x600 ≤ t.toNat → t ≠ 0x8100 → t ≠ 0x0806 → lib.ethernet (h ++ (u16be t ++ b)) = some ⟨t, ethInner lib t b⟩
  tag : ∀ (h : Bytes) tci t b, h.length = 12 → 0x600 ≤ t.toNat → t ≠ 0x0806 →
    lib.ethernet (h ++ (u16be 0x8100 ++ (u16be tci ++ (u16be t ++ b)))) = some ⟨t, ethInner lib t b⟩
  udp4 : ∀ m src dst sp dp ck (p pad : Bytes), 28 + p.length < 65536 →
    lib.ipv4 (ipv4Packet m src dst 17 (udpPacket sp dp ck p) pad) = some ⟨.v4 src, .v4 dst, .udp sp dp (UInt16.ofNat (8 + p.length)) (some (p ++ pad))⟩
  tcp4 : ∀ m src dst x sp dp (p pad : Bytes), x.options.length ≤ 10 → 20 + (tcpPacket x sp dp p).length < 65536 →
    lib.ipv4 (ipv4Packet m src dst 6 (tcpPacket x sp dp p) pad) = some ⟨.v4 src, .v4 dst, .tcp sp dp (some (p ++ pad))⟩
  udp6 : ∀ label hops src dst sp dp ck (p pad : Bytes), 8 + p.length < 65536 →
    lib.ipv6 (ipv6Packet label hops src dst 17 (udpPacket sp dp ck p) pad) = some ⟨.v6 src, .v6 dst, .udp sp dp (UInt16.ofNat (8 + p.length)) (some (p ++ pad))⟩
  tcp6 : ∀ label hops src dst x sp dp (p pad : Bytes), x.options.length ≤ 10 → (tcpPacket x sp dp p).length < 65536 →
    lib.ipv6 (ipv6Packet label hops src dst 6 (tcpPacket x sp dp p) pad) = some ⟨.v6 src, .v6 dst, .tcp sp dp (some (p ++ pad))⟩
  gre4 : ∀ m src dst (b : Bytes), 20 + b.length < 65536 → 4 ≤ b.length → b.take 2 = [0, 0] →
    lib.ipv4 (ipv4Packet m src dst 47 b []) = some ⟨.v4 src, .v4 dst, .gre⟩

end Verif.Pcap
