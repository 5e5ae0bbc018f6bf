import Verif.Core.Prefix
/-!
# Reading captures

`P` stands for `crates/pcap-reader/src/lib.rs`. The crates `pcap-parser` (blocks of a capture, link types) and `pdu` (headers of Ethernet, IP, TCP and
UDP) are not modelled: what they answer is a parameter (`Lib`, `Event`). The lifetime of borrowed octets is left out.
-/
namespace Verif.Pcap
open Verif

/-- `TransportProtocol`, `P:62-66` -/
inductive Transport where
  | tcp | udp
  deriving DecidableEq, Repr

/-- the source, the destination and their ports, in the order in which they are handed on -/
structure Flow where
  src : IpAddr
  sport : UInt16
  dst : IpAddr
  dport : UInt16
  deriving DecidableEq, Repr

/-- `PcapIter::Item`, `P:142` -/
structure Item where
  flow : Flow
  proto : Transport
  payload : Bytes
  deriving DecidableEq, Repr

/-! ## What the libraries answer -/

/-- `Ipv4` and `Ipv6` of `pdu`, and `Err`: what is behind an IP header. The payload is what `inner` of TCP and UDP gives; `none` is its `Err`. -/
inductive Upper where
  | err | raw | icmp | gre | esp
  | tcp (sport dport : UInt16) (payload : Option Bytes)
  | udp (sport dport length : UInt16) (payload : Option Bytes)
  deriving DecidableEq, Repr

/-- `Ipv4Pdu`, `Ipv6Pdu` -/
structure IpPdu where
  src : IpAddr
  dst : IpAddr
  inner : Upper
  deriving DecidableEq, Repr

/-- `Ethernet`, or the `Err` of `into_inner` -/
inductive EthInner where
  | err | arp
  | ipv4 (p : IpPdu)
  | ipv6 (p : IpPdu)
  | raw (payload : Bytes)
  deriving DecidableEq, Repr

/-- `EthernetPdu` -/
structure EthPdu where
  etherType : UInt16
  inner : EthInner
  deriving DecidableEq, Repr

/-- `PacketData` of `pcap-parser` -/
inductive PacketData where
  | l2 (data : Bytes)
  | l3 (etherType : UInt16) (data : Bytes)
  | l4 | unsupported
  deriving DecidableEq, Repr

/-- the functions of the libraries: `data::get_packetdata` of a link type, `EthernetPdu::new`, `Ipv4Pdu::new` and `Ipv6Pdu::new` with `inner` -/
structure Lib where
  link : Nat → Bytes → Nat → Option PacketData
  ethernet : Bytes → Option EthPdu
  ipv4 : Bytes → Option IpPdu
  ipv6 : Bytes → Option IpPdu

/-! ## One frame -/

/-- `is_vlan`, `P:81-83` -/
def isVlan (t : UInt16) : Bool := t == 0x8100 || t == 0x88A8 || t == 0x9100

/-- the loop of `strip_vlan_tags`, `P:106-115`, with the number of rounds left -/
def stripFrom : Nat → UInt16 → Bytes → Option (UInt16 × Bytes)
  | 0, _, _ => none
  | n + 1, t, b =>
    if !isVlan t then some (t, b)
    else if b.length < 4 then none
    else stripFrom n (u16of ((b.drop 2).take 2)) (b.drop 4)

/-- `strip_vlan_tags`, `P:105-117`; `MAX_VLAN_TAGS` is 4 (`P:95`) and the range includes its end -/
def stripVlan (t : UInt16) (b : Bytes) : Option (UInt16 × Bytes) := stripFrom 5 t b

/-- `parse_ipv4`, `P:279-331`. `udp.length() as usize - 8` panics when there is less (with overflow checks; without them the assertion that follows
does); GRE and ESP are `unimplemented!`. -/
def parseIpv4 (p : IpPdu) : Res Empty (Option Item) :=
  match p.inner with
  | .err | .raw | .icmp => .ok none
  | .tcp sp dp payload => .ok (payload.map fun b => ⟨⟨p.src, sp, p.dst, dp⟩, .tcp, b⟩)
  | .udp sp dp len payload =>
    if len.toNat < 8 then .fault .panic
    else match payload with
      | none => .ok none
      | some b =>
        if len.toNat - 8 ≤ b.length then .ok (some ⟨⟨p.src, sp, p.dst, dp⟩, .udp, b.take (len.toNat - 8)⟩)
        else .fault .panic
  | .gre | .esp => .fault .panic

/-- `parse_ipv6`, `P:333-376` -/
def parseIpv6 (p : IpPdu) : Res Empty (Option Item) :=
  match p.inner with
  | .err | .raw | .icmp => .ok none
  | .tcp sp dp payload => .ok (payload.map fun b => ⟨⟨p.src, sp, p.dst, dp⟩, .tcp, b⟩)
  | .udp sp dp _ payload => .ok (payload.map fun b => ⟨⟨p.src, sp, p.dst, dp⟩, .udp, b⟩)
  | .gre | .esp => .fault .panic

/-- `parse_l3`, `P:245-254` -/
def parseL3 (lib : Lib) (t : UInt16) (b : Bytes) : Res Empty (Option Item) :=
  if t = 0x0800 then
    match lib.ipv4 b with
    | none => .ok none
    | some p => parseIpv4 p
  else if t = 0x86DD then
    match lib.ipv6 b with
    | none => .ok none
    | some p => parseIpv6 p
  else .ok none

/-- `parse_ethernet`, `P:256-277` -/
def parseEthernet (lib : Lib) (b : Bytes) : Res Empty (Option Item) :=
  match lib.ethernet b with
  | none => .ok none
  | some e =>
    match e.inner with
    | .err | .arp => .ok none
    | .ipv4 p => parseIpv4 p
    | .ipv6 p => parseIpv6 p
    | .raw payload =>
      match stripVlan e.etherType payload with
      | none => .ok none
      | some (t, b) => parseL3 lib t b

/-- `parse_packet`, `P:222-240` -/
def parsePacket (lib : Lib) : Option PacketData → Res Empty (Option Item)
  | none => .ok none
  | some (.l2 b) => parseEthernet lib b
  | some (.l3 t b) =>
    match stripVlan t b with
    | none => .ok none
    | some (t, b) => parseL3 lib t b
  | some .l4 | some .unsupported => .ok none

/-! ## The iterator -/

/-- what a call of `next` of the reader returns. Blocks: the header and the packets of a legacy capture; the sections, interfaces, packets and other
blocks of a capture of the next generation. `incomplete` is followed by a successful `refill`; `failed` stands for the errors for which the code is
`todo!` and for a `refill` that fails. -/
inductive Event where
  | legacyHeader (link : Nat)
  | legacy (data : Bytes) (caplen : Nat)
  | section
  | interface (link : Nat)
  | enhanced (ifId : Nat) (data : Bytes) (caplen : Nat)
  | simple
  | other
  | incomplete
  | failed
  deriving DecidableEq, Repr

/-- `PcapIter`, `P:120-124`: what the reader will return, until the end of the capture; the link types; the number of frames -/
structure Iter where
  events : List Event
  links : List Nat
  frames : Nat
  deriving DecidableEq, Repr

/-- `PcapIter::new`, `P:127-133` -/
def Iter.new (es : List Event) : Iter := ⟨es, [], 0⟩

/-- `Iterator::next`, `P:144-218`, by what the reader returns. The link type of a frame is looked up by index, which panics when there is none. -/
def nextFrom (lib : Lib) : List Event → List Nat → Nat → Res Empty (Option Item) × Iter
  | [], ls, n => (.ok none, ⟨[], ls, n⟩)
  | .legacyHeader l :: es, ls, n => nextFrom lib es (ls ++ [l]) n
  | .interface l :: es, ls, n => nextFrom lib es (ls ++ [l]) n
  | .legacy data caplen :: es, ls, n =>
    match ls[0]? with
    | none => (.fault .panic, ⟨es, ls, n + 1⟩)
    | some l =>
      match parsePacket lib (lib.link l data caplen) with
      | .ok (some i) => (.ok (some i), ⟨es, ls, n + 1⟩)
      | .ok none => nextFrom lib es ls (n + 1)
      | .err e => (.err e, ⟨es, ls, n + 1⟩)
      | .fault f => (.fault f, ⟨es, ls, n + 1⟩)
  | .enhanced i data caplen :: es, ls, n =>
    match ls[i]? with
    | none => (.fault .panic, ⟨es, ls, n + 1⟩)
    | some l =>
      match parsePacket lib (lib.link l data caplen) with
      | .ok (some i) => (.ok (some i), ⟨es, ls, n + 1⟩)
      | .ok none => nextFrom lib es ls (n + 1)
      | .err e => (.err e, ⟨es, ls, n + 1⟩)
      | .fault f => (.fault f, ⟨es, ls, n + 1⟩)
  | .simple :: es, ls, n => (.fault .panic, ⟨es, ls, n⟩)
  | .failed :: es, ls, n => (.fault .panic, ⟨es, ls, n⟩)
  | .section :: es, ls, n => nextFrom lib es ls n
  | .other :: es, ls, n => nextFrom lib es ls n
  | .incomplete :: es, ls, n => nextFrom lib es ls n

/-- `Iterator::next`, `P:144-218` -/
def Iter.next (lib : Lib) (it : Iter) : Res Empty (Option Item) × Iter := nextFrom lib it.events it.links it.frames

/-- an item leaves less to read -/
theorem nextFrom_lt {lib : Lib} {es : List Event} {ls : List Nat} {n : Nat} {i : Item} {it : Iter}
    (h : nextFrom lib es ls n = (.ok (some i), it)) : it.events.length < es.length := by
  induction es generalizing ls n with
  | nil => simp [nextFrom] at h
  | cons e es ih =>
    cases e <;> simp only [nextFrom] at h
    case legacy d c =>
      split at h
      · simp at h
      · split at h
        · simp only [Prod.mk.injEq] at h; rw [← h.2]; simp
        · have := ih h; simp; omega
        · simp at h
        · simp at h
    case enhanced k d c =>
      split at h
      · simp at h
      · split at h
        · simp only [Prod.mk.injEq] at h; rw [← h.2]; simp
        · have := ih h; simp; omega
        · simp at h
        · simp at h
    all_goals first
      | (have := ih h; simp; omega)
      | simp at h

end Verif.Pcap
