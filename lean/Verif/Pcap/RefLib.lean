import Verif.Pcap.Spec
/-!
# A library that is faithful

It is not the code of `pcap-parser` and `pdu`; it shows that what is supposed of them can be met, and is used in examples.
-/
namespace Verif.Pcap.Ref
open Verif Verif.Pcap

/-- what is behind an IP header -/
def upper (proto : UInt8) (b : Bytes) : Upper :=
  if proto = 6 then
    let n := (b[12]?.getD 0).toNat / 16 * 4
    if b.length < 20 ∨ n < 20 ∨ b.length < n then .err
    else .tcp (u16of (b.take 2)) (u16of ((b.drop 2).take 2)) (some (b.drop n))
  else if proto = 17 then
    if b.length < 8 then .err else .udp (u16of (b.take 2)) (u16of ((b.drop 2).take 2)) (u16of ((b.drop 4).take 2)) (some (b.drop 8))
  else if proto = 1 ∨ proto = 58 then .icmp
  else if proto = 47 then (if b.length < 4 then .err else .gre)
  else if proto = 50 then .esp
  else .raw

/-- an IPv4 packet without options -/
def ipv4 (b : Bytes) : Option IpPdu :=
  if b.length < 20 ∨ b[0]?.getD 0 ≠ 0x45 then none
  else some ⟨.v4 (u32of ((b.drop 12).take 4)), .v4 (u32of ((b.drop 16).take 4)),
    if beVal ((b.drop 6).take 2) % 8192 ≠ 0 then .raw else upper (b[9]?.getD 0) (b.drop 20)⟩

/-- an IPv6 packet -/
def ipv6 (b : Bytes) : Option IpPdu :=
  if b.length < 40 ∨ (b[0]?.getD 0).toNat / 16 ≠ 6 then none
  else some ⟨.v6 (u128of ((b.drop 8).take 16)), .v6 (u128of ((b.drop 24).take 16)), upper (b[6]?.getD 0) (b.drop 40)⟩

/-- the inside of an Ethernet frame -/
def inner (t : UInt16) (b : Bytes) : EthInner :=
  if t = 0x0800 then (match ipv4 b with | none => .err | some p => .ipv4 p)
  else if t = 0x86DD then (match ipv6 b with | none => .err | some p => .ipv6 p)
  else if t = 0x0806 then .arp
  else .raw b

/-- an Ethernet frame -/
def ethernet (b : Bytes) : Option EthPdu :=
  let t := u16of ((b.drop 12).take 2)
  let u := u16of ((b.drop 16).take 2)
  if b.length < 14 then none
  else if t = 0x8100 then (if b.length < 18 ∨ u.toNat < 0x600 then none else some ⟨u, inner u (b.drop 18)⟩)
  else if t.toNat < 0x600 then none
  else some ⟨t, inner t (b.drop 14)⟩

/-- the library -/
def lib : Lib where
  link l d c :=
    if d.length < c then none
    else if l = 1 then some (.l2 (d.take c))
    else if l = 113 then (if c < 16 then none else some (.l3 (u16of ((d.drop 14).take 2)) ((d.take c).drop 16)))
    else some .unsupported
  ethernet := ethernet
  ipv4 := ipv4
  ipv6 := ipv6

theorem upper_udp (sp dp ck : UInt16) (p pad : Bytes) :
    upper 17 (udpPacket sp dp ck p ++ pad) = .udp sp dp (UInt16.ofNat (8 + p.length)) (some (p ++ pad)) := by
  unfold upper
  rw [if_neg (by decide), if_pos rfl]
  have h1 : ¬ (udpPacket sp dp ck p ++ pad).length < 8 := by simp only [udpPacket, List.length_append, u16be, length_beBytes]; omega
  rw [if_neg h1]
  have e1 : (udpPacket sp dp ck p ++ pad).take 2 = u16be sp := rfl
  have e2 : ((udpPacket sp dp ck p ++ pad).drop 2).take 2 = u16be dp := rfl
  have e3 : ((udpPacket sp dp ck p ++ pad).drop 4).take 2 = u16be (UInt16.ofNat (8 + p.length)) := rfl
  have e4 : (udpPacket sp dp ck p ++ pad).drop 8 = p ++ pad := rfl
  rw [e1, e2, e3, e4, u16of_u16be, u16of_u16be, u16of_u16be]

theorem length_words (l : List UInt32) : ((l.map u32be).flatten).length = 4 * l.length := by
  induction l with
  | nil => rfl
  | cons x l ih => simp only [List.map_cons, List.flatten_cons, List.length_append, ih, u32be, length_beBytes, List.length_cons]; omega

theorem upper_tcp (x : MiscTcp) (sp dp : UInt16) (p pad : Bytes) (h : x.options.length ≤ 10) :
    upper 6 (tcpPacket x sp dp p ++ pad) = .tcp sp dp (some (p ++ pad)) := by
  have e0 : ((tcpPacket x sp dp p ++ pad)[12]?.getD 0).toNat / 16 * 4 = 20 + 4 * x.options.length := by
    have : (tcpPacket x sp dp p ++ pad)[12]? = some (UInt8.ofNat ((5 + x.options.length) * 16)) := rfl
    rw [this, Option.getD_some, UInt8.toNat_ofNat']
    omega
  have hl : (tcpPacket x sp dp p ++ pad).length = 20 + 4 * x.options.length + (p ++ pad).length := by
    simp only [tcpPacket, List.length_append, u16be, u32be, length_beBytes, length_words, List.length_cons, List.length_nil]; omega
  unfold upper
  rw [if_pos rfl]
  simp only [e0]
  rw [if_neg (by omega)]
  have e1 : (tcpPacket x sp dp p ++ pad).take 2 = u16be sp := rfl
  have e2 : ((tcpPacket x sp dp p ++ pad).drop 2).take 2 = u16be dp := rfl
  have e3 : (tcpPacket x sp dp p ++ pad).drop (20 + 4 * x.options.length) = p ++ pad := by
    rw [← List.drop_drop]
    have : (tcpPacket x sp dp p ++ pad).drop 20 = (x.options.map u32be).flatten ++ (p ++ pad) := by
      rw [← List.append_assoc]; rfl
    rw [this, ← length_words, List.drop_left]
  rw [e1, e2, e3, u16of_u16be, u16of_u16be]

theorem ipv4_packet (m : Misc4) (src dst : UInt32) (proto : UInt8) (body pad : Bytes) :
    ipv4 (ipv4Packet m src dst proto body pad) = some ⟨.v4 src, .v4 dst, upper proto (body ++ pad)⟩ := by
  unfold ipv4
  have h0 : (ipv4Packet m src dst proto body pad)[0]?.getD 0 = 0x45 := rfl
  have h9 : (ipv4Packet m src dst proto body pad)[9]?.getD 0 = proto := rfl
  have hl : 20 ≤ (ipv4Packet m src dst proto body pad).length := by
    simp only [ipv4Packet, List.length_append, u16be, u32be, length_beBytes, List.length_cons, List.length_nil]; omega
  rw [if_neg (by rw [h0]; exact fun h => h.elim (fun h => by omega) (fun h => h rfl)), h9]
  have e1 : ((ipv4Packet m src dst proto body pad).drop 12).take 4 = u32be src := rfl
  have e2 : ((ipv4Packet m src dst proto body pad).drop 16).take 4 = u32be dst := rfl
  have e3 : (ipv4Packet m src dst proto body pad).drop 20 = body ++ pad := rfl
  have e4 : ((ipv4Packet m src dst proto body pad).drop 6).take 2 = u16be (if m.dontFragment then 0x4000 else 0) := rfl
  rw [e1, e2, e3, e4, u32of_u32be, u32of_u32be]
  rw [if_neg (by cases m.dontFragment <;> decide)]

theorem version6 (label : UInt32) : (UInt8.ofNat ((0x60000000 ||| (label &&& 0x0fffffff)).toNat / 256 ^ 3)).toNat / 16 = 6 := by
  have h1 : (label &&& 0x0fffffff).toNat < 2 ^ 28 := by
    rw [UInt32.toNat_and]; exact Nat.and_lt_two_pow _ (by decide)
  rw [UInt8.toNat_ofNat', UInt32.toNat_or]
  generalize (label &&& 0x0fffffff).toNat = x at h1
  have h2 := Nat.two_pow_add_eq_or_of_lt (i := 28) h1 6
  rw [show (0x60000000 : UInt32).toNat = 2 ^ 28 * 6 by decide, ← h2]
  omega

theorem ipv6_packet (label : UInt32) (hops : UInt8) (src dst : BitVec 128) (next : UInt8) (body pad : Bytes) :
    ipv6 (ipv6Packet label hops src dst next body pad) = some ⟨.v6 src, .v6 dst, upper next (body ++ pad)⟩ := by
  unfold ipv6
  have h0 : ((ipv6Packet label hops src dst next body pad)[0]?.getD 0).toNat / 16 = 6 := by
    have : (ipv6Packet label hops src dst next body pad)[0]? = some (UInt8.ofNat ((0x60000000 ||| (label &&& 0x0fffffff)).toNat / 256 ^ 3)) := by
      unfold ipv6Packet u32be beBytes
      rfl
    rw [this, Option.getD_some]; exact version6 label
  have h6 : (ipv6Packet label hops src dst next body pad)[6]?.getD 0 = next := rfl
  have hl : 40 ≤ (ipv6Packet label hops src dst next body pad).length := by
    simp only [ipv6Packet, List.length_append, u16be, u32be, u128be, length_beBytes, List.length_cons, List.length_nil]; omega
  rw [if_neg (by rw [h0]; omega), h6]
  have e1 : ((ipv6Packet label hops src dst next body pad).drop 8).take 16 = u128be src := rfl
  have e2 : ((ipv6Packet label hops src dst next body pad).drop 24).take 16 = u128be dst := rfl
  have e3 : (ipv6Packet label hops src dst next body pad).drop 40 = body ++ pad := rfl
  rw [e1, e2, e3, u128of_u128be, u128of_u128be]

theorem inner_eq {t : UInt16} (h : t ≠ 0x0806) (b : Bytes) : inner t b = ethInner lib t b := by
  unfold inner ethInner
  rw [if_neg h]
  rfl

/-- what is supposed of the libraries can be met -/
theorem faithful : lib.Faithful where
  ether d := by simp [lib]
  cooked h t b hh := by
    have h1 : ¬ (h ++ (u16be t ++ b)).length < (h ++ (u16be t ++ b)).length := by omega
    have h2 : ¬ (h ++ (u16be t ++ b)).length < 16 := by simp only [List.length_append, u16be, length_beBytes]; omega
    simp only [lib]
    rw [if_neg h1, if_neg (by decide), if_pos trivial, if_neg h2, List.take_length]
    have e1 : (h ++ (u16be t ++ b)).drop 14 = u16be t ++ b := by rw [← hh, List.drop_left]
    have e2 : (h ++ (u16be t ++ b)).drop 16 = b := by rw [show 16 = 14 + 2 from rfl, ← List.drop_drop, e1]; rfl
    rw [e1, e2, show (u16be t ++ b).take 2 = u16be t from rfl, u16of_u16be]
  plain h t b hh ht h1 h2 := by
    simp only [lib, ethernet]
    have e1 : (h ++ (u16be t ++ b)).drop 12 = u16be t ++ b := by rw [← hh, List.drop_left]
    have e2 : (h ++ (u16be t ++ b)).drop 14 = b := by rw [show 14 = 12 + 2 from rfl, ← List.drop_drop, e1]; rfl
    rw [e1, e2, show (u16be t ++ b).take 2 = u16be t from rfl, u16of_u16be, if_neg (by simp only [List.length_append, u16be, length_beBytes]; omega), if_neg h1,
      if_neg (by omega), inner_eq h2]
    rfl
  tag h tci t b hh ht h1 := by
    simp only [lib, ethernet]
    have e1 : (h ++ (u16be 0x8100 ++ (u16be tci ++ (u16be t ++ b)))).drop 12 = u16be 0x8100 ++ (u16be tci ++ (u16be t ++ b)) := by rw [← hh, List.drop_left]
    have e2 : (h ++ (u16be 0x8100 ++ (u16be tci ++ (u16be t ++ b)))).drop 16 = u16be t ++ b := by
      rw [show 16 = 12 + 4 from rfl, ← List.drop_drop, e1]; rfl
    have e3 : (h ++ (u16be 0x8100 ++ (u16be tci ++ (u16be t ++ b)))).drop 18 = b := by
      rw [show 18 = 12 + 6 from rfl, ← List.drop_drop, e1]; rfl
    rw [e1, e2, e3, show (u16be 0x8100 ++ (u16be tci ++ (u16be t ++ b))).take 2 = u16be 0x8100 from rfl, u16of_u16be,
      show (u16be t ++ b).take 2 = u16be t from rfl, u16of_u16be, if_neg (by simp only [List.length_append, u16be, length_beBytes]; omega), if_pos rfl,
      if_neg (by simp only [List.length_append, u16be, length_beBytes]; omega), inner_eq h1]
    rfl
  udp4 m src dst sp dp ck p pad _ := by simp only [lib]; rw [ipv4_packet, upper_udp]
  tcp4 m src dst x sp dp p pad h _ := by simp only [lib]; rw [ipv4_packet, upper_tcp _ _ _ _ _ h]
  udp6 label hops src dst sp dp ck p pad _ := by simp only [lib]; rw [ipv6_packet, upper_udp]
  tcp6 label hops src dst x sp dp p pad h _ := by simp only [lib]; rw [ipv6_packet, upper_tcp _ _ _ _ _ h]
  gre4 m src dst b _ h _ := by
    simp only [lib]
    rw [ipv4_packet]
    unfold upper
    simp only [List.append_nil]
    rw [if_neg (by decide), if_neg (by decide), if_neg (by decide), if_pos trivial, if_neg (by omega)]

end Verif.Pcap.Ref
