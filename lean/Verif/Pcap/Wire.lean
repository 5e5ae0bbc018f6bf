import Verif.Pcap.ReadLemmas
/-!
# Frames with a packet of UDP or TCP in them
-/
namespace Verif.Pcap
open Verif

/-- a packet of UDP or TCP over IPv4 or IPv6, with the fields that do not matter here -/
inductive Packet where
  | udp4 (m : Misc4) (src dst : UInt32) (sport dport checksum : UInt16) (payload : Bytes)
  | tcp4 (m : Misc4) (src dst : UInt32) (x : MiscTcp) (sport dport : UInt16) (payload : Bytes)
  | udp6 (label : UInt32) (hops : UInt8) (src dst : BitVec 128) (sport dport checksum : UInt16) (payload : Bytes)
  | tcp6 (label : UInt32) (hops : UInt8) (src dst : BitVec 128) (x : MiscTcp) (sport dport : UInt16) (payload : Bytes)

/-- the lengths fit in their fields -/
def Packet.Fits : Packet → Prop
  | .udp4 _ _ _ _ _ _ p => 28 + p.length < 65536
  | .tcp4 _ _ _ x sp dp p => x.options.length ≤ 10 ∧ 20 + (tcpPacket x sp dp p).length < 65536
  | .udp6 _ _ _ _ _ _ _ p => 8 + p.length < 65536
  | .tcp6 _ _ _ _ x sp dp p => x.options.length ≤ 10 ∧ (tcpPacket x sp dp p).length < 65536

/-- the EtherType of a packet -/
def Packet.etherType : Packet → UInt16
  | .udp4 .. | .tcp4 .. => 0x0800
  | .udp6 .. | .tcp6 .. => 0x86DD

/-- the octets of a packet, with octets that fill the frame behind them -/
def Packet.octets (pad : Bytes) : Packet → Bytes
  | .udp4 m src dst sp dp ck p => ipv4Packet m src dst 17 (udpPacket sp dp ck p) pad
  | .tcp4 m src dst x sp dp p => ipv4Packet m src dst 6 (tcpPacket x sp dp p) pad
  | .udp6 l h src dst sp dp ck p => ipv6Packet l h src dst 17 (udpPacket sp dp ck p) pad
  | .tcp6 l h src dst x sp dp p => ipv6Packet l h src dst 6 (tcpPacket x sp dp p) pad

/-- where a packet comes from, where it goes to and what it carries -/
def Packet.item : Packet → Item
  | .udp4 _ src dst sp dp _ p => ⟨⟨.v4 src, sp, .v4 dst, dp⟩, .udp, p⟩
  | .tcp4 _ src dst _ sp dp p => ⟨⟨.v4 src, sp, .v4 dst, dp⟩, .tcp, p⟩
  | .udp6 _ _ src dst sp dp _ p => ⟨⟨.v6 src, sp, .v6 dst, dp⟩, .udp, p⟩
  | .tcp6 _ _ src dst _ sp dp p => ⟨⟨.v6 src, sp, .v6 dst, dp⟩, .tcp, p⟩

/-- a packet of UDP over IPv4 -/
def Packet.isUdp4 : Packet → Bool
  | .udp4 .. => true
  | _ => false

/-- a frame of Ethernet: twelve octets of addresses, the tags, the EtherType and the packet -/
def etherFrame (h : Bytes) (ts : List (UInt16 × UInt16)) (t : UInt16) (b : Bytes) : Bytes :=
  h ++ (u16be (tagged ts t b).1 ++ (tagged ts t b).2)

/-- a capture of a frame that carries an EtherType and octets: `1` is Ethernet, `113` is Linux cooked capture, whose header is fourteen octets before the
EtherType -/
inductive Captured (ts : List (UInt16 × UInt16)) (t : UInt16) (b : Bytes) : Nat → Bytes → Prop where
  | ethernet (h : Bytes) : h.length = 12 → Captured ts t b 1 (etherFrame h ts t b)
  | cooked (h : Bytes) : h.length = 14 → Captured ts t b 113 (etherFrame h ts t b)

theorem IsTag.large {t : UInt16} (h : IsTag t) : 0x600 ≤ t.toNat ∧ t ≠ 0x0806 ∧ t ≠ 0x0800 ∧ t ≠ 0x86DD := by
  rcases h with h | h | h <;> subst h <;> decide

theorem tagged_first {ts : List (UInt16 × UInt16)} {t : UInt16} {b : Bytes} (hts : ∀ x ∈ ts, IsTag x.1) (hn : ts ≠ []) : IsTag (tagged ts t b).1 := by
  cases ts with
  | nil => exact absurd rfl hn
  | cons x ts => exact hts _ List.mem_cons_self

theorem strip_tagged {ts : List (UInt16 × UInt16)} {t : UInt16} (b : Bytes) (hts : ∀ x ∈ ts, IsTag x.1) (hl : ts.length ≤ 4) (ht : ¬ IsTag t) :
    stripVlan (tagged ts t b).1 (tagged ts t b).2 = some (t, b) := by
  unfold stripVlan
  rw [stripFrom_tagged 5 ts t b hts ht, if_pos (by omega)]

/-- what is behind the Ethernet header, when it has not been taken further -/
theorem parse_inner {lib : Lib} {d : Bytes} {ts : List (UInt16 × UInt16)} {t : UInt16} {b : Bytes} (hts : ∀ x ∈ ts, IsTag x.1) (hl : ts.length ≤ 4)
    (ht : t = 0x0800 ∨ t = 0x86DD) (hd : lib.ethernet d = some ⟨(tagged ts t b).1, ethInner lib (tagged ts t b).1 (tagged ts t b).2⟩) :
    parseEthernet lib d = parseL3 lib t b := by
  have htag : ¬ IsTag t := by rintro h; rcases ht with rfl | rfl <;> have := h.large <;> simp at this
  unfold parseEthernet
  rw [hd]
  cases ts with
  | nil =>
    simp only [tagged]
    unfold ethInner parseL3
    rcases ht with rfl | rfl
    · simp only [if_true]
      cases lib.ipv4 b <;> rfl
    · rw [if_neg (by decide), if_pos rfl, if_neg (by decide), if_pos rfl]
      cases lib.ipv6 b <;> rfl
  | cons x ts =>
    have h1 := tagged_first (t := t) (b := b) hts (List.cons_ne_nil x ts)
    have h2 : ethInner lib (tagged (x :: ts) t b).1 (tagged (x :: ts) t b).2 = .raw (tagged (x :: ts) t b).2 := by
      unfold ethInner; rw [if_neg h1.large.2.2.1, if_neg h1.large.2.2.2]
    rw [h2]
    simp only
    rw [strip_tagged b hts hl htag]

/-- tags do not matter -/
theorem parse_captured {lib : Lib} (hlib : lib.Faithful) {ts : List (UInt16 × UInt16)} {t : UInt16} {b : Bytes} (hts : ∀ x ∈ ts, IsTag x.1) (hl : ts.length ≤ 4)
    (ht : t = 0x0800 ∨ t = 0x86DD) {l : Nat} {d : Bytes} (hc : Captured ts t b l d) :
    parsePacket lib (lib.link l d d.length) = parseL3 lib t b := by
  have htag : ¬ IsTag t := by rintro h; rcases ht with rfl | rfl <;> have := h.large <;> simp at this
  cases hc with
  | cooked h hh =>
    have := hlib.cooked h (tagged ts t b).1 (tagged ts t b).2 hh
    unfold etherFrame
    rw [this]
    simp only [parsePacket]
    rw [strip_tagged b hts hl htag]
  | ethernet h hh =>
    rw [hlib.ether]
    simp only [parsePacket]
    have big : ∀ us : List (UInt16 × UInt16), (∀ x ∈ us, IsTag x.1) → 0x600 ≤ (tagged us t b).1.toNat ∧ (tagged us t b).1 ≠ 0x0806 := by
      intro us hus
      cases us with
      | nil => rcases ht with rfl | rfl <;> simp only [tagged] <;> decide
      | cons y us => exact ⟨(tagged_first hus (by simp)).large.1, (tagged_first hus (by simp)).large.2.1⟩
    by_cases h8 : (tagged ts t b).1 = 0x8100
    · cases ts with
      | nil => simp only [tagged] at h8; rcases ht with rfl | rfl <;> simp at h8
      | cons x us =>
        obtain ⟨tpid, tci⟩ := x
        simp only [tagged] at h8
        subst h8
        have hus : ∀ x ∈ us, IsTag x.1 := fun x hx => hts x (List.mem_cons_of_mem _ hx)
        refine parse_inner hus (by simp at hl; omega) ht ?_
        exact hlib.tag h tci _ _ hh (big us hus).1 (big us hus).2
    · exact parse_inner hts hl ht (hlib.plain h _ _ hh (big ts hts).1 h8 (big ts hts).2)

/-- the packet behind the EtherType -/
theorem parseL3_packet {lib : Lib} (hlib : lib.Faithful) {p : Packet} (hp : p.Fits) (pad : Bytes) :
    parseL3 lib p.etherType (p.octets pad) = .ok (some { p.item with payload := if p.isUdp4 then p.item.payload else p.item.payload ++ pad }) := by
  cases p with
  | udp4 m src dst sp dp ck q =>
    simp only [Packet.Fits] at hp
    simp only [Packet.etherType, Packet.octets, parseL3, if_true]
    rw [hlib.udp4 m src dst sp dp ck q pad hp]
    have hn : (UInt16.ofNat (8 + q.length)).toNat = 8 + q.length := by rw [UInt16.toNat_ofNat']; omega
    simp only [parseIpv4, hn]
    rw [if_neg (by omega), if_pos (by simp)]
    simp [Packet.item, Packet.isUdp4]
  | tcp4 m src dst x sp dp q =>
    simp only [Packet.Fits] at hp
    simp only [Packet.etherType, Packet.octets, parseL3, if_true]
    rw [hlib.tcp4 m src dst x sp dp q pad hp.1 hp.2]
    rfl
  | udp6 l h src dst sp dp ck q =>
    simp only [Packet.Fits] at hp
    simp only [Packet.etherType, Packet.octets, parseL3]
    rw [if_neg (by decide), if_pos trivial, hlib.udp6 l h src dst sp dp ck q pad hp]
    rfl
  | tcp6 l h src dst x sp dp q =>
    simp only [Packet.Fits] at hp
    simp only [Packet.etherType, Packet.octets, parseL3]
    rw [if_neg (by decide), if_pos trivial, hlib.tcp6 l h src dst x sp dp q pad hp.1 hp.2]
    rfl

/-- an event of a capture that is a frame of a link type, all of it captured -/
structure FrameAt (es : List Event) (k : Nat) (l : Nat) (d : Bytes) : Prop where
  event : ∃ e i, es[k]? = some e ∧ e.frame? = some (i, d, d.length) ∧ (linksIn (es.take k))[i]? = some l

theorem outcome_frame {lib : Lib} {es : List Event} {k l : Nat} {d : Bytes} (h : FrameAt es k l d) :
    outcomeAt lib es k = parsePacket lib (lib.link l d d.length) := by
  obtain ⟨e, i, h1, h2, h3⟩ := h.event
  unfold outcomeAt
  rw [h1]
  cases e <;> simp_all [Event.frame?]

theorem etherType_cases (p : Packet) : p.etherType = 0x0800 ∨ p.etherType = 0x86DD := by
  cases p <;> simp [Packet.etherType]

theorem outcome_packet {lib : Lib} (hlib : lib.Faithful) {es : List Event} {k l : Nat} {d : Bytes} (h : FrameAt es k l d) {p : Packet} (hp : p.Fits)
    {ts : List (UInt16 × UInt16)} (hts : ∀ x ∈ ts, IsTag x.1) (hl : ts.length ≤ 4) {pad : Bytes} (hc : Captured ts p.etherType (p.octets pad) l d) :
    outcomeAt lib es k = .ok (some { p.item with payload := if p.isUdp4 then p.item.payload else p.item.payload ++ pad }) := by
  rw [outcome_frame h, parse_captured hlib hts hl (etherType_cases p) hc, parseL3_packet hlib hp]

/-! ## The whole capture -/

theorem readAll_new {lib : Lib} {es : List Event} (hok : ∀ k, k < es.length → (outcomeAt lib es k).isFault = false) :
    readAll lib (.new es) = ((List.range es.length).filterMap (foundAt lib es), true) := by
  have h := readAll_range lib es [] es.length (Nat.le_refl _) (by intro k _ hk; simpa using hok k (by simpa using hk))
  simp only [List.nil_append, List.length_nil, List.drop_length, List.take_length] at h
  rw [show Iter.new es = ⟨es, linksIn [], framesIn []⟩ from rfl, h]
  have : readAll lib ⟨[], linksIn es, framesIn es⟩ = ([], true) := readAll_none (it' := ⟨[], linksIn es, framesIn es⟩) rfl
  simp only [this, List.append_nil, List.range_eq_range']

theorem readAll_new_fault {lib : Lib} {es : List Event} {n : Nat} (hok : ∀ k, k < n → (outcomeAt lib es k).isFault = false)
    (hf : (outcomeAt lib es n).isFault = true) : readAll lib (.new es) = ((List.range n).filterMap (foundAt lib es), false) := by
  have hn : n < es.length := by
    rcases Nat.lt_or_ge n es.length with h | h
    · exact h
    · unfold outcomeAt at hf; rw [List.getElem?_eq_none h] at hf; simp at hf
  have h := readAll_range lib es [] n (by omega) (by intro k _ hk; simpa using hok k (by simpa using hk))
  simp only [List.nil_append, List.length_nil] at h
  rw [show Iter.new es = ⟨es, linksIn [], framesIn []⟩ from rfl, h]
  have h2 := readAll_event lib (es.take n) es[n] (es.drop (n + 1))
  have h3 : es.take n ++ es[n] :: es.drop (n + 1) = es := by rw [← List.drop_eq_getElem_cons hn, List.take_append_drop]
  have h4 : (es.take n).length = n := by rw [List.length_take]; omega
  rw [← List.drop_eq_getElem_cons hn] at h2
  rw [List.take_append_drop, h4] at h2
  cases ho : outcomeAt lib es n with
  | ok x => rw [ho] at hf; simp at hf
  | err x => exact x.elim
  | fault f => rw [ho] at h2; simp only at h2; simp only [h2, List.append_nil, List.range_eq_range']

end Verif.Pcap
