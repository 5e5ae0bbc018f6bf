import Verif.Bgp.SidLemmas
import Verif.Props.BgpNlri
/-!
# C46, C47, C48 — BGP-LS NLRI, BGP-LS attribute, Prefix-SID attribute
-/
namespace Verif.Props
open Verif Verif.Bgp Parser

/-- writing succeeds and what is written round-trips -/
def WriteRoundTrips {ε ε' α : Type} (p : Parser ε α) (a : α) (w : Res ε' Bytes) (len : Nat) : Prop :=
  ∃ b, w = .ok b ∧ RoundTrips p a b len

/-! ## C46 -/

/-- **C46 (round trip).** -/
theorem c46_roundtrip {ε : Type} (ap : Bool) (n : LsNlri) (h : n.WF ap) :
    WriteRoundTrips (parseLsNlri ap) n (n.write : Res ε Bytes) n.len :=
  ⟨_, LsNlri.write_eq h, .of (reads_lsNlri h) (LsNlri.length_bytes h)⟩
theorem c46_roundtrip_vpn {ε : Type} (ap : Bool) (n : LsVpnNlri) (h : n.WF ap) :
    WriteRoundTrips (parseLsVpnNlri ap) n (n.write : Res ε Bytes) n.len :=
  ⟨_, LsVpnNlri.write_eq h, .of (reads_lsVpnNlri h) (LsVpnNlri.length_bytes h)⟩

/-- **C46 (no panic, for NLRI that do not start a buffer)**: inside a message at least the attribute header comes
first. -/
theorem c46_no_fault_partial (ap : Bool) (r : Reader) (h : 2 ≤ r.offset) :
    (parseLsNlri ap r).1.isFault = false ∧ (parseLsVpnNlri ap r).1.isFault = false := by
  have h1 := (safeAt_parseLsNlri ap).out r h
  have h2 := (safeAt_parseLsVpnNlri ap).out r h
  constructor
  · rcases he : parseLsNlri ap r with ⟨_ | _ | _, _⟩ <;> rw [he] at h1 <;> first | rfl | exact h1.elim
  · rcases he : parseLsVpnNlri ap r with ⟨_ | _ | _, _⟩ <;> rw [he] at h2 <;> first | rfl | exact h2.elim

/-- **C46 (no panic) is false at the start of a buffer**: a reserved NLRI type underflows an offset. -/
theorem c46_fault_disproved : ∃ r, (parseLsNlri false r).1 = .fault .panic := ⟨⟨[0, 0, 0, 0], 0⟩, by decide +kernel⟩

example : LsNlri.WF true ⟨some 7, .link 1 5 [.autonomousSystem 65536, .igpRouterId [1, 2, 3, 4]] [.ospfAreaId 0]
    [.localRemote 1 2, .multiTopology [2, 4095]]⟩ := by
  refine ⟨rfl, ⟨by decide, ⟨?_, by decide⟩, ⟨?_, by decide⟩, ?_⟩, by decide⟩
  · intro s hs; simp at hs; rcases hs with rfl | rfl <;> exact ⟨by decide, trivial⟩
  · intro s hs; simp at hs; subst hs; exact ⟨by decide, trivial⟩
  · intro s hs; simp at hs; rcases hs with rfl | rfl
    · exact ⟨by decide, trivial⟩
    · refine ⟨by decide, ?_⟩; intro v hv; simp at hv; rcases hv with rfl | rfl <;> decide

/-- what the registry assigns: protocols 1 to 9; NLRI types 5 and 6 are kept as octets -/
def AssignedLs : LsValue → Prop
  | .node p _ _ | .link p _ _ _ _ | .prefix4 p _ _ _ | .prefix6 p _ _ _ => 1 ≤ p.toNat ∧ p.toNat ≤ 9
  | .unknown c _ => c.toNat = 5 ∨ c.toNat = 6

theorem lsProtocolOk_iff (c : UInt8) : lsProtocolOk c = true ↔ 1 ≤ c.toNat ∧ c.toNat ≤ 9 := by
  simp [lsProtocolOk]

theorem protocol_assigned {r r' : Reader} {p : UInt8} (h : parseLsProtocol r = (.ok p, r')) :
    1 ≤ p.toNat ∧ p.toNat ≤ 9 := by
  unfold parseLsProtocol at h
  obtain ⟨c, r1, hc, h⟩ := bind_eq_ok.mp h
  rw [mapErr_eq_ok] at hc
  rcases ite_eq_ok.mp h with ⟨hok, h'⟩ | ⟨_, h⟩
  · rw [mapErr_eq_ok] at h'
    obtain ⟨buf, o⟩ := r
    cases buf with
    | nil => simp [peekU8] at hc
    | cons x xs =>
      simp [peekU8] at hc
      obtain ⟨rfl, rfl⟩ := hc
      have := (readU8_eq_ok.mp h').1
      simp at this
      rw [← this.1, ← lsProtocolOk_iff]; exact hok
  · obtain ⟨_, _, _, h⟩ := bind_eq_ok.mp h
    exact (fail_eq_ok.mp h).elim

theorem protocol_assigned' {r r' : Reader} {p : UInt8} (h : parseLsProtocol' r = (.ok p, r')) :
    1 ≤ p.toNat ∧ p.toNat ≤ 9 := by
  unfold parseLsProtocol' at h
  obtain ⟨c, r1, _, h⟩ := bind_eq_ok.mp h
  rcases ite_eq_ok.mp h with ⟨hok, h⟩ | ⟨_, h⟩
  · rw [← (pure_eq_ok.mp h).1, ← lsProtocolOk_iff]; exact hok
  · obtain ⟨_, _, _, h⟩ := bind_eq_ok.mp h
    exact (fail_eq_ok.mp h).elim

theorem prefix_assigned {v6 : Bool} {v : LsValue} {r r' : Reader} (h : parseLsPrefix v6 r = (.ok v, r')) :
    AssignedLs v := by
  obtain ⟨p, _, hp, h⟩ := bind_eq_ok.mp h
  obtain ⟨_, _, _, h⟩ := bind_eq_ok.mp h
  obtain ⟨_, _, _, h⟩ := bind_eq_ok.mp h
  obtain ⟨_, _, _, h⟩ := bind_eq_ok.mp h
  rw [← (pure_eq_ok.mp h).1]
  cases v6 <;> exact protocol_assigned' hp

theorem value_assigned {t : UInt16} (ht : lsTypeOk t = true) {v : LsValue} {r r' : Reader}
    (h : parseLsValue t r = (.ok v, r')) : AssignedLs v := by
  unfold parseLsValue at h
  rcases ite_eq_ok.mp h with ⟨_, h⟩ | ⟨h1, h⟩
  · obtain ⟨p, _, hp, h⟩ := bind_eq_ok.mp h
    obtain ⟨_, _, _, h⟩ := bind_eq_ok.mp h
    obtain ⟨_, _, _, h⟩ := bind_eq_ok.mp h
    rw [← (pure_eq_ok.mp h).1]; exact protocol_assigned hp
  rcases ite_eq_ok.mp h with ⟨_, h⟩ | ⟨h2, h⟩
  · obtain ⟨p, _, hp, h⟩ := bind_eq_ok.mp h
    obtain ⟨_, _, _, h⟩ := bind_eq_ok.mp h
    obtain ⟨_, _, _, h⟩ := bind_eq_ok.mp h
    obtain ⟨_, _, _, h⟩ := bind_eq_ok.mp h
    obtain ⟨_, _, _, h⟩ := bind_eq_ok.mp h
    rw [← (pure_eq_ok.mp h).1]; exact protocol_assigned hp
  rcases ite_eq_ok.mp h with ⟨_, h⟩ | ⟨h3, h⟩
  · exact prefix_assigned h
  rcases ite_eq_ok.mp h with ⟨_, h⟩ | ⟨h4, h⟩
  · exact prefix_assigned h
  obtain ⟨b, _, rfl⟩ := map_eq_ok.mp h
  show t.toNat = 5 ∨ t.toNat = 6
  have ht' : 1 ≤ t.toNat ∧ t.toNat ≤ 6 := by simpa [lsTypeOk] using ht
  have e1 : t.toNat ≠ 1 := fun e => h1 (UInt16.toNat.inj e)
  have e2 : t.toNat ≠ 2 := fun e => h2 (UInt16.toNat.inj e)
  have e3 : t.toNat ≠ 3 := fun e => h3 (UInt16.toNat.inj e)
  have e4 : t.toNat ≠ 4 := fun e => h4 (UInt16.toNat.inj e)
  omega

theorem type_ok {t : UInt16} {r r' : Reader} (h : parseLsType r = (.ok t, r')) : lsTypeOk t = true := by
  obtain ⟨c, _, _, h⟩ := bind_eq_ok.mp h
  rcases ite_eq_ok.mp h with ⟨hok, h⟩ | ⟨_, h⟩
  · rw [← (pure_eq_ok.mp h).1]; exact hok
  · obtain ⟨_, _, _, h⟩ := bind_eq_ok.mp h
    rcases ite_eq_ok.mp h with ⟨_, h⟩ | ⟨_, h⟩
    · exact (panic_eq_ok.mp h).elim
    · exact (fail_eq_ok.mp h).elim

/-- **C46 (only assigned values are decoded)**, from any octets. -/
theorem c46_decoded_assigned (ap : Bool) (r r' : Reader) :
    (∀ n, parseLsNlri ap r = (.ok n, r') → AssignedLs n.value) ∧
    (∀ n, parseLsVpnNlri ap r = (.ok n, r') → AssignedLs n.value) := by
  constructor
  · intro n h
    obtain ⟨_, _, _, h⟩ := bind_eq_ok.mp h
    obtain ⟨t, _, ht, h⟩ := bind_eq_ok.mp h
    obtain ⟨_, _, _, h⟩ := bind_eq_ok.mp h
    obtain ⟨_, _, _, h⟩ := bind_eq_ok.mp h
    obtain ⟨x, _, hx, h⟩ := bind_eq_ok.mp h
    rw [← (pure_eq_ok.mp h).1]
    exact value_assigned (type_ok ht) (onSub_eq_ok'.mp hx).1
  · intro n h
    obtain ⟨_, _, _, h⟩ := bind_eq_ok.mp h
    obtain ⟨t, _, ht, h⟩ := bind_eq_ok.mp h
    obtain ⟨_, _, _, h⟩ := bind_eq_ok.mp h
    obtain ⟨_, _, _, h⟩ := bind_eq_ok.mp h
    obtain ⟨x, _, hx, h⟩ := bind_eq_ok.mp h
    rw [← (pure_eq_ok.mp h).1]
    obtain ⟨_, _, _, h2⟩ := bind_eq_ok.mp (onSub_eq_ok'.mp hx).1
    obtain ⟨v, _, hv, h2⟩ := bind_eq_ok.mp h2
    rw [← (pure_eq_ok.mp h2).1]
    exact value_assigned (type_ok ht) hv

example : (parseLsNlri false ⟨[0, 1, 0, 13, 3, 0, 0, 0, 0, 0, 0, 0, 1, 1, 0, 0, 0], 0⟩).1 =
    .ok ⟨none, .node 3 1 []⟩ := by decide +kernel

/-! ## C47 -/

/-- **C47 (each TLV, except the three kinds below).** -/
theorem c47_roundtrip_partial (a : LsAttr) (h : a.WF) : WriteRoundTrips parseLsAttr a a.write a.len :=
  ⟨_, LsAttr.write_eq h, .of (reads_lsAttr h) (LsAttr.length_bytes h)⟩

/-- **C47 (the attribute value)**, with its length in one or two octets. -/
theorem c47_attribute_partial (ext : Bool) (l : List LsAttr) (h : ∀ a ∈ l, a.WF)
    (hl : (l.map LsAttr.len).sum ≤ if ext then 65535 else 255) :
    ∃ b, writeLsAttrs l = .ok b ∧ RoundTrips (parseLsAttrs ext) l
      ((if ext then u16be (UInt16.ofNat b.length) else [UInt8.ofNat b.length]) ++ b)
      ((if ext then 2 else 1) + (l.map LsAttr.len).sum) := by
  have hw : LsAttrsWF ext l := ⟨h, hl⟩
  refine ⟨_, writeLsAttrs_eq hw, .of ?_ ?_⟩
  · rw [length_lsAttrsBytes hw]; exact reads_lsAttrs hw
  · rw [List.length_append, length_lsAttrsBytes hw, lenLsAttrs]; cases ext <;> simp

/-- **C47 (no panic).** -/
theorem c47_no_fault (ext : Bool) (r : Reader) :
    (parseLsAttr r).1.isFault = false ∧ (parseLsAttrs ext r).1.isFault = false :=
  ⟨safe_parseLsAttr.noFault r, (safe_parseLsAttrs ext).noFault r⟩

/-- a length field of two octets followed by one octet -/
theorem slice_refused (t : UInt16) (x : UInt8) (o : Nat) :
    ∃ e, (parseLsAttr ⟨u16be t ++ u16be 2 ++ [x], o⟩).1 = .err e := by
  have h1 := ((reads_u16 t).mapErr LsAttrError.parse).run (u16be 2 ++ [x]) o
  have h2 := ((reads_u16 2).mapErr LsAttrError.parse).run [x] (o + (u16be t).length)
  have h3 := (safe_takeSlice 2).out ⟨[x], o + (u16be t).length + (u16be 2).length⟩
  rcases he : takeSlice 2 ⟨[x], o + (u16be t).length + (u16be 2).length⟩ with ⟨a | e | f, r'⟩
  · have h4 := takeSlice_eq_ok.mp he
    have h5 := congrArg List.length h4.1
    have h6 := h4.2
    simp at h5
    omega
  · rw [List.append_assoc]
    unfold parseLsAttr
    rw [bind_ok (getOffset_run _), bind_ok h1, bind_ok h2, show (2 : UInt16).toNat = 2 from rfl,
      bind_err (mapErr_err he _)]
    exact ⟨_, rfl⟩
  · rw [he] at h3; exact h3.elim

/-- **C47 is false of link protection types**: one octet is written where the length field says two. -/
theorem c47_linkProtection_disproved (a b c d e f : Bool) :
    ∃ w, (LsAttr.linkProtection a b c d e f).write = .ok w ∧
      w.length + 1 = (LsAttr.linkProtection a b c d e f).len ∧
      ∀ o, ∃ err, (parseLsAttr ⟨w, o⟩).1 = .err err := by
  have h : (LsAttr.linkProtection a b c d e f).write = .ok (u16be 1093 ++ u16be 2 ++
      [orBit a 0x01 ||| orBit b 0x02 ||| orBit c 0x04 ||| orBit d 0x08 ||| orBit e 0x10 ||| orBit f 0x20]) := by
    unfold LsAttr.write LsAttr.len
    rw [tlvHead16_ok (by simp [LsAttr.valueLen])]
    rfl
  exact ⟨_, h, by simp [LsAttr.len, LsAttr.valueLen], fun o => slice_refused _ _ o⟩

/-- **C47 is false of OSPF forwarding addresses**: an octet more is written than the length field says, so what is read
back is another address. -/
theorem c47_forwarding_disproved :
    ∃ w, (LsAttr.ospfForwarding (.v4 0x0a000001)).write = .ok w ∧
      w.length = (LsAttr.ospfForwarding (.v4 0x0a000001)).len + 1 ∧
      parseLsAttr ⟨w, 0⟩ = (.ok (.ospfForwarding (.v4 0x040a0000)), ⟨[1], 8⟩) :=
  ⟨_, rfl, rfl, by decide +kernel⟩

/-- a value that reaches the route tag loop is refused -/
theorem tag_refused {t : UInt16} (ht : t = 1153 ∨ t = 1154) {v : Bytes} (hv : v ≠ []) (hl : v.length ≤ 65535)
    (rest : Bytes) (o : Nat) : ∃ e, (parseLsAttr ⟨tlvBytes16 t v ++ rest, o⟩).1 = .err e := by
  have h1 := ((reads_u16 t).mapErr LsAttrError.parse).run (u16be (UInt16.ofNat v.length) ++ (v ++ rest)) o
  have h2 := ((reads_u16 (UInt16.ofNat v.length)).mapErr LsAttrError.parse).run (v ++ rest) (o + (u16be t).length)
  have h3 := mapErr_ok (takeSlice_append (bs := rest)
    (o := o + (u16be t).length + (u16be (UInt16.ofNat v.length)).length) (UInt16.toNat_ofNat_le hl).symm)
    LsAttrError.parse
  have e : tlvBytes16 t v ++ rest = u16be t ++ (u16be (UInt16.ofNat v.length) ++ (v ++ rest)) := by
    simp [tlvBytes16]
  rw [e]
  unfold parseLsAttr
  rw [bind_ok (getOffset_run _), bind_ok h1, bind_ok h2, bind_ok h3]
  rcases ht with rfl | rfl
  · rw [if_pos ⟨rfl, hv⟩, bind_ok (getRemaining_run _)]
    obtain ⟨e, r', he⟩ := tagLoop_err (β := LsAttr) (by decide) (safe_mapErr LsAttrError.parse safe_readU32) _ _
      (Nat.lt_succ_self _)
    exact ⟨e, by rw [he]⟩
  · rw [if_neg (by simp), if_pos ⟨rfl, hv⟩, bind_ok (getRemaining_run _)]
    obtain ⟨e, r', he⟩ := tagLoop_err (β := LsAttr) (by decide) (safe_mapErr LsAttrError.parse safe_readU64) _ _
      (Nat.lt_succ_self _)
    exact ⟨e, by rw [he]⟩

/-- **C47 is false of route tags**: no non-empty list of tags is ever read back, whatever follows it. -/
theorem c47_routeTag_disproved (v : List UInt32) (hv : v ≠ []) (hl : 4 * v.length + 4 ≤ 65535) :
    ∃ w, (LsAttr.routeTag v).write = .ok w ∧ ∀ rest o, ∃ e, (parseLsAttr ⟨w ++ rest, o⟩).1 = .err e := by
  have hlen : (v.map u32be).flatten.length = 4 * v.length := length_words v
  refine ⟨_, tlvWrite16_ok rfl hlen hl, fun rest o => tag_refused (.inl rfl) (fun e => ?_) (by omega) rest o⟩
  rw [e] at hlen; simp only [List.length_nil] at hlen; exact hv (List.length_eq_zero_iff.mp (by omega))

theorem c47_extRouteTag_disproved (v : List UInt64) (hv : v ≠ []) (hl : 8 * v.length + 4 ≤ 65535) :
    ∃ w, (LsAttr.extRouteTag v).write = .ok w ∧ ∀ rest o, ∃ e, (parseLsAttr ⟨w ++ rest, o⟩).1 = .err e := by
  have hlen : (v.map u64be).flatten.length = 8 * v.length := length_flatten_const _ 8 _ fun _ _ => length_u64be _
  refine ⟨_, tlvWrite16_ok rfl hlen hl, fun rest o => tag_refused (.inr rfl) (fun e => ?_) (by omega) rest o⟩
  rw [e] at hlen; simp only [List.length_nil] at hlen; exact hv (List.length_eq_zero_iff.mp (by omega))

example : (LsAttr.peerAdj (.label 0xb0 1 [0, 1, 1])).WF := ⟨by decide, by decide, rfl⟩
example : (LsAttr.unreserved [0, 1, 2, 3, 4, 5, 6, 7]).WF := ⟨by decide, by decide⟩
example : (LsAttr.nodeName "core-1").WF := ⟨by decide +kernel, by show (utf8 _).length ≤ 255; decide +kernel⟩

/-! ## C48 -/

/-- **C48 (round trip of the Prefix-SID attribute value)**, with its length in one or two octets. -/
theorem c48_roundtrip (ext : Bool) (l : List SidTlv) (h : ∀ s ∈ l, s.WF)
    (hl : (l.map SidTlv.len).sum ≤ if ext then 65535 else 255) :
    ∃ b, writeSid l = .ok b ∧ RoundTrips (parseSid ext) l
      ((if ext then u16be (UInt16.ofNat b.length) else [UInt8.ofNat b.length]) ++ b)
      ((if ext then 2 else 1) + (l.map SidTlv.len).sum) := by
  have hw : SidWF ext l := ⟨h, hl⟩
  refine ⟨_, writeSid_eq hw, .of ?_ ?_⟩
  · rw [length_sidBytes hw]; exact reads_sid hw
  · rw [List.length_append, length_sidBytes hw, lenSid]; cases ext <;> simp
theorem c48_roundtrip_tlv (s : SidTlv) (h : s.WF) : WriteRoundTrips parseSidTlv s s.write s.len :=
  ⟨_, SidTlv.write_eq h, .of (reads_sidTlv h) (SidTlv.length_bytes h)⟩

/-- **C48 (no panic).** -/
theorem c48_no_fault (ext : Bool) (r : Reader) : (parseSid ext r).1.isFault = false := (safe_parseSid ext).noFault r

example : SidTlv.WF (.serviceL3 0 [.information 0 (0x20010db8 <<< 96) 0 63 0 [.sidStructure 32 16 16 0 16 48, .unknown 9 [1]],
    .unknown 7 []]) := by
  refine ⟨by decide, ?_⟩
  intro s hs; simp at hs; rcases hs with rfl | rfl
  · refine ⟨by decide, ?_⟩
    intro x hx; simp at hx; rcases hx with rfl | rfl
    · exact ⟨by decide, trivial⟩
    · exact ⟨by decide, by decide⟩
  · exact ⟨by decide, by decide⟩
example : SidTlv.WF (.originator 0 [⟨[0, 62, 128], [0, 31, 64]⟩]) := by
  refine ⟨by decide, ?_⟩
  intro s hs; simp at hs; subst hs; exact ⟨rfl, rfl⟩

end Verif.Props
