import Verif.Bgp.Ls
import Verif.Bgp.NlriLemmas
/-!
# BGP-LS NLRI: round trip and safety
-/
namespace Verif.Bgp
open Parser

variable {ε : Type}

/-! ## Node descriptors -/

def NodeSub.bytes (s : NodeSub) : Bytes := tlvBytes16 s.code s.value
/-- the value fits a TLV, and an opaque sub-TLV does not carry the code of a known or reserved one -/
def NodeSub.WF (s : NodeSub) : Prop :=
  s.valueLen + 4 ≤ 65535 ∧ match s with
    | unknown c _ => 255 < c.toNat ∧ ¬ (512 ≤ c.toNat ∧ c.toNat ≤ 517)
    | _ => True

theorem NodeSub.length_value (s : NodeSub) : s.value.length = s.valueLen := by
  cases s <;> simp [NodeSub.value, NodeSub.valueLen]
theorem NodeSub.length_bytes (s : NodeSub) : s.bytes.length = s.len := by
  rw [NodeSub.bytes, length_tlvBytes16, NodeSub.length_value, NodeSub.len]
theorem NodeSub.write_eq {s : NodeSub} (h : s.WF) : (s.write : Res ε Bytes) = .ok s.bytes :=
  tlvWrite16_ok rfl s.length_value h.1

theorem ne_of_toNat {a b : UInt16} (h : a.toNat ≠ b.toNat) : a ≠ b := fun e => h (e ▸ rfl)

theorem readsAll_nodeSubBody {s : NodeSub} (h : s.WF) (o : Nat) (l : UInt16) :
    ReadsAll (nodeSubBody o s.code l) s s.value := by
  cases s with
  | autonomousSystem v => exact ((reads_u32 v).mapErr _).all.map _
  | bgpLsIdentifier v => exact ((reads_u32 v).mapErr _).all.map _
  | ospfAreaId v => exact ((reads_u32 v).mapErr _).all.map _
  | igpRouterId v => exact (readsAll_rest v).map _
  | bgpRouterIdentifier v => exact ((reads_u32 v).mapErr _).all.map _
  | memberAsNumber v => exact ((reads_u32 v).mapErr _).all.map _
  | unknown c v =>
    obtain ⟨_, h1, h2⟩ := h
    show ReadsAll (nodeSubBody o c l) _ v
    unfold nodeSubBody
    iterate 6 refine ReadsAll.ite_neg (by rintro rfl; simp at h2) ?_
    refine ReadsAll.ite_neg (by omega) ?_
    exact (readsAll_rest v).map _

theorem reads_nodeSub {s : NodeSub} (h : s.WF) : Reads parseNodeSub s s.bytes := by
  refine reads_tlv16 ?_ fun o => readsAll_nodeSubBody h o _
  rw [s.length_value]; have := h.1; omega

/-- descriptors whose total size fits the TLV length field -/
def NodeDescWF (l : List NodeSub) : Prop := (∀ s ∈ l, s.WF) ∧ lenNodeDesc l ≤ 65535
def nodeDescBytes (want : UInt16) (l : List NodeSub) : Bytes :=
  tlvBytes16 want (l.map NodeSub.bytes).flatten

theorem length_nodeSubs (l : List NodeSub) :
    (l.map NodeSub.bytes).flatten.length = (l.map NodeSub.len).sum :=
  length_flatten_sum _ _ _ fun s _ => s.length_bytes
theorem length_nodeDescBytes (want : UInt16) (l : List NodeSub) :
    (nodeDescBytes want l).length = lenNodeDesc l := by
  rw [nodeDescBytes, length_tlvBytes16, length_nodeSubs, lenNodeDesc]
theorem writeNodeDesc_eq {want : UInt16} {l : List NodeSub} (h : NodeDescWF l) :
    (writeNodeDesc want l : Res ε Bytes) = .ok (nodeDescBytes want l) := by
  refine tlvWrite16_ok (Res.catAll_ok fun s hs => NodeSub.write_eq (h.1 s hs)) (length_nodeSubs l) ?_
  have := h.2; rw [lenNodeDesc] at this; omega

theorem reads_nodeDesc {want : UInt16} (hw : want = 256 ∨ want = 257) {l : List NodeSub} (h : NodeDescWF l) :
    Reads (parseNodeDesc want) l (nodeDescBytes want l) := by
  unfold parseNodeDesc nodeDescBytes tlvBytes16
  have hl := length_nodeSubs l
  have hb := h.2
  rw [lenNodeDesc] at hb
  refine Reads.peekU16 ?_
  rw [if_pos hw, if_neg (by simp)]
  refine Reads.bind ((reads_u16 _).mapErr _) ?_
  refine Reads.bind ((reads_u16 _).mapErr _) ?_
  rw [← List.append_nil (List.flatten _)]
  refine Reads.takeSlice (by rw [List.append_nil, UInt16.toNat_ofNat_le (by omega)]) fun o' => ?_
  exact Reads.sliceMany (fun s hs => reads_nodeSub (h.1 s hs))
    (fun s _ e => by have := s.length_bytes; rw [e, NodeSub.len] at this; simp at this; omega)
    fun s' _ => Reads.pure l

/-! ## Link and prefix descriptors -/

theorem length_writeMtIds (l : List UInt16) : (writeMtIds l).length = lenMtIds l :=
  length_flatten_const _ 2 _ fun _ _ => length_u16be _

theorem mtId_of_lt {v : UInt16} (h : v.toNat < 4096) : mtId v = v := by
  apply UInt16.toNat.inj
  rw [mtId, UInt16.toNat_and]
  show v.toNat &&& (2 ^ 12 - 1) = _
  rw [Nat.and_two_pow_sub_one_eq_mod, Nat.mod_eq_of_lt h]

theorem readsAll_mtIds {l : List UInt16} (h : ∀ v ∈ l, v.toNat < 4096) :
    ReadsAll parseMtIds l (writeMtIds l) := by
  refine ReadsAll.many (fun v hv => ?_) fun v _ e => by have := length_u16be v; rw [e] at this; simp at this
  refine Reads.bind_last ((reads_u16 v).mapErr _) ?_
  rw [mtId_of_lt (h v hv)]
  exact Reads.pure v

def LinkDesc.bytes (s : LinkDesc) : Bytes := tlvBytes16 s.code s.value
/-- the value fits a TLV, topology identifiers have 12 bits, opaque codes are unassigned -/
def LinkDesc.WF (s : LinkDesc) : Prop :=
  s.valueLen + 4 ≤ 65535 ∧ match s with
    | multiTopology l => ∀ v ∈ l, v.toNat < 4096
    | unknown c _ => 255 < c.toNat ∧ ¬ (258 ≤ c.toNat ∧ c.toNat ≤ 263)
    | _ => True

theorem LinkDesc.length_value (s : LinkDesc) : s.value.length = s.valueLen := by
  cases s <;> simp [LinkDesc.value, LinkDesc.valueLen, length_writeMtIds]
theorem LinkDesc.length_bytes (s : LinkDesc) : s.bytes.length = s.len := by
  rw [LinkDesc.bytes, length_tlvBytes16, LinkDesc.length_value, LinkDesc.len]
theorem LinkDesc.write_eq {s : LinkDesc} (h : s.WF) : (s.write : Res ε Bytes) = .ok s.bytes :=
  tlvWrite16_ok rfl s.length_value h.1

theorem readsAll_linkDescBody {s : LinkDesc} (h : s.WF) (o : Nat) (l : UInt16) :
    ReadsAll (linkDescBody o s.code l) s s.value := by
  cases s with
  | localRemote a b =>
    simp only [linkDescBody, LinkDesc.code, LinkDesc.value, if_pos]
    exact Reads.all (by preads)
  | ipv4Interface v => exact ((reads_u32 v).mapErr _).all.map _
  | ipv4Neighbor v => exact ((reads_u32 v).mapErr _).all.map _
  | ipv6Interface v => exact ((reads_u128 v).mapErr _).all.map _
  | ipv6Neighbor v => exact ((reads_u128 v).mapErr _).all.map _
  | multiTopology l => exact (readsAll_mtIds h.2).map _
  | unknown c v =>
    obtain ⟨_, h1, h2⟩ := h
    show ReadsAll (linkDescBody o c l) _ v
    unfold linkDescBody
    iterate 6 refine ReadsAll.ite_neg (by rintro rfl; simp at h2) ?_
    refine ReadsAll.ite_neg (by omega) ?_
    exact (readsAll_rest v).map _

theorem reads_linkDesc {s : LinkDesc} (h : s.WF) : Reads parseLinkDesc s s.bytes := by
  refine reads_tlv16 ?_ fun o => readsAll_linkDescBody h o _
  rw [s.length_value]; have := h.1; omega

def PrefixDesc.bytes (s : PrefixDesc) : Bytes := tlvBytes16 s.code s.value
/-- as `LinkDesc.WF`; the prefix has the address family of the NLRI and no host bits -/
def PrefixDesc.WF (v6 : Bool) (s : PrefixDesc) : Prop :=
  s.valueLen + 4 ≤ 65535 ∧ match s with
    | multiTopology l => ∀ v ∈ l, v.toNat < 4096
    | ospfRouteType t => ospfRouteOk t = true
    | ipReachability (.v4 n) => v6 = false ∧ Net.Canon 4 n
    | ipReachability (.v6 n) => v6 = true ∧ Net.Canon 16 n
    | unknown c _ => 255 < c.toNat ∧ ¬ (263 ≤ c.toNat ∧ c.toNat ≤ 265)

theorem PrefixDesc.length_value {v6 : Bool} {s : PrefixDesc} (h : s.WF v6) : s.value.length = s.valueLen := by
  cases s with
  | multiTopology l => exact length_writeMtIds l
  | ospfRouteType => rfl
  | ipReachability n =>
    cases n with
    | v4 n => exact length_writeNet h.2.2.1
    | v6 n => exact length_writeNet h.2.2.1
  | unknown => rfl
theorem PrefixDesc.length_bytes {v6 : Bool} {s : PrefixDesc} (h : s.WF v6) : s.bytes.length = s.len := by
  rw [PrefixDesc.bytes, length_tlvBytes16, PrefixDesc.length_value h, PrefixDesc.len]
theorem PrefixDesc.write_eq {v6 : Bool} {s : PrefixDesc} (h : s.WF v6) :
    (s.write : Res ε Bytes) = .ok s.bytes :=
  tlvWrite16_ok rfl (PrefixDesc.length_value h) h.1

theorem readsAll_prefixDescBody {v6 : Bool} {s : PrefixDesc} (h : s.WF v6) (o : Nat) (l : UInt16) :
    ReadsAll (prefixDescBody v6 o s.code l) s s.value := by
  cases s with
  | multiTopology l => exact (readsAll_mtIds h.2).map _
  | ospfRouteType t =>
    refine ReadsAll.map _ (Reads.all ?_)
    refine Reads.peekU8 ?_
    rw [if_pos h.2]
    exact (reads_u8 t).mapErr _
  | ipReachability n =>
    cases n with
    | v4 n =>
      obtain ⟨_, rfl, hc⟩ := h
      exact ReadsAll.map _ ((((reads_net (Or.inl rfl) hc).mapErr _).all).map _)
    | v6 n =>
      obtain ⟨_, rfl, hc⟩ := h
      exact ReadsAll.map _ ((((reads_net (Or.inr rfl) hc).mapErr _).all).map _)
  | unknown c v =>
    obtain ⟨_, h1, h2⟩ := h
    show ReadsAll (prefixDescBody v6 o c l) _ v
    unfold prefixDescBody
    iterate 3 refine ReadsAll.ite_neg (by rintro rfl; simp at h2) ?_
    refine ReadsAll.ite_neg (by omega) ?_
    exact (readsAll_rest v).map _

theorem reads_prefixDesc {v6 : Bool} {s : PrefixDesc} (h : s.WF v6) : Reads (parsePrefixDesc v6) s s.bytes := by
  refine reads_tlv16 ?_ fun o => readsAll_prefixDescBody h o _
  rw [PrefixDesc.length_value h]; have := h.1; omega

/-! ## NLRI values -/

def LsValue.bytes : LsValue → Bytes
  | node p i d => p :: (u64be i ++ nodeDescBytes 256 d)
  | link p i l r ds =>
    p :: (u64be i ++ (nodeDescBytes 256 l ++ (nodeDescBytes 257 r ++ (ds.map LinkDesc.bytes).flatten)))
  | prefix4 p i d ps | prefix6 p i d ps =>
    p :: (u64be i ++ (nodeDescBytes 256 d ++ (ps.map PrefixDesc.bytes).flatten))
  | unknown _ v => v

/-- protocol identifiers are defined ones, descriptors are well formed, an opaque value has one of the two
types without a parser of their own -/
def LsValue.WF : LsValue → Prop
  | node p _ d => lsProtocolOk p = true ∧ NodeDescWF d
  | link p _ l r ds => lsProtocolOk p = true ∧ NodeDescWF l ∧ NodeDescWF r ∧ ∀ d ∈ ds, d.WF
  | prefix4 p _ d ps => lsProtocolOk p = true ∧ NodeDescWF d ∧ ∀ x ∈ ps, x.WF false
  | prefix6 p _ d ps => lsProtocolOk p = true ∧ NodeDescWF d ∧ ∀ x ∈ ps, x.WF true
  | unknown c _ => c = 5 ∨ c = 6

theorem LsValue.length_bytes {v : LsValue} (h : v.WF) : v.bytes.length = v.len := by
  cases v with
  | node p i d => simp [LsValue.bytes, LsValue.len, length_nodeDescBytes]; omega
  | link p i l r ds =>
    simp only [LsValue.bytes, LsValue.len, List.length_cons, List.length_append, length_nodeDescBytes, length_u64be,
      length_flatten_sum LinkDesc.bytes LinkDesc.len ds fun d _ => d.length_bytes]
    omega
  | prefix4 p i d ps =>
    simp only [LsValue.bytes, LsValue.len, List.length_cons, List.length_append, length_nodeDescBytes, length_u64be,
      length_flatten_sum PrefixDesc.bytes PrefixDesc.len ps fun x hx => PrefixDesc.length_bytes (h.2.2 x hx)]
    omega
  | prefix6 p i d ps =>
    simp only [LsValue.bytes, LsValue.len, List.length_cons, List.length_append, length_nodeDescBytes, length_u64be,
      length_flatten_sum PrefixDesc.bytes PrefixDesc.len ps fun x hx => PrefixDesc.length_bytes (h.2.2 x hx)]
    omega
  | unknown => rfl

theorem LsValue.write_eq {v : LsValue} (h : v.WF) : (v.write : Res ε Bytes) = .ok v.bytes := by
  cases v with
  | node p i d => simp only [LsValue.write, LsValue.bytes, writeNodeDesc_eq h.2, Res.cat_ok]; rfl
  | link p i l r ds =>
    simp only [LsValue.write, LsValue.bytes, writeNodeDesc_eq h.2.1, writeNodeDesc_eq h.2.2.1,
      Res.catAll_ok fun d hd => LinkDesc.write_eq (h.2.2.2 d hd), Res.cat_ok]; rfl
  | prefix4 p i d ps =>
    simp only [LsValue.write, LsValue.bytes, writeNodeDesc_eq h.2.1,
      Res.catAll_ok fun d hd => PrefixDesc.write_eq (h.2.2 d hd), Res.cat_ok]; rfl
  | prefix6 p i d ps =>
    simp only [LsValue.write, LsValue.bytes, writeNodeDesc_eq h.2.1,
      Res.catAll_ok fun d hd => PrefixDesc.write_eq (h.2.2 d hd), Res.cat_ok]; rfl
  | unknown => rfl

theorem reads_lsProtocol {p : UInt8} (h : lsProtocolOk p = true) : Reads parseLsProtocol p [p] := by
  refine Reads.peekU8 ?_
  rw [if_pos h]
  exact (reads_u8 p).mapErr _

theorem reads_lsProtocol' {p : UInt8} (h : lsProtocolOk p = true) : Reads parseLsProtocol' p [p] := by
  refine Reads.u8_cons ?_
  rw [if_pos h]
  exact Reads.pure p

theorem bytes_ne_nil_of_len {w : Bytes} {n : Nat} (h : w.length = 4 + n) : w ≠ [] := by
  intro e; rw [e] at h; simp at h; omega

theorem readsAll_lsValue {v : LsValue} (h : v.WF) : ReadsAll (parseLsValue v.code) v v.bytes := by
  cases v with
  | node p i d =>
    refine Reads.all ?_
    show Reads parseLsNode _ ([p] ++ _)
    unfold parseLsNode
    refine Reads.bind (reads_lsProtocol h.1) (Reads.bind ((reads_u64 i).mapErr _) ?_)
    exact Reads.bind_last (reads_nodeDesc (Or.inl rfl) h.2) (Reads.pure _)
  | link p i l r ds =>
    show ReadsAll parseLsLink _ ([p] ++ _)
    unfold parseLsLink
    refine ReadsAll.bind (reads_lsProtocol h.1) (ReadsAll.bind ((reads_u64 i).mapErr _) ?_)
    refine ReadsAll.bind (reads_nodeDesc (Or.inl rfl) h.2.1) (ReadsAll.bind (reads_nodeDesc (Or.inr rfl) h.2.2.1) ?_)
    exact ReadsAll.bind_all (ReadsAll.many (fun d hd => reads_linkDesc (h.2.2.2 d hd))
      fun d _ => bytes_ne_nil_of_len d.length_bytes) (Reads.pure _)
  | prefix4 p i d ps =>
    show ReadsAll (parseLsPrefix false) _ ([p] ++ _)
    unfold parseLsPrefix
    refine ReadsAll.bind (reads_lsProtocol' h.1) (ReadsAll.bind ((reads_u64 i).mapErr _) ?_)
    refine ReadsAll.bind (reads_nodeDesc (Or.inl rfl) h.2.1) ?_
    exact ReadsAll.bind_all (ReadsAll.many (fun d hd => reads_prefixDesc (h.2.2 d hd))
      fun d hd => bytes_ne_nil_of_len (PrefixDesc.length_bytes (h.2.2 d hd))) (Reads.pure _)
  | prefix6 p i d ps =>
    show ReadsAll (parseLsPrefix true) _ ([p] ++ _)
    unfold parseLsPrefix
    refine ReadsAll.bind (reads_lsProtocol' h.1) (ReadsAll.bind ((reads_u64 i).mapErr _) ?_)
    refine ReadsAll.bind (reads_nodeDesc (Or.inl rfl) h.2.1) ?_
    exact ReadsAll.bind_all (ReadsAll.many (fun d hd => reads_prefixDesc (h.2.2 d hd))
      fun d hd => bytes_ne_nil_of_len (PrefixDesc.length_bytes (h.2.2 d hd))) (Reads.pure _)
  | unknown c v =>
    rcases h with rfl | rfl <;> exact (readsAll_rest v).map _

theorem LsValue.typeOk {v : LsValue} (h : v.WF) : lsTypeOk v.code = true := by
  cases v with
  | unknown c v => rcases h with rfl | rfl <;> rfl
  | _ => rfl

theorem reads_lsType {t : UInt16} (h : lsTypeOk t = true) : Reads parseLsType t (u16be t) := by
  unfold parseLsType
  refine Reads.bind_last ((reads_u16 t).mapErr _) ?_
  rw [if_pos h]; exact Reads.pure t

theorem reads_lsPathId {id : Option UInt32} {ap : Bool} (h : id.isSome = ap) :
    Reads (lsPathId ap) id (writePathId id) := by
  subst h
  cases id with
  | none => exact Reads.pure none
  | some v => exact Reads.map some ((reads_u32 v).mapErr _)

theorem length_writePathId (p : Option UInt32) : (writePathId p).length = lenPathId p := by
  cases p <;> simp [writePathId, lenPathId]

/-! ## NLRI -/

def LsNlri.bytes (n : LsNlri) : Bytes := writePathId n.pathId ++ tlvBytes16 n.value.code n.value.bytes
def LsNlri.WF (ap : Bool) (n : LsNlri) : Prop := n.pathId.isSome = ap ∧ n.value.WF ∧ n.len ≤ 65535
def LsVpnNlri.bytes (n : LsVpnNlri) : Bytes :=
  writePathId n.pathId ++ tlvBytes16 n.value.code (n.rd.write ++ n.value.bytes)
def LsVpnNlri.WF (ap : Bool) (n : LsVpnNlri) : Prop := n.pathId.isSome = ap ∧ n.value.WF ∧ n.len ≤ 65535

theorem LsNlri.length_bytes {ap : Bool} {n : LsNlri} (h : n.WF ap) : n.bytes.length = n.len := by
  rw [LsNlri.bytes, List.length_append, length_writePathId, length_tlvBytes16, LsValue.length_bytes h.2.1,
    LsNlri.len]
  omega

theorem LsVpnNlri.length_bytes {ap : Bool} {n : LsVpnNlri} (h : n.WF ap) : n.bytes.length = n.len := by
  rw [LsVpnNlri.bytes, List.length_append, length_writePathId, length_tlvBytes16, List.length_append,
    LsValue.length_bytes h.2.1, LsVpnNlri.len]
  simp [Rd.write]; omega

/-- the `u16` arithmetic of the NLRI header -/
theorem ls_head {t : UInt16} {id : Option UInt32} {len : Nat} {w : Res ε Bytes} {v : Bytes} (hw : w = .ok v)
    (hv : v.length = len) (h : 4 + lenPathId id + len ≤ 65535) :
    (if UInt16.ofNat (4 + lenPathId id + len) < UInt16.ofNat (lenPathId id) then .fault .panic
      else Res.cat (tlvHead16 t (UInt16.ofNat (4 + lenPathId id + len) - UInt16.ofNat (lenPathId id)).toNat) w)
      = Res.ok (tlvBytes16 t v) := by
  have hp : lenPathId id ≤ 4 := by unfold lenPathId; split <;> omega
  have e1 := UInt16.toNat_ofNat_le h
  have e2 := UInt16.toNat_ofNat_le (n := lenPathId id) (by omega)
  have hle : UInt16.ofNat (lenPathId id) ≤ UInt16.ofNat (4 + lenPathId id + len) := by
    rw [UInt16.le_iff_toNat_le, e1, e2]; omega
  rw [if_neg (by rw [UInt16.lt_iff_toNat_lt, e1, e2]; omega), UInt16.toNat_sub_of_le _ _ hle, e1, e2,
    show 4 + lenPathId id + len - lenPathId id = 4 + len by omega]
  exact tlvWrite16_ok hw hv (by omega)

theorem LsNlri.write_eq {ap : Bool} {n : LsNlri} (h : n.WF ap) : (n.write : Res ε Bytes) = .ok n.bytes := by
  have := ls_head (ε := ε) (t := n.value.code) (id := n.pathId) (LsValue.write_eq h.2.1)
    (LsValue.length_bytes h.2.1) h.2.2
  rw [LsNlri.write, LsNlri.len, this, Res.cat_ok, LsNlri.bytes]

theorem LsVpnNlri.write_eq {ap : Bool} {n : LsVpnNlri} (h : n.WF ap) : (n.write : Res ε Bytes) = .ok n.bytes := by
  have hl : n.len = 4 + lenPathId n.pathId + (8 + n.value.len) := by rw [LsVpnNlri.len]; omega
  have hv : (n.rd.write ++ n.value.bytes).length = 8 + n.value.len := by
    rw [List.length_append, LsValue.length_bytes h.2.1]; simp [Rd.write]
  have := ls_head (ε := ε) (t := n.value.code) (id := n.pathId)
    (w := Res.cat (.ok n.rd.write) n.value.write) (by rw [LsValue.write_eq h.2.1, Res.cat_ok]) hv
    (by have := h.2.2; rw [hl] at this; exact this)
  rw [LsVpnNlri.write, hl, this, Res.cat_ok, LsVpnNlri.bytes]

theorem reads_lsNlri {ap : Bool} {n : LsNlri} (h : n.WF ap) : Reads (parseLsNlri ap) n n.bytes := by
  have hl := LsValue.length_bytes h.2.1
  have hb := h.2.2
  rw [LsNlri.len] at hb
  unfold parseLsNlri LsNlri.bytes tlvBytes16
  refine Reads.bind (reads_lsPathId h.1) (Reads.bind (reads_lsType (LsValue.typeOk h.2.1)) ?_)
  refine Reads.bind ((reads_u16 _).mapErr _) ?_
  rw [← List.append_nil n.value.bytes]
  refine Reads.takeSlice (by rw [List.append_nil, UInt16.toNat_ofNat_le (by omega)]) fun o' => ?_
  exact ReadsAll.onSub (readsAll_lsValue h.2.1) fun s' _ => Reads.pure _

theorem reads_lsVpnNlri {ap : Bool} {n : LsVpnNlri} (h : n.WF ap) : Reads (parseLsVpnNlri ap) n n.bytes := by
  have hl := LsValue.length_bytes h.2.1
  have hb := h.2.2
  rw [LsVpnNlri.len] at hb
  have hv : (n.rd.write ++ n.value.bytes).length = 8 + n.value.len := by
    rw [List.length_append, hl]; simp [Rd.write]
  unfold parseLsVpnNlri LsVpnNlri.bytes tlvBytes16
  refine Reads.bind (reads_lsPathId h.1) (Reads.bind (reads_lsType (LsValue.typeOk h.2.1)) ?_)
  refine Reads.bind ((reads_u16 _).mapErr _) ?_
  rw [← List.append_nil (n.rd.write ++ n.value.bytes)]
  refine Reads.takeSlice (by rw [List.append_nil, UInt16.toNat_ofNat_le (by omega)]) fun o' => ?_
  refine ReadsAll.onSub (a := (n.rd, n.value)) ?_ fun s' _ => Reads.pure _
  exact ReadsAll.bind ((reads_rd n.rd).mapErr _) (ReadsAll.bind_all (readsAll_lsValue h.2.1) (Reads.pure _))

/-! ## Safety -/

theorem safe_parseMtIds : Safe 0 parseMtIds :=
  safe_many ((safe_bind_l (safe_mapErr _ safe_readU16) fun _ => safe_pure _).mono (by omega))
theorem safe_nodeSubBody (o : Nat) (t l : UInt16) : Safe 0 (nodeSubBody o t l) := by
  unfold nodeSubBody lsU32; psafe [safe_restBytes _]
theorem safe_parseNodeSub : Safe 4 parseNodeSub := safe_tlv16 safe_nodeSubBody
theorem safe_parseNodeDesc (w : UInt16) : Safe 0 (parseNodeDesc w) := by
  unfold parseNodeDesc; psafe [safe_many (safe_parseNodeSub.mono (by omega))]
theorem safe_linkDescBody (o : Nat) (t l : UInt16) : Safe 0 (linkDescBody o t l) := by
  unfold linkDescBody lsU32 lsU128; psafe [safe_restBytes _, safe_parseMtIds]
theorem safe_parseLinkDesc : Safe 4 parseLinkDesc := safe_tlv16 safe_linkDescBody
theorem safe_prefixDescBody (v6 : Bool) (o : Nat) (t l : UInt16) : Safe 0 (prefixDescBody v6 o t l) := by
  unfold prefixDescBody parseOspfRoute parseReach
  psafe [safe_restBytes _, safe_parseMtIds, (safe_parseNet _).zero]
theorem safe_parsePrefixDesc (v6 : Bool) : Safe 4 (parsePrefixDesc v6) := safe_tlv16 (safe_prefixDescBody v6)
theorem safe_parseLsProtocol : Safe 0 parseLsProtocol := by unfold parseLsProtocol; psafe
theorem safe_parseLsProtocol' : Safe 0 parseLsProtocol' := by unfold parseLsProtocol'; psafe
theorem safe_parseLsNode : Safe 0 parseLsNode := by
  unfold parseLsNode; psafe [safe_parseLsProtocol, safe_parseNodeDesc _]
theorem safe_parseLsLink : Safe 0 parseLsLink := by
  unfold parseLsLink
  psafe [safe_parseLsProtocol, safe_parseNodeDesc _, safe_many (safe_parseLinkDesc.mono (by omega))]
theorem safe_parseLsPrefix (v6 : Bool) : Safe 0 (parseLsPrefix v6) := by
  unfold parseLsPrefix
  psafe [safe_parseLsProtocol', safe_parseNodeDesc _, safe_many ((safe_parsePrefixDesc _).mono (by omega))]
theorem safe_parseLsValue (t : UInt16) : Safe 0 (parseLsValue t) := by
  unfold parseLsValue
  psafe [safe_restBytes _, safe_parseLsNode, safe_parseLsLink, safe_parseLsPrefix _]

/-- from the third octet of a buffer on the error offset does not underflow -/
theorem safeAt_parseLsType : SafeAt 2 2 parseLsType := by
  unfold parseLsType
  refine safeAt_bind (k := 0) ((safe_mapErr _ safe_readU16).at 2) fun t => ?_
  refine safeAt_ite (fun _ => (safe_pure t).at _) fun _ => ?_
  refine ⟨fun r hr => ?_⟩
  rw [bind_ok (getOffset_run r), if_neg (by omega)]
  trivial

theorem safe_lsPathId (ap : Bool) : Safe 0 (lsPathId ap) := by unfold lsPathId; psafe

theorem safeAt_parseLsNlri (ap : Bool) : SafeAt 2 1 (parseLsNlri ap) := by
  unfold parseLsNlri
  refine SafeAt.mono (k := 2) ?_ (by omega)
  refine safeAt_bind_r ((safe_lsPathId ap).at _) fun id => ?_
  refine safeAt_bind (k := 0) safeAt_parseLsType fun t => Safe.at ?_ _
  psafe [safe_parseLsValue _]

theorem safeAt_parseLsVpnNlri (ap : Bool) : SafeAt 2 1 (parseLsVpnNlri ap) := by
  unfold parseLsVpnNlri
  refine SafeAt.mono (k := 2) ?_ (by omega)
  refine safeAt_bind_r ((safe_lsPathId ap).at _) fun id => ?_
  refine safeAt_bind (k := 0) safeAt_parseLsType fun t => Safe.at ?_ _
  psafe [safe_parseLsValue _, safe_parseRd.zero]

end Verif.Bgp
