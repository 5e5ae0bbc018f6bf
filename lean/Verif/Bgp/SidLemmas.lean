import Verif.Bgp.Sid
import Verif.Bgp.LsAttrLemmas
/-!
# BGP Prefix-SID attribute: round trip and safety
-/
namespace Verif.Bgp
open Parser

theorem tlvBytes8_ne_nil (t : UInt8) (v : Bytes) : tlvBytes8 t v ≠ [] := by simp [tlvBytes8]

/-! ## Sub-sub-TLVs -/

def SidSubSub.WF (s : SidSubSub) : Prop :=
  s.len ≤ 65535 ∧ match s with
    | sidStructure .. => True
    | unknown c _ => c ≠ 0 ∧ c ≠ 1 ∧ c ≠ 255
def SidSubSub.bytes (s : SidSubSub) : Bytes := tlvBytes8 s.code s.value

theorem SidSubSub.len_eq (s : SidSubSub) : s.len = 3 + s.value.length := by cases s <;> rfl
theorem SidSubSub.length_bytes (s : SidSubSub) : s.bytes.length = s.len := by
  rw [SidSubSub.bytes, length_tlvBytes8, SidSubSub.len_eq]
theorem SidSubSub.write_eq {s : SidSubSub} (h : s.WF) : s.write = .ok s.bytes := by
  have := h.1
  rw [SidSubSub.len_eq] at this
  unfold SidSubSub.write
  rw [SidSubSub.len_eq]
  exact tlvWrite8_ok rfl rfl (by omega)

theorem reads_sidSubSub {s : SidSubSub} (h : s.WF) : Reads parseSidSubSub s s.bytes := by
  have hl := h.1
  rw [SidSubSub.len_eq] at hl
  refine reads_tlv8 (by omega) fun o => ?_
  cases s with
  | sidStructure a b c d e f =>
    refine ReadsAll.ite_pos rfl (Reads.all ?_)
    show Reads _ _ [a, b, c, d, e, f]
    preads
  | unknown c v =>
    obtain ⟨_, h0, h1, h2⟩ := h
    refine ReadsAll.ite_neg h1 (ReadsAll.ite_neg (fun e => e.elim h0 h2) ?_)
    exact (readsAll_rest v).map _

/-! ## Sub-TLVs -/

def SidSub.WF (s : SidSub) : Prop :=
  s.len ≤ 65535 ∧ match s with
    | information _ _ _ _ _ l => ∀ x ∈ l, x.WF
    | unknown c _ => c ≠ 0 ∧ c ≠ 1 ∧ c ≠ 255
def SidSub.valueBytes : SidSub → Bytes
  | information r1 sid fl eb r2 l =>
    r1 :: (u128be sid ++ (fl :: (u16be eb ++ (r2 :: (l.map SidSubSub.bytes).flatten))))
  | unknown _ v => v
def SidSub.bytes (s : SidSub) : Bytes := tlvBytes8 s.code s.valueBytes

theorem SidSub.length_value (s : SidSub) : s.valueBytes.length = s.valueLen := by
  cases s with
  | information r1 sid fl eb r2 l =>
    have := length_flatten_sum SidSubSub.bytes SidSubSub.len l fun a _ => SidSubSub.length_bytes a
    simp only [SidSub.valueBytes, SidSub.valueLen, List.length_cons, List.length_append, length_u128be, length_u16be,
      this]
    omega
  | unknown c v => rfl
theorem SidSub.length_bytes (s : SidSub) : s.bytes.length = s.len := by
  rw [SidSub.bytes, length_tlvBytes8, SidSub.length_value, SidSub.len]
theorem SidSub.value_eq {s : SidSub} (h : s.WF) : s.value = .ok s.valueBytes := by
  cases s with
  | information r1 sid fl eb r2 l =>
    simp only [SidSub.value]
    rw [Res.catAll_ok fun a ha => SidSubSub.write_eq (h.2 a ha)]
    simp [SidSub.valueBytes]
  | unknown c v => rfl
theorem SidSub.write_eq {s : SidSub} (h : s.WF) : s.write = .ok s.bytes :=
  tlvWrite8_ok (SidSub.value_eq h) (SidSub.length_value s) (by have := h.1; unfold SidSub.len at this; omega)

theorem reads_sidSub {s : SidSub} (h : s.WF) : Reads parseSidSub s s.bytes := by
  have hl := h.1
  unfold SidSub.len at hl
  refine reads_tlv8 (by rw [SidSub.length_value]; omega) fun o => ?_
  cases s with
  | information r1 sid fl eb r2 l =>
    refine ReadsAll.ite_pos rfl ?_
    unfold sidInformation
    refine ReadsAll.cons ((reads_u8 _).mapErr _) ?_
    refine ReadsAll.bind ((reads_u128 _).mapErr _) ?_
    refine ReadsAll.cons ((reads_u8 _).mapErr _) ?_
    refine ReadsAll.bind ((reads_u16 _).mapErr _) ?_
    refine ReadsAll.cons ((reads_u8 _).mapErr _) ?_
    refine ReadsAll.bind_all (ReadsAll.mapErr _ ?_) (Reads.pure _)
    exact ReadsAll.many (fun a ha => reads_sidSubSub (h.2 a ha)) fun a _ => tlvBytes8_ne_nil _ _
  | unknown c v =>
    obtain ⟨_, h0, h1, h2⟩ := h
    refine ReadsAll.ite_neg h1 (ReadsAll.ite_neg (fun e => e.elim h0 h2) ?_)
    exact (readsAll_rest v).map _

/-! ## TLVs -/

def Srgb.WF (s : Srgb) : Prop := s.label.length = 3 ∧ s.range.length = 3
theorem Srgb.length_write {s : Srgb} (h : s.WF) : s.write.length = 6 := by simp [Srgb.write, h.1, h.2]
theorem reads_srgb {s : Srgb} (h : s.WF) : Reads parseSrgb s s.write := by
  unfold parseSrgb Srgb.write
  refine Reads.bind ((reads_array h.1).mapErr _) ?_
  exact Reads.bind_last ((reads_array h.2).mapErr _) (Reads.pure _)

def SidTlv.WF (s : SidTlv) : Prop :=
  s.len ≤ 65535 ∧ match s with
    | labelIndex .. => True
    | originator _ l => ∀ x ∈ l, x.WF
    | serviceL3 _ l | serviceL2 _ l => ∀ x ∈ l, x.WF
    | unknown c _ => c ≠ 0 ∧ c ≠ 1 ∧ c ≠ 2 ∧ c ≠ 3 ∧ c ≠ 5 ∧ c ≠ 6 ∧ c ≠ 255
def SidTlv.valueBytes : SidTlv → Bytes
  | labelIndex f i => 0 :: (u16be f ++ u32be i)
  | originator f l => u16be f ++ (l.map Srgb.write).flatten
  | serviceL3 r l | serviceL2 r l => r :: (l.map SidSub.bytes).flatten
  | unknown _ v => v
def SidTlv.bytes (s : SidTlv) : Bytes := tlvBytes8 s.code s.valueBytes

theorem length_sidSubs (l : List SidSub) : (l.map SidSub.bytes).flatten.length = (l.map SidSub.len).sum :=
  length_flatten_sum SidSub.bytes SidSub.len l fun a _ => SidSub.length_bytes a

theorem SidTlv.length_value {s : SidTlv} (h : s.WF) : s.valueBytes.length = s.valueLen := by
  cases s with
  | labelIndex f i => simp [SidTlv.valueBytes, SidTlv.valueLen]
  | originator f l =>
    have := length_flatten_const Srgb.write 6 l fun a ha => Srgb.length_write (h.2 a ha)
    simp only [SidTlv.valueBytes, SidTlv.valueLen, List.length_append, length_u16be, this]
  | serviceL3 r l => simp only [SidTlv.valueBytes, SidTlv.valueLen, List.length_cons, length_sidSubs]; omega
  | serviceL2 r l => simp only [SidTlv.valueBytes, SidTlv.valueLen, List.length_cons, length_sidSubs]; omega
  | unknown c v => rfl
theorem SidTlv.length_bytes {s : SidTlv} (h : s.WF) : s.bytes.length = s.len := by
  rw [SidTlv.bytes, length_tlvBytes8, SidTlv.length_value h, SidTlv.len]
theorem SidTlv.value_eq {s : SidTlv} (h : s.WF) : s.value = .ok s.valueBytes := by
  cases s with
  | serviceL3 r l =>
    simp only [SidTlv.value]
    rw [Res.catAll_ok fun a ha => SidSub.write_eq (h.2 a ha)]
    rfl
  | serviceL2 r l =>
    simp only [SidTlv.value]
    rw [Res.catAll_ok fun a ha => SidSub.write_eq (h.2 a ha)]
    rfl
  | _ => rfl
theorem SidTlv.write_eq {s : SidTlv} (h : s.WF) : s.write = .ok s.bytes :=
  tlvWrite8_ok (SidTlv.value_eq h) (SidTlv.length_value h) (by have := h.1; unfold SidTlv.len at this; omega)

theorem readsAll_service {mk : UInt8 → List SidSub → SidTlv} (r : UInt8) {l : List SidSub} (h : ∀ x ∈ l, x.WF) :
    ReadsAll (sidService mk) (mk r l) (r :: (l.map SidSub.bytes).flatten) := by
  unfold sidService
  refine ReadsAll.cons ((reads_u8 _).mapErr _) ?_
  refine ReadsAll.bind_all (ReadsAll.mapErr _ ?_) (Reads.pure _)
  exact ReadsAll.many (fun a ha => reads_sidSub (h a ha)) fun a _ => tlvBytes8_ne_nil _ _

theorem reads_sidTlv {s : SidTlv} (h : s.WF) : Reads parseSidTlv s s.bytes := by
  have hl := h.1
  unfold SidTlv.len at hl
  refine reads_tlv8 (by rw [SidTlv.length_value h]; omega) fun o => ?_
  cases s with
  | labelIndex f i =>
    refine ReadsAll.ite_pos rfl (Reads.all ?_)
    unfold sidLabelIndex
    show Reads _ _ (0 :: (u16be f ++ u32be i))
    preads
  | originator f l =>
    refine ReadsAll.ite_neg (by simp [SidTlv.code]) (ReadsAll.ite_pos rfl ?_)
    unfold sidOriginator
    refine ReadsAll.bind ((reads_u16 _).mapErr _) ?_
    refine ReadsAll.bind_all (ReadsAll.mapErr _ ?_) (Reads.pure _)
    refine ReadsAll.many (fun a ha => reads_srgb (h.2 a ha)) fun a ha e => ?_
    have := Srgb.length_write (h.2 a ha)
    rw [e] at this; simp at this
  | serviceL3 r l => exact readsAll_service r h.2
  | serviceL2 r l => exact readsAll_service r h.2
  | unknown c v =>
    obtain ⟨_, h0, h1, h2, h3, h5, h6, h255⟩ := h
    refine ReadsAll.ite_neg h1 (ReadsAll.ite_neg h3 (ReadsAll.ite_neg h5 (ReadsAll.ite_neg h6 ?_)))
    refine ReadsAll.ite_neg (fun e => e.elim h0 fun e => e.elim h255 h2) ?_
    exact (readsAll_rest v).map _

/-! ## The attribute -/

def SidWF (ext : Bool) (l : List SidTlv) : Prop :=
  (∀ a ∈ l, a.WF) ∧ lenSid l ≤ if ext then 65535 else 255
def sidBytes (l : List SidTlv) : Bytes := (l.map SidTlv.bytes).flatten

theorem length_sidBytes {ext : Bool} {l : List SidTlv} (h : SidWF ext l) : (sidBytes l).length = lenSid l :=
  length_flatten_sum _ _ _ fun a ha => SidTlv.length_bytes (h.1 a ha)

theorem writeSid_eq {ext : Bool} {l : List SidTlv} (h : SidWF ext l) : writeSid l = .ok (sidBytes l) :=
  Res.catAll_ok fun a ha => SidTlv.write_eq (h.1 a ha)

theorem reads_sid {ext : Bool} {l : List SidTlv} (h : SidWF ext l) :
    Reads (parseSid ext) l
      ((if ext then u16be (UInt16.ofNat (lenSid l)) else [UInt8.ofNat (lenSid l)]) ++ sidBytes l) := by
  have hl := length_sidBytes h
  rw [← hl]
  refine attrSlice_reads (by rw [hl]; exact h.2) fun o => ?_
  refine ReadsAll.onSub (ReadsAll.mapErr _ ?_) fun s' _ => Reads.pure l
  exact ReadsAll.many (fun a ha => reads_sidTlv (h.1 a ha)) fun a _ => tlvBytes8_ne_nil _ _

/-! ## Safety -/

theorem safe_parseSidSubSub : Safe 1 parseSidSubSub := by
  refine (safe_tlv8 fun o t l => ?_).mono (by omega)
  unfold sidSubSubBody
  psafe [safe_restBytes _]
theorem safe_sidInformation : Safe 0 sidInformation := by
  unfold sidInformation
  psafe [safe_many safe_parseSidSubSub]
theorem safe_parseSidSub : Safe 1 parseSidSub := by
  refine (safe_tlv8 fun o t l => ?_).mono (by omega)
  unfold sidSubBody
  psafe [safe_restBytes _, safe_sidInformation]
theorem safe_parseSrgb : Safe 1 parseSrgb := by
  unfold parseSrgb
  exact (safe_bind_l (safe_mapErr _ (safe_readArray 3)) fun l => by psafe).mono (by omega)
theorem safe_sidLabelIndex : Safe 0 sidLabelIndex := by unfold sidLabelIndex; psafe
theorem safe_sidOriginator : Safe 0 sidOriginator := by
  unfold sidOriginator; psafe [safe_many safe_parseSrgb]
theorem safe_sidService (mk : UInt8 → List SidSub → SidTlv) : Safe 0 (sidService mk) := by
  unfold sidService; psafe [safe_many safe_parseSidSub]
theorem safe_parseSidTlv : Safe 1 parseSidTlv := by
  refine (safe_tlv8 fun o t l => ?_).mono (by omega)
  unfold sidTlvBody
  psafe [safe_restBytes _, safe_sidLabelIndex, safe_sidOriginator, safe_sidService _]
theorem safe_parseSid (ext : Bool) : Safe 1 (parseSid ext) := by
  unfold parseSid
  refine safe_bind_l (safe_attrSlice _ _) fun d => ?_
  psafe [safe_many safe_parseSidTlv]

end Verif.Bgp
