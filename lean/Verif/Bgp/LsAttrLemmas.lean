import Verif.Bgp.LsAttr
import Verif.Bgp.LsLemmas
import Verif.Bgp.CapsLemmas
/-!
# BGP-LS path attribute: round trip and safety
-/
namespace Verif.Bgp
open Parser

/-- the octets of the value, for the values that are written without error -/
def LsAttr.valueBytes (a : LsAttr) : Bytes := match a.value with | .ok b => b | _ => []
def LsAttr.bytes (a : LsAttr) : Bytes := tlvBytes16 a.code a.valueBytes

/-- the codes with a parser of their own, I:1713-1743 -/
def lsAttrCodes : List Nat :=
  [263, 1024, 1025, 1026, 1027, 1028, 1029, 1030, 1031, 1088, 1089, 1090, 1091, 1092, 1093, 1094, 1095, 1096,
    1097, 1098, 1101, 1102, 1103, 1152, 1153, 1154, 1155, 1156, 1157]

def PeerSid.WF : PeerSid → Prop
  | label f _ l => hasBit f 0x80 = true ∧ l.length = 3
  | index f _ _ => hasBit f 0x80 = false

/-- Values whose encoding is well formed. Excluded are the four kinds whose encoding or decoding is wrong:
link protection types and OSPF forwarding addresses (the octets written do not match the length field), and
non-empty route tags (never read back). -/
def LsAttr.WF (a : LsAttr) : Prop :=
  a.valueLen + 4 ≤ 65535 ∧ match a with
    | unreserved f => f.length = 8
    | linkProtection .. => False
    | ospfForwarding _ => False
    | routeTag v => v = []
    | extRouteTag v => v = []
    | multiTopology l => ∀ v ∈ l, v.toNat < 4096
    | nodeName s => (utf8 s).length ≤ 255
    | peerNode s | peerAdj s | peerSet s => s.WF
    | unknown c _ => 255 < c.toNat ∧ c.toNat ∉ lsAttrCodes
    | _ => True

theorem PeerSid.length_write {s : PeerSid} (h : s.WF) : s.write.length = s.len := by
  cases s with
  | label f w l => simp [PeerSid.write, PeerSid.len, h.2]
  | index f w i => simp [PeerSid.write, PeerSid.len]

theorem length_words (l : List UInt32) : (l.map u32be).flatten.length = 4 * l.length :=
  length_flatten_const _ 4 _ fun _ _ => length_u32be _

theorem LsAttr.value_ok {a : LsAttr} (h : a.WF) : a.value = .ok a.valueBytes ∧ a.valueBytes.length = a.valueLen := by
  have hv : a.value = .ok a.valueBytes := by
    cases a with
    | nodeName s =>
      have := h.2
      unfold LsAttr.valueBytes
      simp only [LsAttr.value]
      rw [if_neg (by simp only at this; omega)]
    | _ => rfl
  refine ⟨hv, ?_⟩
  cases a with
  | unreserved f => show (f.map u32be).flatten.length = _; rw [length_words, h.2]; rfl
  | srlg f => exact length_words f
  | linkProtection => exact h.2.elim
  | ospfForwarding => exact h.2.elim
  | routeTag v => obtain ⟨_, rfl⟩ := h; rfl
  | extRouteTag v => obtain ⟨_, rfl⟩ := h; rfl
  | multiTopology l => exact length_writeMtIds l
  | nodeName s =>
    have := h.2
    simp only at this
    unfold LsAttr.valueBytes LsAttr.valueLen
    simp only [LsAttr.value]
    rw [if_neg (by omega)]
  | peerNode s => exact PeerSid.length_write h.2
  | peerAdj s => exact PeerSid.length_write h.2
  | peerSet s => exact PeerSid.length_write h.2
  | _ => simp [LsAttr.valueBytes, LsAttr.valueLen, LsAttr.value]

theorem LsAttr.length_bytes {a : LsAttr} (h : a.WF) : a.bytes.length = a.len := by
  rw [LsAttr.bytes, length_tlvBytes16, (LsAttr.value_ok h).2, LsAttr.len]

theorem LsAttr.write_eq {a : LsAttr} (h : a.WF) : a.write = .ok a.bytes :=
  tlvWrite16_ok (LsAttr.value_ok h).1 (LsAttr.value_ok h).2 h.1

theorem readsAll_lsName (s : String) (h : (utf8 s).length ≤ 65535) :
    ReadsAll (parseLsName (UInt16.ofNat (utf8 s).length)) s (utf8 s) := by
  unfold parseLsName
  refine ReadsAll.getOffset fun o => Reads.all ?_
  exact Reads.bind_last ((reads_bytes (UInt16.toNat_ofNat_le h).symm).mapErr _)
    (Reads.ofOption (ofUtf8_utf8 s))

theorem reads_bandwidths (l : List UInt32) : Reads (parseBandwidths l.length) l (l.map u32be).flatten := by
  induction l with
  | nil => exact Reads.pure []
  | cons v l ih =>
    refine Reads.bind ((reads_u32 v).mapErr _) ?_
    exact Reads.bind_last ih (Reads.pure _)

theorem readsAll_words (l : List UInt32) : ReadsAll parseWords l (l.map u32be).flatten :=
  ReadsAll.many (fun v _ => (reads_u32 v).mapErr _)
    fun v _ e => by have := length_u32be v; rw [e] at this; simp at this

theorem readsAll_peerSid {s : PeerSid} (h : s.WF) : ReadsAll (parsePeerSid (UInt16.ofNat s.len)) s s.write := by
  cases s with
  | label f w l =>
    refine Reads.all ?_
    unfold parsePeerSid PeerSid.write
    refine Reads.getOffset fun o => Reads.u8_cons (Reads.u8_cons (Reads.bind ((reads_u16 0).mapErr _) ?_))
    refine Reads.ite_pos ⟨rfl, h.1⟩ ?_
    exact Reads.bind_last ((reads_array h.2).mapErr _) (Reads.pure _)
  | index f w i =>
    refine Reads.all ?_
    unfold parsePeerSid PeerSid.write
    refine Reads.getOffset fun o => Reads.u8_cons (Reads.u8_cons (Reads.bind ((reads_u16 0).mapErr _) ?_))
    refine Reads.ite_neg (fun e => by have := e.1; simp [PeerSid.len] at this) ?_
    refine Reads.ite_pos ⟨rfl, h⟩ ?_
    exact Reads.bind_last ((reads_u32 i).mapErr _) (Reads.pure _)

theorem nodeFlagsOf_word : ∀ a b c d e f : Bool,
    nodeFlagsOf (orBit a 0x80 ||| orBit b 0x40 ||| orBit c 0x20 ||| orBit d 0x10 ||| orBit e 0x08 ||| orBit f 0x04)
      = .nodeFlags a b c d e f := by
  intro a b c d e f; cases a <;> cases b <;> cases c <;> cases d <;> cases e <;> cases f <;> rfl
theorem igpFlagsOf_word : ∀ a b c d : Bool,
    igpFlagsOf (orBit a 0x80 ||| orBit b 0x40 ||| orBit c 0x20 ||| orBit d 0x10) = .igpFlags a b c d := by
  intro a b c d; cases a <;> cases b <;> cases c <;> cases d <;> rfl
theorem mplsMaskOf_word : ∀ a b : Bool, mplsMaskOf (orBit a 0x80 ||| orBit b 0x40) = .mplsMask a b := by
  intro a b; cases a <;> cases b <;> rfl

theorem _root_.Verif.ReadsAll.map_eq {ε α β : Type} {p : Parser ε α} {a : α} {b : β} {w : Bytes} {f : α → β} (h : ReadsAll p a w)
    (e : f a = b) : ReadsAll (f <$> p) b w := e ▸ h.map f

theorem readsAll_lsAttrBody {a : LsAttr} (h : a.WF) (o : Nat) :
    ReadsAll (lsAttrBody o a.code (UInt16.ofNat a.valueBytes.length)) a a.valueBytes := by
  have hv := LsAttr.value_ok h
  cases a with
  | localV4 v => exact ((reads_u32 v).mapErr _).all.map _
  | localV6 v => exact ((reads_u128 v).mapErr _).all.map _
  | remoteV4 v => exact ((reads_u32 v).mapErr _).all.map _
  | remoteV6 v => exact ((reads_u128 v).mapErr _).all.map _
  | color v => exact ((reads_u32 v).mapErr _).all.map _
  | maxBandwidth v => exact ((reads_u32 v).mapErr _).all.map _
  | maxReservable v => exact ((reads_u32 v).mapErr _).all.map _
  | unreserved f =>
    have := reads_bandwidths f
    rw [show f.length = 8 from h.2] at this
    exact this.all.map _
  | teMetric v => exact ((reads_u32 v).mapErr _).all.map _
  | linkProtection => exact h.2.elim
  | mplsMask a b => exact ((reads_u8 _).mapErr _).all.map_eq (mplsMaskOf_word a b)
  | igpMetric v => exact (readsAll_rest v).map _
  | srlg v => exact (readsAll_words v).map _
  | opaqueLink v => exact (readsAll_rest v).map _
  | linkName s =>
    have hl : (utf8 s).length ≤ 65535 := by have := h.1; simp only [LsAttr.valueLen] at this; omega
    exact (readsAll_lsName s hl).map _
  | igpFlags a b c d => exact ((reads_u8 _).mapErr _).all.map_eq (igpFlagsOf_word a b c d)
  | routeTag v => obtain ⟨_, rfl⟩ := h; exact (Reads.pure _).all
  | extRouteTag v => obtain ⟨_, rfl⟩ := h; exact (Reads.pure _).all
  | prefixMetric v => exact ((reads_u32 v).mapErr _).all.map _
  | ospfForwarding => exact h.2.elim
  | opaquePrefix v => exact (readsAll_rest v).map _
  | multiTopology l => exact ((readsAll_mtIds h.2).mapErr _).map _
  | nodeFlags a b c d e f => exact ((reads_u8 _).mapErr _).all.map_eq (nodeFlagsOf_word a b c d e f)
  | opaqueNode v => exact (readsAll_rest v).map _
  | nodeName s =>
    have hb : (LsAttr.nodeName s).valueBytes = utf8 s := by
      have := hv.1
      simp only [LsAttr.value] at this
      rw [if_neg (by have := h.2; simp only at this; omega)] at this
      exact (Res.ok.inj this).symm
    rw [hb]
    exact (readsAll_lsName s (by have := h.2; simp only at this; omega)).map _
  | isisArea v => exact (readsAll_rest v).map _
  | peerNode s =>
    have := readsAll_peerSid (s := s) h.2
    rw [← PeerSid.length_write h.2] at this
    exact this.map _
  | peerAdj s =>
    have := readsAll_peerSid (s := s) h.2
    rw [← PeerSid.length_write h.2] at this
    exact this.map _
  | peerSet s =>
    have := readsAll_peerSid (s := s) h.2
    rw [← PeerSid.length_write h.2] at this
    exact this.map _
  | unknown c v =>
    obtain ⟨_, h1, h2⟩ := h
    show ReadsAll (lsAttrBody o c _) _ v
    unfold lsAttrBody
    iterate 29 refine ReadsAll.ite_neg (by rintro rfl; simp [lsAttrCodes] at h2) ?_
    refine ReadsAll.ite_neg (by omega) ?_
    exact (readsAll_rest v).map _

theorem reads_lsAttr {a : LsAttr} (h : a.WF) : Reads parseLsAttr a a.bytes := by
  have hl := (LsAttr.value_ok h).2
  have hb := h.1
  have htag : ∀ {t : UInt16}, t = 1153 ∨ t = 1154 → a.code = t → a.valueBytes = [] := by
    intro t ht e
    cases a with
    | routeTag v => obtain ⟨_, rfl⟩ := h; rfl
    | extRouteTag v => obtain ⟨_, rfl⟩ := h; rfl
    | unknown c v =>
      obtain ⟨_, h1, h2⟩ := h
      exfalso
      subst e
      rcases ht with ht | ht <;> (simp only [LsAttr.code] at ht; subst ht; simp [lsAttrCodes] at h2)
    | _ => subst e; simp [LsAttr.code] at ht
  unfold parseLsAttr LsAttr.bytes tlvBytes16
  refine Reads.getOffset fun o => ?_
  refine Reads.bind ((reads_u16 _).mapErr _) ?_
  refine Reads.bind ((reads_u16 _).mapErr _) ?_
  rw [← List.append_nil a.valueBytes]
  refine Reads.takeSlice (by rw [List.append_nil, UInt16.toNat_ofNat_le (by omega)]) fun o' => ?_
  refine Reads.ite_neg (fun e => e.2 (htag (Or.inl rfl) e.1)) ?_
  refine Reads.ite_neg (fun e => e.2 (htag (Or.inr rfl) e.1)) ?_
  exact ReadsAll.onSub (by simpa using readsAll_lsAttrBody h o) fun s' _ => Reads.pure _

/-! ## Attribute lengths -/

theorem attrSlice_reads {ε β : Type} {g : ParseError → ε} {ext : Bool} {v : Bytes} {f : Reader → Parser ε β}
    {b : β} (hv : v.length ≤ if ext then 65535 else 255) (h : ∀ o, Reads (f ⟨v, o⟩) b []) :
    Reads (attrSlice g ext >>= f) b
      ((if ext then u16be (UInt16.ofNat v.length) else [UInt8.ofNat v.length]) ++ v) := by
  cases ext with
  | true =>
    have := UInt16.toNat_ofNat_le (n := v.length) (by simpa using hv)
    refine ⟨fun bs o => ?_⟩
    unfold attrSlice
    rw [if_pos rfl, if_pos rfl, List.append_assoc]
    have h1 := ((reads_u16 (UInt16.ofNat v.length)).mapErr g).run (v ++ bs) o
    rw [bind_run, bind_ok h1, mapErr_ok (takeSlice_append this.symm)]
    have := (h (o + (u16be (UInt16.ofNat v.length)).length)).run bs
      (o + (u16be (UInt16.ofNat v.length)).length + (UInt16.ofNat v.length).toNat)
    simp only [List.nil_append] at this ⊢
    rw [this]
    simp [*]; omega
  | false =>
    have := UInt8.toNat_ofNat_le (n := v.length) (by simpa using hv)
    refine ⟨fun bs o => ?_⟩
    unfold attrSlice
    rw [if_neg (by simp), if_neg (by simp), List.append_assoc]
    have h1 := ((reads_u8 (UInt8.ofNat v.length)).mapErr g).run (v ++ bs) o
    rw [bind_run, bind_ok h1, mapErr_ok (takeSlice_append this.symm)]
    have := (h (o + [UInt8.ofNat v.length].length)).run bs
      (o + [UInt8.ofNat v.length].length + (UInt8.ofNat v.length).toNat)
    simp only [List.nil_append] at this ⊢
    rw [this]
    simp [*]; omega

def LsAttrsWF (ext : Bool) (l : List LsAttr) : Prop :=
  (∀ a ∈ l, a.WF) ∧ lenLsAttrs l ≤ if ext then 65535 else 255
def lsAttrsBytes (l : List LsAttr) : Bytes := (l.map LsAttr.bytes).flatten

theorem length_lsAttrsBytes {ext : Bool} {l : List LsAttr} (h : LsAttrsWF ext l) :
    (lsAttrsBytes l).length = lenLsAttrs l :=
  length_flatten_sum _ _ _ fun a ha => LsAttr.length_bytes (h.1 a ha)

theorem writeLsAttrs_eq {ext : Bool} {l : List LsAttr} (h : LsAttrsWF ext l) :
    writeLsAttrs l = .ok (lsAttrsBytes l) :=
  Res.catAll_ok fun a ha => LsAttr.write_eq (h.1 a ha)

theorem reads_lsAttrs {ext : Bool} {l : List LsAttr} (h : LsAttrsWF ext l) :
    Reads (parseLsAttrs ext) l
      ((if ext then u16be (UInt16.ofNat (lenLsAttrs l)) else [UInt8.ofNat (lenLsAttrs l)]) ++ lsAttrsBytes l) := by
  have hl := length_lsAttrsBytes h
  rw [← hl]
  refine attrSlice_reads (by rw [hl]; exact h.2) fun o => ?_
  exact Reads.sliceMany (fun a ha => reads_lsAttr (h.1 a ha))
    (fun a ha => bytes_ne_nil_of_len (LsAttr.length_bytes (h.1 a ha))) fun s' _ => Reads.pure l

/-! ## Safety -/

theorem safe_parseBandwidths (n : Nat) : Safe 0 (parseBandwidths n) := by
  induction n with
  | zero => exact safe_pure _
  | succ n ih => unfold parseBandwidths; psafe [ih]
theorem safe_parseLsName (l : UInt16) : Safe 0 (parseLsName l) := by unfold parseLsName; psafe
theorem safe_parsePeerSid (l : UInt16) : Safe 0 (parsePeerSid l) := by unfold parsePeerSid; psafe
theorem safe_parseForwarding (o : Nat) (l : UInt16) : Safe 0 (parseForwarding o l) := by
  unfold parseForwarding; psafe
theorem safe_parseWords : Safe 0 parseWords := safe_many ((safe_mapErr _ safe_readU32).mono (by omega))

theorem safe_lsAttrBody (o : Nat) (t l : UInt16) : Safe 0 (lsAttrBody o t l) := by
  unfold lsAttrBody
  psafe [safe_restBytes _, safe_parseMtIds, safe_parseLsName _, safe_parseBandwidths _, safe_parsePeerSid _,
    safe_parseForwarding _ _, safe_parseWords]

/-- the route tag loop ends in an error -/
theorem tagLoop_err {α β : Type} {rd : Parser LsAttrError α} {k : Nat} (hk : 0 < k) (h : Safe k rd) :
    ∀ n (r : Reader), r.buf.length < n → ∃ e r', (tagLoop rd n : Parser LsAttrError β) r = (.err e, r') := by
  intro n
  induction n with
  | zero => intro r hr; omega
  | succ n ih =>
    intro r hr
    have h1 := h.out r
    rcases he : rd r with ⟨a | e | f, r'⟩
    · rw [he] at h1
      have := h1.length
      obtain ⟨e, r'', h2⟩ := ih r' (by omega)
      exact ⟨e, r'', by rw [tagLoop, bind_ok he, h2]⟩
    · exact ⟨e, r', by rw [tagLoop, bind_err he]⟩
    · rw [he] at h1; exact h1.elim

theorem safe_tagLoop {α β : Type} {rd : Parser LsAttrError α} {k : Nat} (hk : 0 < k) (h : Safe k rd) :
    Safe 0 (do let n ← getRemaining; tagLoop rd (n + 1) : Parser LsAttrError β) := by
  refine ⟨fun r => ?_⟩
  rw [bind_ok (getRemaining_run r)]
  obtain ⟨e, r', he⟩ := tagLoop_err (β := β) hk h (r.buf.length + 1) r (by omega)
  rw [he]; trivial

theorem safe_parseLsAttr : Safe 1 parseLsAttr := by
  unfold parseLsAttr
  refine safe_bind_r safe_getOffset fun o => ?_
  refine (safe_bind_l (safe_mapErr _ safe_readU16) fun t => ?_).mono (by omega)
  psafe [safe_lsAttrBody _ _ _, safe_tagLoop (by decide) (safe_mapErr _ safe_readU32),
    safe_tagLoop (by decide) (safe_mapErr _ safe_readU64)]

theorem safe_attrSlice {ε : Type} (g : ParseError → ε) (ext : Bool) : Safe 1 (attrSlice g ext) := by
  unfold attrSlice
  refine safe_ite (fun _ => ?_) fun _ => ?_
  · exact (safe_bind_l (safe_mapErr _ safe_readU16) fun l => (safe_mapErr _ (safe_takeSlice _)).zero).mono (by omega)
  · exact safe_bind_l (safe_mapErr _ safe_readU8) fun l => (safe_mapErr _ (safe_takeSlice _)).zero

theorem safe_parseLsAttrs (ext : Bool) : Safe 1 (parseLsAttrs ext) := by
  unfold parseLsAttrs
  refine safe_bind_l (safe_attrSlice _ _) fun d => ?_
  psafe [safe_parseLsAttr]

end Verif.Bgp
