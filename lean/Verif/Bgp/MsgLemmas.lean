import Verif.Bgp.Msg
import Verif.Bgp.CapsLemmas
import Verif.Bgp.AttrLemmas
/-!
# BGP messages: round trip and absence of faults
-/
namespace Verif.Bgp
open Parser CParser

/-! ## NOTIFICATION and ROUTE-REFRESH -/

theorem NotifKind.ofCode_code (k : NotifKind) : NotifKind.ofCode k.code = some k := by cases k <;> rfl
theorem RefreshOp.ofCode_code (k : RefreshOp) : RefreshOp.ofCode k.code = some k := by cases k <;> rfl
theorem MsgType.ofCode_code (k : MsgType) : MsgType.ofCode k.code = some k := by cases k <;> rfl

theorem Notif.make_eq (n : Notif) : Notif.make n.kind n.sub n.value = some n := by
  unfold Notif.make; rw [dif_pos n.ok]

theorem readsAll_peekU8 {ε β : Type} {f : UInt8 → Parser ε β} {g : ParseError → ε} {x : UInt8} {b : β} {w : Bytes}
    (h : ReadsAll (f x) b (x :: w)) : ReadsAll (Parser.mapErr g peekU8 >>= f) b (x :: w) :=
  ⟨fun o => by
    rw [Parser.bind_ok (p := Parser.mapErr g peekU8) (r' := ⟨x :: w, o⟩) (a := x) rfl, h.run]⟩

theorem readsAll_notif (n : Notif) : ReadsAll parseNotif n n.write := by
  unfold parseNotif Notif.write
  refine readsAll_peekU8 (ReadsAll.getOffset fun o => ?_)
  refine ReadsAll.bind_nil (Reads.ofOption (NotifKind.ofCode_code _)) (ReadsAll.cons ((reads_u8 _).mapErr _) ?_)
  unfold parseNotifBody
  refine readsAll_peekU8 (ReadsAll.getOffset fun o => ReadsAll.ite_pos n.ok (ReadsAll.cons ((reads_u8 _).mapErr _) ?_))
  refine ReadsAll.getRemaining (ReadsAll.bind_all ((reads_bytes rfl).mapErr _).all (Reads.ofOption n.make_eq))

theorem Notif.length_write (n : Notif) : n.write.length = n.len := by simp [Notif.write, Notif.len]; omega

theorem reads_refresh (m : Refresh) : Reads parseRefresh m m.write := by
  unfold parseRefresh Refresh.write
  refine Reads.peekU16 (Reads.getOffset fun _ => Reads.bind_nil (Reads.ofOption (show afiOf m.type.afi = some m.type.afi' from afiOf_val m.type.afi')) ?_)
  refine Reads.bind ((reads_u16 _).mapErr _) (Reads.peekU8 (Reads.getOffset fun _ => ?_))
  refine Reads.bind_nil (Reads.ofOption (RefreshOp.ofCode_code _)) (Reads.u8_cons (Reads.peekU8 (Reads.getOffset fun _ => ?_)))
  refine Reads.bind_nil (Reads.ofOption (show safiOf m.type.safi = some m.type.safi' from safiOf_val m.type.safi')) (Reads.u8_cons (Reads.getOffset fun _ => ?_))
  exact Reads.bind_nil (Reads.ofOption (AddressType.ofAfiSafi_self _)) (Reads.pure _)

theorem Refresh.length_write (m : Refresh) : m.write.length = 4 := by simp [Refresh.write]

/-! ## OPEN -/

/-- the octets of a capability that can be written -/
def Cap.bytes (c : Cap) : Bytes := match c.write with | .ok b => b | _ => []

theorem Cap.facts {c : Cap} (h : c.Fits) :
    c.write = .ok c.bytes ∧ Reads parseCap c c.bytes ∧ c.bytes.length = c.len ∧ c.bytes ≠ [] := by
  obtain ⟨v, _, hw, hr⟩ := cap_roundtrip c h
  have hb : c.bytes = c.code :: UInt8.ofNat v.length :: v := by unfold Cap.bytes; rw [hw]
  refine ⟨by rw [hb, hw], by rw [hb]; exact hr, ?_, by rw [hb]; simp⟩
  have := cap_len c (by rintro l rfl; exact h) hw
  rw [hb]; exact this

/-- the octets of a parameter -/
def paramBytes (p : List Cap) : Bytes := [2, UInt8.ofNat (paramLen p - 2)] ++ (p.map Cap.bytes).flatten

/-- an OPEN that fits its wire format -/
structure Open.WF (m : Open) : Prop where
  hold : ¬ (m.hold = 1 ∨ m.hold = 2)
  id : badBgpId m.bgpId = false
  caps : ∀ p ∈ m.params, ∀ x ∈ p, x.Fits
  fits : (m.params.map paramLen).sum ≤ 255

theorem creads_capStep (c : MsgCtx) {x : Cap} (h : x.Fits) : CReads (capStep c) (some x) x.bytes := by
  unfold capStep
  exact CReads.bind_last (creads_attempt (Cap.facts h).2.1) (creads_pure _)

theorem length_caps {p : List Cap} (h : ∀ x ∈ p, x.Fits) : (p.map Cap.bytes).flatten.length = (p.map Cap.len).sum :=
  length_flatten_sum _ _ _ fun x hx => (Cap.facts (h x hx)).2.2.1

theorem sum_le_mem {α : Type} (f : α → Nat) {l : List α} {a : α} (h : a ∈ l) : f a ≤ (l.map f).sum := by
  induction l with
  | nil => simp at h
  | cons b l ih =>
    rcases List.mem_cons.mp h with rfl | h
    · simp
    · have := ih h; simp; omega

theorem creads_param (c : MsgCtx) {p : List Cap} (h : ∀ x ∈ p, x.Fits) (hl : paramLen p ≤ 255) :
    CReads (parseParam c) p (paramBytes p) := by
  unfold parseParam paramBytes
  refine CReads.peekU8 (CReads.getOffset fun o => ?_)
  rw [if_pos rfl]
  refine CReads.bind (v := [2]) (creads_lift ((reads_u8 2).mapErr _)) ?_
  unfold parseCapParam
  refine CReads.bind (v := [UInt8.ofNat (paramLen p - 2)]) (creads_lift ((reads_u8 _).mapErr _)) ?_
  rw [← List.append_nil (p.map Cap.bytes).flatten]
  refine CReads.takeSlice ?_ fun o => ?_
  · rw [length_caps h, UInt8.toNat_ofNat_le (by omega)]; unfold paramLen; omega
  · refine CReads.onSub (creadsAll_cmany Cap.bytes p (fun x hx => creads_capStep c (h x hx))
      fun x hx => (Cap.facts (h x hx)).2.2.2) fun s' => creads_pure _

theorem length_paramBytes {p : List Cap} (h : ∀ x ∈ p, x.Fits) : (paramBytes p).length = paramLen p := by
  unfold paramBytes paramLen
  rw [List.length_append, length_caps h]; rfl

theorem writeParam_eq {p : List Cap} (h : ∀ x ∈ p, x.Fits) : writeParam p = .ok (paramBytes p) := by
  unfold writeParam paramBytes
  rw [Res.catAll_ok fun x hx => (Cap.facts (h x hx)).1, Res.cat_ok]

/-- the octets of an OPEN -/
def Open.bytes (m : Open) : Bytes :=
  [4] ++ u16be m.myAs ++ u16be m.hold ++ u32be m.bgpId ++ [UInt8.ofNat (m.params.map paramLen).sum] ++
    (m.params.map paramBytes).flatten

theorem Open.write_eq {m : Open} (h : m.WF) : m.write = .ok m.bytes := by
  unfold Open.write Open.bytes
  rw [Res.catAll_ok fun p hp => writeParam_eq (h.caps p hp), Res.cat_ok]

theorem length_params {l : List (List Cap)} (h : ∀ p ∈ l, ∀ x ∈ p, x.Fits) :
    (l.map paramBytes).flatten.length = (l.map paramLen).sum :=
  length_flatten_sum _ _ _ fun p hp => length_paramBytes (h p hp)

theorem Open.length_bytes {m : Open} (h : m.WF) : m.bytes.length = m.len := by
  unfold Open.bytes Open.len
  simp only [List.length_append, length_params h.caps, length_u16be, length_u32be, List.length_cons, List.length_nil]

theorem reads_openFixed {as h : UInt16} {id : UInt32} (l : UInt8) (hh : ¬ (h = 1 ∨ h = 2)) (hid : badBgpId id = false) :
    Reads parseOpenFixed (as, h, id, l) (4 :: (u16be as ++ (u16be h ++ (u32be id ++ [l])))) := by
  unfold parseOpenFixed
  refine Reads.peekU8 (Reads.getOffset fun _ => Reads.ite_neg (by decide) (Reads.u8_cons ?_))
  refine Reads.bind ((reads_u16 as).mapErr _) ?_
  refine Reads.peekU16 (Reads.getOffset fun _ => Reads.ite_neg hh ?_)
  refine Reads.bind ((reads_u16 h).mapErr _) (Reads.peekU32 (Reads.getOffset fun _ => Reads.ite_neg (by simp [hid]) ?_))
  exact Reads.bind ((reads_u32 _).mapErr _) (Reads.u8_cons (Reads.pure _))

theorem creads_open (c : MsgCtx) {m : Open} (h : m.WF) : CReads (parseOpen c) m m.bytes := by
  have hb : m.bytes = (4 :: (u16be m.myAs ++ (u16be m.hold ++ (u32be m.bgpId ++
      [UInt8.ofNat (m.params.map paramLen).sum])))) ++ (m.params.map paramBytes).flatten := by
    simp [Open.bytes]
  rw [hb]
  unfold parseOpen
  refine CReads.bind (creads_lift (reads_openFixed _ h.hold h.id)) ?_
  have hl := length_params h.caps
  by_cases h0 : (m.params.map paramLen).sum = 0
  · have hp : m.params = [] := by
      rcases m with ⟨_, _, _, _ | ⟨p, l⟩⟩
      · rfl
      · simp [paramLen] at h0
    simp only [hp, List.map_nil, List.sum_nil, List.flatten_nil]
    rw [if_pos (by decide)]
    have : (⟨m.myAs, m.hold, m.bgpId, []⟩ : Open) = m := by rw [← hp]
    rw [this]
    exact creads_pure _
  · simp only
    rw [if_neg (by
      intro hz
      have := congrArg UInt8.toNat hz
      rw [UInt8.toNat_ofNat_le h.fits] at this
      exact h0 this)]
    rw [← List.append_nil (m.params.map paramBytes).flatten]
    refine CReads.takeSlice (by rw [hl, UInt8.toNat_ofNat_le h.fits]) fun o => ?_
    refine CReads.onSub (a := m.params) (CReadsAll.mapErr _ ?_) fun s' => creads_pure _
    unfold parseParams
    refine creadsAll_cmany paramBytes _ (fun p hp => ?_) fun p _ => by simp [paramBytes]
    refine CReads.bind_last (creads_param c (h.caps p hp) ?_) (creads_pure _)
    have := sum_le_mem paramLen hp
    have := h.fits
    omega

/-! ## UPDATE -/

/-- an UPDATE that fits its wire format in the given context -/
structure Update.WF (c : AttrCtx) (m : Update) : Prop where
  withdrawn : ∀ a ∈ m.withdrawn, a.WF 4 uni4Ok (c.ap .ipv4Unicast)
  attrs : ∀ a ∈ m.attrs, a.WF c
  nlri : ∀ a ∈ m.nlri, a.WF 4 uni4Ok (c.ap .ipv4Unicast)
  withdrawnLen : (m.withdrawn.map NetAddr.len).sum ≤ 65535
  attrsLen : (m.attrs.map PathAttr.len).sum ≤ 65535

theorem creads_nlriStep (c : MsgCtx) {ap upd : Bool} {a : NetAddr} (h : a.WF 4 uni4Ok ap) :
    CReads (nlriStep c ap upd) (some a) a.write := by
  unfold nlriStep NetAddr.write
  refine CReads.bind (a := a.pathId) (creads_lift ?_) (CReads.getOffset fun o => ?_)
  · obtain ⟨p, n⟩ := a
    have hp := h.path
    cases p with
    | none =>
      simp at hp; subst hp
      exact Reads.ite_neg (by simp) (Reads.pure _)
    | some i =>
      simp at hp; subst hp
      exact Reads.ite_pos rfl (Reads.map _ ((reads_u32 _).mapErr _))
  · refine CReads.bind_last (creads_lift ((reads_net (Or.inl rfl) h.canon).mapErr _)) ?_
    rw [if_pos h.ok]
    exact creads_pure _

theorem creadsAll_nlri (c : MsgCtx) {ap upd : Bool} {l : List NetAddr} (h : ∀ a ∈ l, a.WF 4 uni4Ok ap) :
    CReadsAll (parseNlri c ap upd) l (l.map NetAddr.write).flatten :=
  creadsAll_cmany _ _ (fun a ha => creads_nlriStep c (h a ha)) fun a _ => netAddr_ne a

theorem creads_attrStep (c : MsgCtx) {a : PathAttr} (h : a.WF c.attr) : CReads (attrStep c) (some a) a.bytes := by
  unfold attrStep
  exact CReads.bind_last (creads_attempt (reads_attr h)) (creads_pure _)

/-- the octets of an UPDATE -/
def Update.bytes (m : Update) : Bytes :=
  u16be (UInt16.ofNat (m.withdrawn.map NetAddr.len).sum) ++ ((m.withdrawn.map NetAddr.write).flatten ++
    (u16be (UInt16.ofNat (m.attrs.map PathAttr.len).sum) ++ ((m.attrs.map PathAttr.bytes).flatten ++
      (m.nlri.map NetAddr.write).flatten)))

theorem Update.write_eq {c : AttrCtx} {m : Update} (h : m.WF c) : m.write = .ok m.bytes := by
  unfold Update.write Update.bytes
  rw [Res.catAll_ok fun a ha => PathAttr.write_eq (h.attrs a ha), Res.cat_ok, Res.cat_ok]
  simp

theorem length_netAddrs {ap : Bool} {l : List NetAddr} (h : ∀ a ∈ l, a.WF 4 uni4Ok ap) :
    (l.map NetAddr.write).flatten.length = (l.map NetAddr.len).sum :=
  length_flatten_sum _ _ _ fun a ha => length_netAddr (h a ha).canon.wf

theorem length_attrs {c : AttrCtx} {l : List PathAttr} (h : ∀ a ∈ l, a.WF c) :
    (l.map PathAttr.bytes).flatten.length = (l.map PathAttr.len).sum :=
  length_flatten_sum _ _ _ fun a ha => PathAttr.length_bytes (h a ha)

theorem Update.length_bytes {c : AttrCtx} {m : Update} (h : m.WF c) : m.bytes.length = m.len := by
  unfold Update.bytes Update.len
  simp only [List.length_append, length_netAddrs h.withdrawn, length_netAddrs h.nlri, length_attrs h.attrs, length_u16be]
  omega

theorem creadsAll_update (c : MsgCtx) {m : Update} (h : m.WF c.attr) : CReadsAll (parseUpdate c) m m.bytes := by
  unfold parseUpdate Update.bytes
  refine CReadsAll.bind (creads_lift ((reads_u16 _).mapErr _)) ?_
  refine CReadsAll.takeSlice (by rw [length_netAddrs h.withdrawn, UInt16.toNat_ofNat_le h.withdrawnLen]) fun o => ?_
  refine CReadsAll.onSub (creadsAll_nlri c h.withdrawn) fun _ => ?_
  refine CReadsAll.bind (creads_lift ((reads_u16 _).mapErr _)) ?_
  refine CReadsAll.takeSlice (by rw [length_attrs h.attrs, UInt16.toNat_ofNat_le h.attrsLen]) fun o => ?_
  refine CReadsAll.onSub (creadsAll_cmany _ _ (fun a ha => creads_attrStep c (h.attrs a ha)) fun a _ => attr_ne_nil a)
    fun _ => ?_
  exact CReadsAll.bind_all (creadsAll_nlri c h.nlri) (creads_pure _)

/-! ## Messages -/

/-- a message that fits its wire format in the given context -/
def Msg.WF (c : AttrCtx) : Msg → Prop
  | .open m => m.WF
  | .update m => m.WF c ∧ 19 + m.len ≤ 65535
  | .notification m => 19 + m.len ≤ 65535
  | .keepAlive => True
  | .routeRefresh _ => True

/-- the octets of the body -/
def Msg.bodyBytes : Msg → Bytes
  | .open m => m.bytes
  | .update m => m.bytes
  | .notification m => m.write
  | .keepAlive => []
  | .routeRefresh m => m.write

theorem Msg.body_eq {c : AttrCtx} {m : Msg} (h : m.WF c) : m.body = .ok m.bodyBytes := by
  cases m with
  | «open» m => simp only [Msg.body, Msg.bodyBytes]; rw [Open.write_eq h]; rfl
  | update m => simp only [Msg.body, Msg.bodyBytes]; rw [Update.write_eq h.1]; rfl
  | notification m => rfl
  | keepAlive => rfl
  | routeRefresh m => rfl

theorem Msg.length_bodyBytes {c : AttrCtx} {m : Msg} (h : m.WF c) : m.bodyBytes.length = m.bodyLen := by
  cases m with
  | «open» m => exact Open.length_bytes h
  | update m => exact Update.length_bytes h.1
  | notification m => exact Notif.length_write m
  | keepAlive => rfl
  | routeRefresh m => exact Refresh.length_write m

theorem creadsAll_body (c : MsgCtx) {m : Msg} (h : m.WF c.attr) : CReadsAll (parseBody c m.type) m m.bodyBytes := by
  cases m with
  | «open» m => exact CReadsAll.bind_all ((creads_open c h).all.mapErr _) (creads_pure _)
  | update m => exact CReadsAll.bind_all ((creadsAll_update c h.1).mapErr _) (creads_pure _)
  | notification m => exact CReadsAll.bind_all (creadsAll_lift ((readsAll_notif m).mapErr _)) (creads_pure _)
  | keepAlive => exact (creads_pure _).all
  | routeRefresh m => exact CReadsAll.bind_all (creads_lift ((reads_refresh m).mapErr _)).all (creads_pure _)

theorem Msg.len_le {c : AttrCtx} {m : Msg} (h : m.WF c) : m.len ≤ 65535 ∧
    ((m.type = .open ∨ m.type = .keepAlive) → m.len ≤ maxLen) := by
  unfold Msg.len minLen maxLen
  cases m with
  | «open» m =>
    have := Open.WF.fits h
    simp only [Msg.bodyLen, Open.len]
    exact ⟨by omega, fun _ => by omega⟩
  | update m => exact ⟨h.2, fun h => by simp [Msg.type] at h⟩
  | notification m => exact ⟨h, fun h => by simp [Msg.type] at h⟩
  | keepAlive => simp [Msg.bodyLen]
  | routeRefresh m => simp [Msg.bodyLen, Msg.type]

/-- the octets of a message -/
def Msg.bytes (m : Msg) : Bytes :=
  u128be (BitVec.allOnes 128) ++ (u16be (UInt16.ofNat m.len) ++ ([m.type.code] ++ m.bodyBytes))

theorem Msg.write_eq {c : AttrCtx} {m : Msg} (h : m.WF c) : m.write = .ok m.bytes := by
  unfold Msg.write Msg.bytes
  rw [if_neg (by have := (Msg.len_le h).2; rintro ⟨h1, h2⟩; have := this h1; omega), Msg.body_eq h, Res.cat_ok]
  simp

theorem Msg.length_bytes {c : AttrCtx} {m : Msg} (h : m.WF c) : m.bytes.length = m.len := by
  unfold Msg.bytes Msg.len minLen
  simp only [List.length_append, Msg.length_bodyBytes h, length_u128be, length_u16be, List.length_cons, List.length_nil]
  omega

theorem takeFrame_append {l : UInt16} {v rest : Bytes} {o : Nat} (h : v.length = l.toNat - 18) :
    takeFrame l ⟨v ++ rest, o⟩ = (.ok ⟨v, o⟩, ⟨rest, o + v.length⟩) := by
  unfold takeFrame
  rw [takeSlice_append h, h]

theorem reads_header {l : UInt16} {t : MsgType} {v : Bytes} (hl : l.toNat = 19 + v.length)
    (hm : (t = .open ∨ t = .keepAlive) → l.toNat ≤ maxLen) (rest : Bytes) (o : Nat) :
    parseHeader ⟨u16be l ++ (t.code :: v ++ rest), o⟩ =
      (.ok (l, t, ⟨v, o + 3⟩), ⟨rest, o + l.toNat - 16⟩) := by
  unfold parseHeader
  rw [Parser.bind_ok (Parser.mapErr_ok ((reads_u16 l).run _ _) _), Parser.bind_ok (Parser.getOffset_run _),
    if_neg (by unfold minLen; omega),
    Parser.bind_ok (takeFrame_append (v := t.code :: v) (by simp; omega)),
    Parser.bind_ok (a := (t.code, ⟨v, o + (u16be l).length + 1⟩)) (by rfl)]
  simp only [MsgType.ofCode_code, Parser.ofOption_some]
  rw [Parser.bind_ok (Parser.pure_run _ _), if_neg]
  · simp; omega
  · rintro ⟨h1, h2⟩
    have := hm h1
    unfold minLen at h2
    omega

theorem reads_marker : Reads parseMarker () (u128be (BitVec.allOnes 128)) := by
  unfold parseMarker
  refine Reads.bind_last ((reads_u128 _).mapErr _) (Reads.getOffset fun o => ?_)
  exact Reads.ite_neg (by simp) (Reads.pure _)

theorem creads_msg (c : MsgCtx) {m : Msg} (h : m.WF c.attr) : CReads (parseMsg c) m m.bytes := by
  refine ⟨fun rest o g => ?_⟩
  have hl := Msg.length_bodyBytes h
  have hle := Msg.len_le h
  have hlt : (UInt16.ofNat m.len).toNat = m.len := UInt16.toNat_ofNat_le hle.1
  have hb := Msg.length_bytes h
  unfold parseMsg Msg.bytes
  rw [List.append_assoc, CParser.bind_ok ((creads_lift reads_marker).run _ _ _)]
  have hh := reads_header (l := UInt16.ofNat m.len) (t := m.type) (v := m.bodyBytes)
    (by rw [hlt, hl]; unfold Msg.len minLen; omega) (by rw [hlt]; exact hle.2) rest (o + (u128be (BitVec.allOnes 128)).length)
  rw [CParser.bind_ok (a := _) (s' := _) (by
    rw [lift_run, List.append_assoc, List.append_assoc, List.singleton_append, ← List.cons_append, hh])]
  have hs := (creads_onSub (creadsAll_body c h) (o + (u128be (BitVec.allOnes 128)).length + 3)).run rest
    (o + (u128be (BitVec.allOnes 128)).length + (UInt16.ofNat m.len).toNat - 16) g
  rw [List.nil_append] at hs
  simp only
  rw [CParser.bind_ok hs]
  simp only [ne_eq, not_true_eq_false, if_false]
  rw [CParser.pure_run]
  unfold Msg.bytes at hb
  rw [hb]
  simp only [length_u128be, hlt, List.length_nil, Nat.add_zero]
  rw [show o + 16 + m.len - 16 = o + m.len by omega]

end Verif.Bgp
