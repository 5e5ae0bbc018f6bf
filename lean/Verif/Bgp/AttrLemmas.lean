import Verif.Bgp.Attr
import Verif.Bgp.LsLemmas
import Verif.Bgp.LsAttrLemmas
import Verif.Bgp.SidLemmas
/-!
# Path attributes: round trip, lengths
-/
namespace Verif.Bgp
open Verif Parser

/-- the attribute length field of a value that fits -/
def lenOctets (ext : Bool) (n : Nat) : Bytes := if ext then u16be (UInt16.ofNat n) else [UInt8.ofNat n]
/-- the largest value an attribute length can describe -/
def maxAttr (ext : Bool) : Nat := if ext then 65535 else 255

theorem length_lenOctets (ext : Bool) (n : Nat) : (lenOctets ext n).length = 1 + if ext then 1 else 0 := by
  cases ext <;> simp [lenOctets]

theorem writeLength_eq {ext : Bool} {n : Nat} (h : n ≤ maxAttr ext) : writeLength ext n = lenOctets ext n := by
  cases ext with
  | true =>
    unfold writeLength
    simp [lenOctets]
  | false =>
    have h' : n ≤ 255 := h
    show (if false || decide (0 + n > 255) then u16be _ else [UInt8.ofNat (0 + n)]) = _
    rw [Bool.false_or, if_neg (by simp; omega), Nat.zero_add]; rfl

/-! ## Building blocks -/

theorem readsAll_times {ε α : Type} {p : Parser ε α} {w : α → Bytes} : ∀ {l : List α}, (∀ a ∈ l, Reads p a (w a)) →
    Reads (times p l.length) l (l.map w).flatten
  | [], _ => Reads.pure _
  | a :: l, h => by
    show Reads (times p (l.length + 1)) _ _
    rw [times, List.map_cons, List.flatten_cons]
    refine Reads.bind (h a (List.mem_cons_self ..)) ?_
    exact Reads.bind_last (readsAll_times fun b hb => h b (List.mem_cons_of_mem _ hb)) (Reads.pure _)

theorem attrMany_reads {ε α : Type} {g : ParseError → ε} {ext : Bool} {p : Parser ε α} {w : α → Bytes} {l : List α}
    (hl : (l.map w).flatten.length ≤ maxAttr ext) (hp : ∀ a ∈ l, Reads p a (w a)) (hne : ∀ a ∈ l, w a ≠ []) :
    Reads (attrMany g ext p) l (lenOctets ext (l.map w).flatten.length ++ (l.map w).flatten) :=
  attrSlice_reads hl fun _ => Reads.sliceMany hp hne fun _ _ => Reads.pure _

theorem reads_attrLen {ε : Type} {g : ParseError → ε} {ext : Bool} {n : Nat} (h : n ≤ maxAttr ext) :
    ∃ l : AttrLen, Reads (attrLen g ext) l (lenOctets ext n) ∧ (∀ m, l.is m = (n == m)) ∧
      l.toNat = n := by
  cases ext with
  | true =>
    have e : (UInt16.ofNat n).toNat = n := UInt16.toNat_ofNat_le h
    exact ⟨.u16 (UInt16.ofNat n), ((reads_u16 _).mapErr _).map _, fun m => by simp only [AttrLen.is, e], e⟩
  | false =>
    have e : (UInt8.ofNat n).toNat = n := UInt8.toNat_ofNat_le h
    exact ⟨.u8 (UInt8.ofNat n), ((reads_u8 _).mapErr _).map _, fun m => by simp only [AttrLen.is, e], e⟩

theorem le_maxAttr {n : Nat} (ext : Bool) (h : n ≤ 255) : n ≤ maxAttr ext := by
  cases ext <;> simp only [maxAttr] <;> simp <;> omega

theorem reads_fixed {α : Type} {n : Nat} {ext : Bool} {p : Parser ParseError α} {a : α} {w : Bytes} (hn : n ≤ 255)
    (h : Reads p a w) : Reads (fixedAttr n ext p) a (lenOctets ext n ++ w) := by
  obtain ⟨l, h1, h2, _⟩ := reads_attrLen (g := FixedErr.parse) (ext := ext) (le_maxAttr ext hn)
  refine Reads.getOffset fun o => Reads.bind h1 (Reads.ite_pos (by rw [h2]; simp) (h.mapErr _))

theorem reads_origin (ext : Bool) (v : Origin) : Reads (parseOrigin ext) v (lenOctets ext 1 ++ [v.code]) := by
  obtain ⟨l, h1, h2, _⟩ := reads_attrLen (g := OriginErr.parse) (ext := ext) (le_maxAttr ext (n := 1) (by omega))
  refine Reads.getOffset fun o => Reads.bind h1 (Reads.ite_pos (by rw [h2]; rfl) ?_)
  refine Reads.getOffset fun o2 => Reads.u8_cons (Reads.ofOption ?_)
  cases v <;> rfl

/-- a segment as it can be decoded: 1 to 255 AS numbers -/
def Seg.WF (s : Seg α) : Prop := 1 ≤ s.asns.length ∧ s.asns.length ≤ 255

theorem reads_seg {α : Type} {rd : Parser ParseError α} {wr : α → Bytes} {w : Nat} {s : Seg α} (h : s.WF)
    (hr : ∀ a, Reads rd a (wr a)) (hw : ∀ a, (wr a).length = w) : Reads (parseSeg rd w) s (s.write wr) := by
  obtain ⟨h1, h2⟩ := h
  have e : (UInt8.ofNat s.asns.length).toNat = s.asns.length := UInt8.toNat_ofNat_le h2
  unfold parseSeg Seg.write
  refine Reads.getOffset fun o => Reads.u8_cons (Reads.bind_nil (Reads.ofOption (a := s.type) ?_) ?_)
  · cases s.type <;> rfl
  refine Reads.getOffset fun o2 => Reads.u8_cons (Reads.ite_neg ?_ ?_)
  · intro h0; rw [h0] at e; simp at e; omega
  refine Reads.getRemaining fun n hn => Reads.ite_neg ?_ ?_
  · rw [length_flatten_const wr w _ fun a _ => hw a] at hn
    rw [e, Nat.mul_comm]; omega
  · rw [e]
    exact Reads.bind_last (readsAll_times fun a _ => (hr a).mapErr _) (Reads.pure _)

theorem length_seg {α : Type} {wr : α → Bytes} {w : Nat} (hw : ∀ a, (wr a).length = w) (s : Seg α) :
    (s.write wr).length = s.len w := by
  simp only [Seg.write, Seg.len, List.length_cons, length_flatten_const wr w _ fun a _ => hw a, Nat.mul_comm]; omega

theorem seg_ne_nil {α : Type} (wr : α → Bytes) (s : Seg α) : s.write wr ≠ [] := by simp [Seg.write]

theorem reads_asPath2 {ext : Bool} {l : List (Seg UInt16)} (h : ∀ s ∈ l, s.WF) (hl : (l.map (Seg.len 2)).sum ≤ maxAttr ext) :
    Reads (attrMany AsPathErr.parse ext (parseSeg readU16 2)) l
      (lenOctets ext (l.map (Seg.len 2)).sum ++ (l.map (Seg.write u16be)).flatten) := by
  have e := length_flatten_sum (Seg.write u16be) (Seg.len 2) l fun a _ => length_seg (w := 2) (fun _ => by simp) a
  rw [← e] at hl ⊢
  exact attrMany_reads hl (fun s hs => reads_seg (h s hs) reads_u16 fun _ => by simp) fun _ _ => seg_ne_nil _ _

theorem reads_asPath4 {ext : Bool} {l : List (Seg UInt32)} (h : ∀ s ∈ l, s.WF) (hl : (l.map (Seg.len 4)).sum ≤ maxAttr ext) :
    Reads (attrMany AsPathErr.parse ext (parseSeg readU32 4)) l
      (lenOctets ext (l.map (Seg.len 4)).sum ++ (l.map (Seg.write u32be)).flatten) := by
  have e := length_flatten_sum (Seg.write u32be) (Seg.len 4) l fun a _ => length_seg (w := 4) (fun _ => by simp) a
  rw [← e] at hl ⊢
  exact attrMany_reads hl (fun s hs => reads_seg (h s hs) reads_u32 fun _ => by simp) fun _ _ => seg_ne_nil _ _

theorem reads_listAttr {α : Type} {ext : Bool} {p : Parser ParseError α} {w : α → Bytes} {len : α → Nat} {l : List α}
    (hp : ∀ a ∈ l, Reads p a (w a)) (hw : ∀ a ∈ l, (w a).length = len a) (hpos : ∀ a ∈ l, len a ≠ 0)
    (hl : (l.map len).sum ≤ maxAttr ext) :
    Reads (listAttr ext p) l (lenOctets ext (l.map len).sum ++ (l.map w).flatten) := by
  have e := length_flatten_sum w len l hw
  rw [← e] at hl ⊢
  refine attrMany_reads hl (fun a ha => (hp a ha).mapErr _) fun a ha h0 => hpos a ha ?_
  rw [← hw a ha, h0]; rfl

theorem reads_word32 (ext : Bool) (v : UInt32) : Reads (word32Attr ext) v (lenOctets ext 4 ++ u32be v) := by
  have h : (u32be v).length = 4 := by simp
  have := attrSlice_reads (g := id) (ext := ext) (v := u32be v) (b := v)
    (f := fun d => do let x ← onSub d readU32; pure x.1) (by rw [h]; exact le_maxAttr ext (by omega))
    fun o => Reads.onSub' (reads_u32 v) fun _ _ => Reads.pure _
  rw [h] at this; exact this

theorem reads_aigp (ext : Bool) (v : UInt64) :
    Reads (parseAigp ext) v (lenOctets ext 11 ++ (1 :: (u16be 11 ++ u64be v))) := by
  have h : (1 :: (u16be 11 ++ u64be v)).length = 11 := by simp
  have := attrSlice_reads (g := AigpErr.parse) (ext := ext) (v := 1 :: (u16be 11 ++ u64be v)) (b := v)
    (f := fun d => do let x ← onSub d aigpBody; pure x.1) (by rw [h]; exact le_maxAttr ext (by omega))
    fun o => Reads.onSub' (a := v) ?_ fun _ _ => Reads.pure _
  · rw [h] at this; exact this
  · unfold aigpBody
    refine Reads.u8_cons (Reads.getOffset fun o => Reads.ite_pos rfl ?_)
    refine Reads.bind ((reads_u16 _).mapErr _) (Reads.getOffset fun o => Reads.ite_pos rfl ((reads_u64 v).mapErr _))

theorem reads_unknownAttr {ext : Bool} {code : UInt8} {v : Bytes} (hv : v.length ≤ maxAttr ext) :
    Reads (parseUnknownAttr code ext) (.unknown code v) (lenOctets ext v.length ++ v) := by
  obtain ⟨l, h1, _, h3⟩ := reads_attrLen (g := UnknownErr.parse) hv
  unfold parseUnknownAttr
  refine Reads.bind h1 ?_
  refine Reads.getRemaining fun n hn => ?_
  rw [h3]
  exact Reads.ite_neg (by omega) (Reads.bind_last ((reads_bytes rfl).mapErr _) (Reads.pure _))

/-! ## NLRI lists -/

/-- every NLRI is well formed for the negotiated context, and carries a path identifier iff ADD-PATH was negotiated
for its family; labeled unicast can only be written without path identifiers (C44) -/
def NlriList.WF (c : AttrCtx) (l : NlriList) : Prop :=
  match l with
  | uni4 l => ∀ a ∈ l, a.WF 4 uni4Ok (c.ap .ipv4Unicast)
  | multi4 l => ∀ a ∈ l, a.WF 4 multi4Ok (c.ap .ipv4Multicast)
  | labels4 l => c.ap .ipv4NlriMplsLabels = false ∧ ∀ a ∈ l, a.WF 4 false (c.lim .ipv4NlriMplsLabels)
  | vpn4 l => ∀ a ∈ l, a.WF 4 uni4Ok (c.ap .ipv4MplsLabeledVpn) false (c.lim .ipv4MplsLabeledVpn)
  | uni6 l => ∀ a ∈ l, a.WF 16 uni6Ok (c.ap .ipv6Unicast)
  | multi6 l => ∀ a ∈ l, a.WF 16 multi6Ok (c.ap .ipv6Multicast)
  | labels6 l => c.ap .ipv6NlriMplsLabels = false ∧ ∀ a ∈ l, a.WF 16 false (c.lim .ipv6NlriMplsLabels)
  | vpn6 l => ∀ a ∈ l, a.WF 16 uni6Ok (c.ap .ipv6MplsLabeledVpn) false (c.lim .ipv6MplsLabeledVpn)
  | evpn l => ∀ a ∈ l, a.route.WF ∧ a.pathId.isSome = c.ap .l2VpnBgpEvpn
  | rtm l => ∀ a ∈ l, a.WF (c.ap .routeTargetConstrains)
  | ls l => ∀ a ∈ l, a.WF (c.ap .bgpLs)
  | lsVpn l => ∀ a ∈ l, a.WF (c.ap .bgpLsVpn)

/-- the octets of a well formed list -/
def NlriList.bytes : NlriList → Bytes
  | uni4 l | multi4 l | uni6 l | multi6 l => (l.map NetAddr.write).flatten
  | labels4 l | labels6 l => (l.map LabeledAddr.write).flatten
  | vpn4 l | vpn6 l => (l.map VpnAddr.write).flatten
  | evpn l => (l.map EvpnAddr.write).flatten
  | rtm l => (l.map RtmAddr.write).flatten
  | ls l => (l.map LsNlri.bytes).flatten
  | lsVpn l => (l.map LsVpnNlri.bytes).flatten

theorem NlriList.write_eq {c : AttrCtx} {l : NlriList} (h : l.WF c) : l.write = .ok l.bytes := by
  cases l with
  | ls l => exact Res.catAll_ok fun a ha => LsNlri.write_eq (h a ha)
  | lsVpn l => exact Res.catAll_ok fun a ha => LsVpnNlri.write_eq (h a ha)
  | _ => rfl

theorem NlriList.length_bytes {c : AttrCtx} {l : NlriList} (h : l.WF c) : l.bytes.length = l.len := by
  cases l with
  | uni4 l => exact length_flatten_sum _ _ _ fun a ha => length_netAddr (h a ha).canon.wf
  | multi4 l => exact length_flatten_sum _ _ _ fun a ha => length_netAddr (h a ha).canon.wf
  | uni6 l => exact length_flatten_sum _ _ _ fun a ha => length_netAddr (h a ha).canon.wf
  | multi6 l => exact length_flatten_sum _ _ _ fun a ha => length_netAddr (h a ha).canon.wf
  | labels4 l =>
    exact length_flatten_sum _ _ _ fun a ha => length_labeledAddr (h.2 a ha).canon.wf (h.2 a ha).labels.len3
  | labels6 l =>
    exact length_flatten_sum _ _ _ fun a ha => length_labeledAddr (h.2 a ha).canon.wf (h.2 a ha).labels.len3
  | vpn4 l => exact length_flatten_sum _ _ _ fun a ha => length_vpnAddr (h a ha).canon.wf (h a ha).labels.len3
  | vpn6 l => exact length_flatten_sum _ _ _ fun a ha => length_vpnAddr (h a ha).canon.wf (h a ha).labels.len3
  | evpn l => exact length_flatten_sum _ _ _ fun a ha => length_evpnAddr (h a ha).1
  | rtm l => exact length_flatten_sum _ _ _ fun a _ => length_rtmAddr a
  | ls l => exact length_flatten_sum _ _ _ fun a ha => LsNlri.length_bytes (h a ha)
  | lsVpn l => exact length_flatten_sum _ _ _ fun a ha => LsVpnNlri.length_bytes (h a ha)

theorem ne_nil_of_length {l : Bytes} {n : Nat} (h : l.length = n) (hn : n ≠ 0) : l ≠ [] := by
  rintro rfl; exact hn h.symm

theorem netAddr_ne (a : NetAddr) : a.write ≠ [] := by simp [NetAddr.write, writeNet]
theorem labeledAddr_ne (a : LabeledAddr) : a.write ≠ [] := by simp [LabeledAddr.write]
theorem vpnAddr_ne (a : VpnAddr) : a.write ≠ [] := by simp [VpnAddr.write]
theorem evpnAddr_ne (a : EvpnAddr) : a.write ≠ [] := by simp [EvpnAddr.write, EvpnRoute.write]
theorem rtmAddr_ne (a : RtmAddr) : a.write ≠ [] := by
  obtain ⟨p, _ | ⟨_, _⟩⟩ := a <;> simp [RtmAddr.write]
theorem lsNlri_ne (a : LsNlri) : a.bytes ≠ [] := by simp [LsNlri.bytes, tlvBytes16, u16be, beBytes]
theorem lsVpnNlri_ne (a : LsVpnNlri) : a.bytes ≠ [] := by simp [LsVpnNlri.bytes, tlvBytes16, u16be, beBytes]

theorem nlriMany_reads {α : Type} {t : AddressType} {p : Parser NlriError α} {w : α → Bytes} {l : List α}
    (hp : ∀ a ∈ l, Reads p a (w a)) (hne : ∀ a, w a ≠ []) :
    ReadsAll (nlriMany t p) l (l.map w).flatten :=
  ReadsAll.many (fun a ha => (hp a ha).mapErr _) fun a _ => hne a

theorem reads_nlri {c : AttrCtx} {l : NlriList} (h : l.WF c) :
    ∃ p, nlriFor c l.family = some p ∧ ReadsAll p l l.bytes := by
  cases l with
  | uni4 l =>
    exact ⟨_, rfl, ReadsAll.map _ (nlriMany_reads (fun a ha => reads_netAddr (.inl rfl) (h a ha)) netAddr_ne)⟩
  | multi4 l =>
    exact ⟨_, rfl, ReadsAll.map _ (nlriMany_reads (fun a ha => reads_netAddr (.inl rfl) (h a ha)) netAddr_ne)⟩
  | uni6 l =>
    exact ⟨_, rfl, ReadsAll.map _ (nlriMany_reads (fun a ha => reads_netAddr (.inr rfl) (h a ha)) netAddr_ne)⟩
  | multi6 l =>
    exact ⟨_, rfl, ReadsAll.map _ (nlriMany_reads (fun a ha => reads_netAddr (.inr rfl) (h a ha)) netAddr_ne)⟩
  | labels4 l =>
    refine ⟨_, rfl, ReadsAll.map _ (nlriMany_reads (fun a ha => ?_) labeledAddr_ne)⟩
    show Reads (parseLabeledAddr 4 (c.ap .ipv4NlriMplsLabels) false (c.lim .ipv4NlriMplsLabels)) a a.write
    rw [h.1]; exact reads_labeledAddr (.inl rfl) (h.2 a ha)
  | labels6 l =>
    refine ⟨_, rfl, ReadsAll.map _ (nlriMany_reads (fun a ha => ?_) labeledAddr_ne)⟩
    show Reads (parseLabeledAddr 16 (c.ap .ipv6NlriMplsLabels) false (c.lim .ipv6NlriMplsLabels)) a a.write
    rw [h.1]; exact reads_labeledAddr (.inr rfl) (h.2 a ha)
  | vpn4 l =>
    exact ⟨_, rfl, ReadsAll.map _ (nlriMany_reads (fun a ha => reads_vpnAddr (.inl rfl) (h a ha)) vpnAddr_ne)⟩
  | vpn6 l =>
    exact ⟨_, rfl, ReadsAll.map _ (nlriMany_reads (fun a ha => reads_vpnAddr (.inr rfl) (h a ha)) vpnAddr_ne)⟩
  | evpn l =>
    exact ⟨_, rfl, ReadsAll.map _ (nlriMany_reads (fun a ha => reads_evpnAddr (h a ha).1 (h a ha).2) evpnAddr_ne)⟩
  | rtm l => exact ⟨_, rfl, ReadsAll.map _ (nlriMany_reads (fun a ha => reads_rtmAddr (h a ha)) rtmAddr_ne)⟩
  | ls l =>
    exact ⟨_, rfl, ReadsAll.map _ (ReadsAll.many (fun a ha => (reads_lsNlri (h a ha)).mapErr _) fun a _ => lsNlri_ne a)⟩
  | lsVpn l =>
    exact ⟨_, rfl, ReadsAll.map _
      (ReadsAll.many (fun a ha => (reads_lsVpnNlri (h a ha)).mapErr _) fun a _ => lsVpnNlri_ne a)⟩

/-! ## `MP_UNREACH_NLRI` and `MP_REACH_NLRI` -/

theorem length_familyWrite (t : AddressType) : t.write.length = 3 := by simp [AddressType.write, writeFamily]

theorem reads_mpUnreachHead (o : Nat) (a : Afi) (s : Safi) :
    Reads (mpUnreachHead o) (a, s) (writeFamily a.val s.val) := by
  unfold mpUnreachHead writeFamily
  refine Reads.bind ((reads_u16 _).mapErr _) (Reads.bind_nil (Reads.ofOption (afiOf_val a)) ?_)
  exact Reads.u8_cons (Reads.bind_nil (Reads.ofOption (safiOf_val s)) (Reads.pure _))

theorem reads_mpReachHead (a : Afi) (s : Safi) : Reads mpReachHead (a, s) (writeFamily a.val s.val) := by
  unfold mpReachHead writeFamily
  refine Reads.bind ((reads_u16 _).mapErr _) (Reads.getOffset fun _ => Reads.bind_nil (Reads.ofOption (afiOf_val a)) ?_)
  exact Reads.u8_cons (Reads.getOffset fun _ => Reads.bind_nil (Reads.ofOption (safiOf_val s)) (Reads.pure _))

/-- a list of a modelled family that is well formed, or octets of a family without a parser -/
def MpUnreach.WF (c : AttrCtx) (r : MpUnreach) : Prop :=
  match r with
  | known l => l.WF c
  | unknown a s _ => (AddressType.ofAfiSafi a s).bind (nlriFor c) = none

/-- the octets of a well formed `MP_UNREACH_NLRI` -/
def MpUnreach.bytes : MpUnreach → Bytes
  | known l => l.family.write ++ l.bytes
  | unknown a s v => writeFamily a.val s.val ++ v

theorem MpUnreach.value_eq {c : AttrCtx} {r : MpUnreach} (h : r.WF c) : r.value = .ok r.bytes := by
  cases r with
  | known l =>
    have := NlriList.write_eq (l := l) h
    show Res.cat (.ok l.family.write) l.write = _
    rw [this, Res.cat_ok]; rfl
  | unknown a s v => rfl

theorem MpUnreach.length_bytes {c : AttrCtx} {r : MpUnreach} (h : r.WF c) : r.bytes.length = r.valueLen := by
  cases r with
  | known l =>
    show (_ ++ _ : Bytes).length = 3 + l.len
    rw [List.length_append, length_familyWrite, NlriList.length_bytes (l := l) h]
  | unknown a s v => show (_ ++ _ : Bytes).length = 3 + v.length; simp [writeFamily]; omega

theorem reads_mpUnreachBody {c : AttrCtx} {r : MpUnreach} (h : r.WF c) (o : Nat) :
    ReadsAll (do let h ← mpUnreachHead o; mpUnreachBody c h.1 h.2) r r.bytes := by
  cases r with
  | known l =>
    refine ReadsAll.bind (reads_mpUnreachHead o l.family.afi' l.family.safi') ?_
    obtain ⟨p, h1, h2⟩ := reads_nlri (l := l) h
    show ReadsAll (mpUnreachBody c l.family.afi' l.family.safi') _ _
    unfold mpUnreachBody
    rw [AddressType.ofAfiSafi_self, Option.bind_some, h1]
    exact ReadsAll.map _ h2
  | unknown a s v =>
    refine ReadsAll.bind (reads_mpUnreachHead o a s) ?_
    show ReadsAll (mpUnreachBody c a s) _ _
    unfold mpUnreachBody
    rw [show (AddressType.ofAfiSafi a s).bind (nlriFor c) = none from h]
    exact ReadsAll.map _ (readsAll_rest v)

theorem reads_mpUnreach {c : AttrCtx} {ext : Bool} {r : MpUnreach} (h : r.WF c) (hl : r.valueLen ≤ maxAttr ext) :
    Reads (parseMpUnreach c ext) r (lenOctets ext r.valueLen ++ r.bytes) := by
  have e := MpUnreach.length_bytes h
  rw [← e] at hl ⊢
  refine attrSlice_reads hl fun _ => Reads.getOffset fun o => ?_
  exact ReadsAll.onSub (reads_mpUnreachBody h o) fun _ _ => Reads.pure _

/-- an IPv4 next hop has no link-local address beside it -/
def dualOk : IpAddr → Option (BitVec 128) → Prop
  | .v4 _, some _ => False
  | _, _ => True

theorem reads_dual {t : AddressType} {nh : IpAddr} {loc : Option (BitVec 128)} (h : dualOk nh loc) :
    Reads (parseDualNextHop t) (nh, loc) (writeDual nh loc) := by
  unfold parseDualNextHop writeDual
  refine Reads.getOffset fun o => Reads.u8_cons ?_
  cases nh with
  | v4 a =>
    cases loc with
    | some _ => exact h.elim
    | none =>
      refine Reads.ite_pos rfl ?_
      show Reads _ _ (u32be a ++ [])
      exact Reads.bind ((reads_u32 a).mapErr _) (Reads.pure _)
  | v6 a =>
    cases loc with
    | some b =>
      refine Reads.ite_neg (show ¬ (UInt8.ofNat 32 = 4) by decide)
        (Reads.ite_neg (show ¬ (UInt8.ofNat 32 = 16) by decide) (Reads.ite_pos rfl ?_))
      exact Reads.bind ((reads_u128 a).mapErr _) (Reads.bind_last ((reads_u128 b).mapErr _) (Reads.pure _))
    | none =>
      refine Reads.ite_neg (show ¬ (UInt8.ofNat 16 = 4) by decide) (Reads.ite_pos rfl ?_)
      show Reads _ _ (u128be a ++ [])
      exact Reads.bind ((reads_u128 a).mapErr _) (Reads.pure _)

theorem length_dual (nh : IpAddr) (loc : Option (BitVec 128)) : (writeDual nh loc).length = 1 + dualLen nh loc := by
  cases nh <;> cases loc <;> simp [writeDual, dualLen, ipOctets]

theorem reads_hop6 (g : BitVec 128) (loc : Option (BitVec 128)) : Reads parseNextHop6 (g, loc) (write6 g loc) := by
  unfold parseNextHop6 write6
  cases loc with
  | some b =>
    refine Reads.u8_cons (Reads.bind ((reads_u128 g).mapErr _) (Reads.ite_pos rfl ?_))
    exact Reads.bind_last ((reads_u128 b).mapErr _) (Reads.pure _)
  | none => exact Reads.u8_cons (Reads.bind_last ((reads_u128 g).mapErr _) (Reads.ite_neg (by decide) (Reads.pure _)))

theorem length_hop6 (g : BitVec 128) (loc : Option (BitVec 128)) : (write6 g loc).length = 1 + len6 loc := by
  cases loc <;> simp [write6, len6]

theorem reads_ipHop (t : AddressType) (a : IpAddr) : Reads (parseIpNextHop t) a (writeIpPdu a) := by
  unfold parseIpNextHop parseIpAddr
  refine Reads.mapErr _ (Reads.getOffset fun o => ?_)
  cases a with
  | v4 a => exact Reads.u8_cons (Reads.ite_pos rfl (Reads.bind_last ((reads_u32 a).mapErr _) (Reads.pure _)))
  | v6 a =>
    exact Reads.u8_cons (Reads.ite_neg (by decide) (Reads.ite_pos rfl
      (Reads.bind_last ((reads_u128 a).mapErr _) (Reads.pure _))))

theorem length_ipHop (a : IpAddr) : (writeIpPdu a).length = 1 + dualLen a none := by
  cases a <;> simp [writeIpPdu, dualLen]

/-- the zero route distinguisher, the only one a BGP-LS VPN next hop can be written with -/
def LabeledNextHop.zeroRd : LabeledNextHop → Prop
  | .v4 rd _ | .v6 rd _ _ => rd = .as2 0 0

theorem writeZeroRd_eq {n : LabeledNextHop} (h : n.zeroRd) : writeZeroRd n = n.write := by
  have e : (Rd.as2 0 0).write = List.replicate 8 0 := by rw [rd_as2]; decide
  cases n <;> (obtain rfl := h; simp only [writeZeroRd, LabeledNextHop.write, e])

/-- what can be written and read back: the NLRI are well formed for their family, and the next hop is one the family
has a format for. `unknown` is excluded, its length is wrong. -/
def MpReach.WF (c : AttrCtx) (r : MpReach) : Prop :=
  (match r.nlri with | some l => l.WF c | none => False) ∧
  match r with
  | uni4 nh loc _ | multi4 nh loc _ | labels4 nh loc _ | labels6 nh loc _ => dualOk nh loc
  | vpn4 nh _ | vpn6 nh _ => nh.WF
  | lsVpn nh _ => nh.WF ∧ nh.zeroRd
  | _ => True

/-- the octets of a well formed `MP_REACH_NLRI` -/
def MpReach.bytes (r : MpReach) : Bytes :=
  match r.nlri with
  | some l => l.family.write ++ (r.hop ++ (0 :: l.bytes))
  | none => []

theorem MpReach.length_hop (r : MpReach) : r.hop.length = r.hopLen := by
  cases r with
  | uni4 nh loc _ => exact length_dual nh loc
  | multi4 nh loc _ => exact length_dual nh loc
  | labels4 nh loc _ => exact length_dual nh loc
  | labels6 nh loc _ => exact length_dual nh loc
  | vpn4 nh _ => exact length_labeledNextHop nh
  | vpn6 nh _ => exact length_labeledNextHop nh
  | uni6 g loc _ => exact length_hop6 g loc
  | multi6 g loc _ => exact length_hop6 g loc
  | evpn nh _ => exact length_ipHop nh
  | rtm nh _ => exact length_ipHop nh
  | ls nh _ => exact length_ipHop nh
  | lsVpn nh _ => cases nh <;> simp [MpReach.hop, MpReach.hopLen, writeZeroRd, LabeledNextHop.len]
  | unknown => rfl

theorem MpReach.value_eq {c : AttrCtx} {r : MpReach} (h : r.WF c) : r.value = .ok r.bytes := by
  have key : ∀ l : NlriList, l.WF c → Res.cat (ε := AttrWriteErr) (.ok (l.family.write ++ (r.hop ++ [0]))) l.write =
      .ok (l.family.write ++ (r.hop ++ (0 :: l.bytes))) := by
    intro l hl
    rw [NlriList.write_eq hl, Res.cat_ok]; simp
  cases r with
  | unknown => exact h.1.elim
  | _ => exact key _ h.1

theorem MpReach.length_bytes {c : AttrCtx} {r : MpReach} (h : r.WF c) : r.bytes.length = r.valueLen := by
  have key : ∀ l : NlriList, l.WF c → (l.family.write ++ (r.hop ++ (0 :: l.bytes))).length = 4 + r.hopLen + l.len := by
    intro l hl
    rw [List.length_append, List.length_append, List.length_cons, length_familyWrite, MpReach.length_hop,
      NlriList.length_bytes hl]; omega
  cases r with
  | unknown => exact h.1.elim
  | _ => exact key _ h.1

theorem reachArm_reads {α β : Type} {nh : Parser MpErr α} {p : Parser MpErr (List β)} {mk : α → List β → MpReach}
    {a : α} {l : List β} {w b : Bytes} (h1 : Reads nh a w) (h2 : ReadsAll p l b) :
    ReadsAll (reachArm nh p mk) (mk a l) (w ++ (0 :: b)) :=
  ReadsAll.bind h1 (ReadsAll.cons ((reads_u8 0).mapErr _) (ReadsAll.bind_all h2 (Reads.pure _)))

theorem reads_reach {c : AttrCtx} {r : MpReach} (h : r.WF c) :
    ∃ l p, r.nlri = some l ∧ reachFor c l.family = some p ∧ ReadsAll p r (r.hop ++ (0 :: l.bytes)) := by
  obtain ⟨h, hh⟩ := h
  cases r with
  | uni4 nh loc l =>
    exact ⟨_, _, rfl, rfl, reachArm_reads (reads_dual hh)
      (nlriMany_reads (fun a ha => reads_netAddr (.inl rfl) (h a ha)) netAddr_ne)⟩
  | multi4 nh loc l =>
    exact ⟨_, _, rfl, rfl, reachArm_reads (reads_dual hh)
      (nlriMany_reads (fun a ha => reads_netAddr (.inl rfl) (h a ha)) netAddr_ne)⟩
  | uni6 g loc l =>
    exact ⟨_, _, rfl, rfl, reachArm_reads (reads_hop6 g loc)
      (nlriMany_reads (fun a ha => reads_netAddr (.inr rfl) (h a ha)) netAddr_ne)⟩
  | multi6 g loc l =>
    exact ⟨_, _, rfl, rfl, reachArm_reads (reads_hop6 g loc)
      (nlriMany_reads (fun a ha => reads_netAddr (.inr rfl) (h a ha)) netAddr_ne)⟩
  | labels4 nh loc l =>
    refine ⟨_, _, rfl, rfl, reachArm_reads (reads_dual hh) (nlriMany_reads (fun a ha => ?_) labeledAddr_ne)⟩
    show Reads (parseLabeledAddr 4 (c.ap .ipv4NlriMplsLabels) false (c.lim .ipv4NlriMplsLabels)) a a.write
    rw [h.1]; exact reads_labeledAddr (.inl rfl) (h.2 a ha)
  | labels6 nh loc l =>
    refine ⟨_, _, rfl, rfl, reachArm_reads (reads_dual hh) (nlriMany_reads (fun a ha => ?_) labeledAddr_ne)⟩
    show Reads (parseLabeledAddr 16 (c.ap .ipv6NlriMplsLabels) false (c.lim .ipv6NlriMplsLabels)) a a.write
    rw [h.1]; exact reads_labeledAddr (.inr rfl) (h.2 a ha)
  | vpn4 nh l =>
    exact ⟨_, _, rfl, rfl, reachArm_reads ((reads_labeledNextHop hh).mapErr _)
      (nlriMany_reads (fun a ha => reads_vpnAddr (.inl rfl) (h a ha)) vpnAddr_ne)⟩
  | vpn6 nh l =>
    exact ⟨_, _, rfl, rfl, reachArm_reads ((reads_labeledNextHop hh).mapErr _)
      (nlriMany_reads (fun a ha => reads_vpnAddr (.inr rfl) (h a ha)) vpnAddr_ne)⟩
  | evpn nh l =>
    exact ⟨_, _, rfl, rfl, reachArm_reads (reads_ipHop _ nh)
      (nlriMany_reads (fun a ha => reads_evpnAddr (h a ha).1 (h a ha).2) evpnAddr_ne)⟩
  | rtm nh l =>
    exact ⟨_, _, rfl, rfl, reachArm_reads (reads_ipHop _ nh)
      (nlriMany_reads (fun a ha => reads_rtmAddr (h a ha)) rtmAddr_ne)⟩
  | ls nh l =>
    exact ⟨_, _, rfl, rfl, reachArm_reads (reads_ipHop _ nh)
      (ReadsAll.many (fun a ha => (reads_lsNlri (h a ha)).mapErr _) fun a _ => lsNlri_ne a)⟩
  | lsVpn nh l =>
    refine ⟨_, _, rfl, rfl, reachArm_reads ?_
      (ReadsAll.many (fun a ha => (reads_lsVpnNlri (h a ha)).mapErr _) fun a _ => lsVpnNlri_ne a)⟩
    show Reads _ nh (writeZeroRd nh)
    rw [writeZeroRd_eq hh.2]; exact (reads_labeledNextHop hh.1).mapErr _
  | unknown => exact h.elim

theorem reads_mpReach {c : AttrCtx} {ext : Bool} {r : MpReach} (h : r.WF c) (hl : r.valueLen ≤ maxAttr ext) :
    Reads (parseMpReach c ext) r (lenOctets ext r.valueLen ++ r.bytes) := by
  have e := MpReach.length_bytes h
  rw [← e] at hl ⊢
  refine attrSlice_reads hl fun _ => ReadsAll.onSub ?_ fun _ _ => Reads.pure _
  obtain ⟨l, p, h1, h2, h3⟩ := reads_reach h
  unfold MpReach.bytes
  rw [h1]
  refine ReadsAll.bind (reads_mpReachHead l.family.afi' l.family.safi') ?_
  show ReadsAll (mpReachBody c l.family.afi' l.family.safi') _ _
  unfold mpReachBody
  rw [AddressType.ofAfiSafi_self, Option.bind_some, h2]
  exact h3

/-! ## The attribute -/

/-- the codes with a parser, D:131-222 -/
def attrCodes : List UInt8 := [1, 2, 17, 3, 4, 5, 6, 7, 8, 16, 25, 32, 9, 10, 14, 15, 35, 26, 29, 40]

/-- what can be written and read back in a context: AS numbers have the negotiated width, segments hold 1 to 255
of them, the elements are well formed, and an unknown attribute does not carry the code of a known one -/
def AttrValue.WF (c : AttrCtx) (v : AttrValue) : Prop :=
  match v with
  | asPath (.as2 l) => c.asn4 = false ∧ ∀ s ∈ l, s.WF
  | asPath (.as4 l) => c.asn4 = true ∧ ∀ s ∈ l, s.WF
  | as4Path l => ∀ s ∈ l, s.WF
  | aggregator (.as2 ..) => c.asn4 = false
  | aggregator (.as4 ..) => c.asn4 = true
  | extCommunities l => ∀ a ∈ l, a.WF
  | extCommunities6 l => ∀ a ∈ l, a.WF
  | mpReach r => r.WF c
  | mpUnreach r => r.WF c
  | bgpLs l => ∀ a ∈ l, a.WF
  | prefixSid l => ∀ a ∈ l, a.WF
  | unknown code _ => attrCodes.contains code = false
  | _ => True

/-- the octets of a well formed value -/
def AttrValue.bytes (v : AttrValue) : Bytes := match v.value with | .ok b => b | _ => []

theorem AttrValue.value_eq {c : AttrCtx} {v : AttrValue} {ext : Bool} (h : v.WF c) (hl : v.valueLen ≤ maxAttr ext) :
    v.value = .ok v.bytes ∧ v.bytes.length = v.valueLen := by
  have key : ∀ b, v.value = .ok b → b.length = v.valueLen → v.value = .ok v.bytes ∧ v.bytes.length = v.valueLen := by
    intro b hb hlen
    have : v.bytes = b := by unfold AttrValue.bytes; rw [hb]
    rw [this]; exact ⟨hb, hlen⟩
  cases v with
  | origin o => exact key _ rfl rfl
  | asPath p =>
    cases p with
    | as2 l => exact key _ rfl (length_flatten_sum _ _ _ fun a _ => length_seg (fun _ => by simp) a)
    | as4 l => exact key _ rfl (length_flatten_sum _ _ _ fun a _ => length_seg (fun _ => by simp) a)
  | as4Path l => exact key _ rfl (length_flatten_sum _ _ _ fun a _ => length_seg (fun _ => by simp) a)
  | atomicAggregate => exact key _ rfl rfl
  | aggregator a =>
    cases a with
    | as2 a o => exact key _ rfl (by show (_ ++ _ : Bytes).length = 6; simp)
    | as4 a o => exact key _ rfl (by show (_ ++ _ : Bytes).length = 8; simp)
  | communities l => exact key _ rfl (length_flatten_sum _ _ _ fun a _ => by simp)
  | clusterList l => exact key _ rfl (length_flatten_sum _ _ _ fun a _ => by simp)
  | extCommunities l => exact key _ rfl (length_flatten_sum _ _ _ fun a ha => length_extComm (h a ha))
  | extCommunities6 l => exact key _ rfl (length_flatten_sum _ _ _ fun a ha => length_extComm6 (h a ha))
  | largeCommunities l => exact key _ rfl (length_flatten_sum _ _ _ fun a _ => length_largeComm a)
  | mpReach r => exact key _ (MpReach.value_eq h) (MpReach.length_bytes h)
  | mpUnreach r => exact key _ (MpUnreach.value_eq h) (MpUnreach.length_bytes h)
  | bgpLs l =>
    have h' : LsAttrsWF ext l := ⟨h, hl⟩
    exact key _ (writeLsAttrs_eq h') (length_lsAttrsBytes h')
  | prefixSid l =>
    have h' : SidWF ext l := ⟨h, hl⟩
    exact key _ (writeSid_eq h') (length_sidBytes h')
  | aigp v => exact key _ rfl (by show (_ :: (_ ++ _) : Bytes).length = 11; simp)
  | unknown c v => exact key _ rfl rfl
  | nextHop v => exact key _ rfl (by show (u32be _).length = 4; simp)
  | med v => exact key _ rfl (by show (u32be _).length = 4; simp)
  | localPref v => exact key _ rfl (by show (u32be _).length = 4; simp)
  | originator v => exact key _ rfl (by show (u32be _).length = 4; simp)
  | onlyToCustomer v => exact key _ rfl (by show (u32be _).length = 4; simp)

theorem reads_attrValue {c : AttrCtx} {ext : Bool} {v : AttrValue} (h : v.WF c) (hl : v.valueLen ≤ maxAttr ext) :
    Reads (attrValue c ext v.code) v (lenOctets ext v.valueLen ++ v.bytes) := by
  have key : ∀ b, v.value = .ok b → Reads (attrValue c ext v.code) v (lenOctets ext v.valueLen ++ b) →
      Reads (attrValue c ext v.code) v (lenOctets ext v.valueLen ++ v.bytes) := by
    intro b hb hr
    have : v.bytes = b := by unfold AttrValue.bytes; rw [hb]
    rw [this]; exact hr
  cases v with
  | origin o => exact ((reads_origin ext o).mapErr _).map _
  | asPath p =>
    cases p with
    | as2 l =>
      refine key _ rfl (Reads.map _ (Reads.mapErr _ ?_))
      unfold parseAsPath; rw [h.1]
      exact Reads.map _ (reads_asPath2 h.2 hl)
    | as4 l =>
      refine key _ rfl (Reads.map _ (Reads.mapErr _ ?_))
      unfold parseAsPath; rw [h.1]
      exact Reads.map _ (reads_asPath4 h.2 hl)
  | as4Path l => exact ((reads_asPath4 h hl).mapErr _).map _
  | nextHop v => exact ((reads_fixed (by omega) (reads_u32 v)).mapErr _).map _
  | med v => exact ((reads_fixed (by omega) (reads_u32 v)).mapErr _).map _
  | localPref v => exact ((reads_fixed (by omega) (reads_u32 v)).mapErr _).map _
  | atomicAggregate => exact ((reads_fixed (by omega) (Reads.pure ())).mapErr _).map _
  | aggregator a =>
    cases a with
    | as2 a o =>
      refine key _ rfl (Reads.map _ (Reads.mapErr _ ?_))
      unfold parseAggregator; rw [show c.asn4 = false from h]
      refine reads_fixed (by omega) (Reads.bind (reads_u16 a) (Reads.bind_last (reads_u32 o) (Reads.pure _)))
    | as4 a o =>
      refine key _ rfl (Reads.map _ (Reads.mapErr _ ?_))
      unfold parseAggregator; rw [show c.asn4 = true from h]
      refine reads_fixed (by omega) (Reads.bind (reads_u32 a) (Reads.bind_last (reads_u32 o) (Reads.pure _)))
  | communities l =>
    exact ((reads_listAttr (fun a _ => reads_u32 a) (fun a _ => by simp) (fun a _ => by simp) hl).mapErr _).map _
  | clusterList l =>
    exact ((reads_listAttr (fun a _ => reads_u32 a) (fun a _ => by simp) (fun a _ => by simp) hl).mapErr _).map _
  | extCommunities l =>
    exact ((reads_listAttr (fun a ha => reads_extComm (h a ha)) (fun a ha => length_extComm (h a ha))
      (fun a _ => by simp) hl).mapErr _).map _
  | extCommunities6 l =>
    exact ((reads_listAttr (fun a ha => reads_extComm6 (h a ha)) (fun a ha => length_extComm6 (h a ha))
      (fun a _ => by simp) hl).mapErr _).map _
  | largeCommunities l =>
    exact ((reads_listAttr (fun a _ => reads_largeComm a) (fun a _ => length_largeComm a)
      (fun a _ => by simp) hl).mapErr _).map _
  | originator v => exact ((reads_word32 ext v).mapErr _).map _
  | onlyToCustomer v => exact ((reads_word32 ext v).mapErr _).map _
  | aigp v => exact ((reads_aigp ext v).mapErr _).map _
  | mpReach r => exact key _ (MpReach.value_eq h) (((reads_mpReach h hl).mapErr _).map _)
  | mpUnreach r => exact key _ (MpUnreach.value_eq h) (((reads_mpUnreach h hl).mapErr _).map _)
  | bgpLs l =>
    have h' : LsAttrsWF ext l := ⟨h, hl⟩
    exact key _ (writeLsAttrs_eq h') (((reads_lsAttrs h').mapErr _).map _)
  | prefixSid l =>
    have h' : SidWF ext l := ⟨h, hl⟩
    exact key _ (writeSid_eq h') (((reads_sid h').mapErr _).map _)
  | unknown code v =>
    have hc : attrCodes.contains code = false := h
    show Reads (attrValue c ext code) _ (lenOctets ext v.length ++ v)
    unfold attrValue
    iterate 20 refine Reads.ite_neg (by rintro rfl; revert hc; decide) ?_
    exact (reads_unknownAttr hl).mapErr _

/-- an attribute the crate can represent on the wire: the value fits the length field chosen by the extended
length flag, and the flags are those `PathAttribute::from` accepts -/
structure PathAttr.WF (c : AttrCtx) (a : PathAttr) : Prop where
  value : a.value.WF c
  fits : a.value.valueLen ≤ if a.ext then 65535 else 255
  flags : PathAttr.make a.optional a.transitive a.partialBit a.ext a.value = .ok a

/-- the octets of a well formed attribute -/
def PathAttr.bytes (a : PathAttr) : Bytes :=
  (orBit a.optional 0x80 ||| orBit a.transitive 0x40 ||| orBit a.partialBit 0x20 ||| orBit a.ext 0x10) ::
    a.value.code :: (lenOctets a.ext a.value.valueLen ++ a.value.bytes)

theorem PathAttr.write_eq {c : AttrCtx} {a : PathAttr} (h : a.WF c) : a.write = .ok a.bytes := by
  unfold PathAttr.write
  rw [(AttrValue.value_eq h.value (ext := a.ext) h.fits).1, writeLength_eq h.fits, Res.cat_ok]
  rfl

theorem PathAttr.length_bytes {c : AttrCtx} {a : PathAttr} (h : a.WF c) : a.bytes.length = a.len := by
  unfold PathAttr.bytes PathAttr.len
  rw [List.length_cons, List.length_cons, List.length_append, length_lenOctets,
    (AttrValue.value_eq h.value (ext := a.ext) h.fits).2]
  omega

theorem attrFlags (o t p e : Bool) (f : UInt8) (h : f = (orBit o 0x80 ||| orBit t 0x40 ||| orBit p 0x20 ||| orBit e 0x10)) :
    hasBit f 0x80 = o ∧ hasBit f 0x40 = t ∧ hasBit f 0x20 = p ∧ hasBit f 0x10 = e := by
  subst h; cases o <;> cases t <;> cases p <;> cases e <;> decide

theorem reads_attr {c : AttrCtx} {a : PathAttr} (h : a.WF c) : Reads (parseAttr c) a a.bytes := by
  unfold parseAttr PathAttr.bytes
  obtain ⟨h1, h2, h3, h4⟩ := attrFlags a.optional a.transitive a.partialBit a.ext _ rfl
  refine Reads.getOffset fun o => Reads.u8_cons (Reads.u8_cons ?_)
  simp only [h1, h2, h3, h4]
  refine Reads.bind_last (reads_attrValue h.value h.fits) ?_
  simp only [h.flags]
  exact Reads.pure a

theorem attr_ne_nil (a : PathAttr) : a.bytes ≠ [] := by simp [PathAttr.bytes]

/-! ## No panic -/

theorem safe_attrLen {ε : Type} (g : ParseError → ε) (ext : Bool) : Safe 1 (attrLen g ext) := by
  unfold attrLen
  exact safe_ite (fun _ => (safe_map _ (safe_mapErr _ safe_readU16)).mono (by omega))
    fun _ => safe_map _ (safe_mapErr _ safe_readU8)

theorem safe_times {ε α : Type} {p : Parser ε α} (h : Safe 0 p) : ∀ n, Safe 0 (times p n)
  | 0 => safe_pure _
  | n + 1 => safe_bind_r h fun _ => safe_bind_r (safe_times h n) fun _ => safe_pure _

theorem safe_parseOrigin (ext : Bool) : Safe 1 (parseOrigin ext) := by
  unfold parseOrigin
  refine safe_bind_r safe_getOffset fun _ => safe_bind_l (safe_attrLen _ _) fun l => ?_
  psafe

theorem safe_parseSeg {α : Type} {rd : Parser ParseError α} (h : Safe 0 rd) (w : Nat) : Safe 1 (parseSeg rd w) := by
  unfold parseSeg
  refine safe_bind_r safe_getOffset fun _ => safe_bind_l (safe_mapErr _ safe_readU8) fun c => ?_
  psafe [safe_times (safe_mapErr AsPathErr.parse h) _]

theorem safe_attrMany {ε α : Type} {g : ParseError → ε} {ext : Bool} {p : Parser ε α} (h : Safe 1 p) :
    Safe 1 (attrMany g ext p) :=
  safe_bind_l (safe_attrSlice _ _) fun _ => safe_bind_r (safe_onSub _ (safe_many h)) fun _ => safe_pure _

theorem safe_fixedAttr {α : Type} {n : Nat} {ext : Bool} {p : Parser ParseError α} (h : Safe 0 p) :
    Safe 1 (fixedAttr n ext p) :=
  safe_bind_r safe_getOffset fun _ => safe_bind_l (safe_attrLen _ _) fun _ =>
    safe_ite (fun _ => safe_mapErr _ h) fun _ => safe_fail _ _

theorem safe_parseAggregator (ext asn4 : Bool) : Safe 1 (parseAggregator ext asn4) := by
  unfold parseAggregator
  refine safe_ite (fun _ => safe_fixedAttr ?_) fun _ => safe_fixedAttr ?_ <;> psafe

theorem safe_word32 (ext : Bool) : Safe 1 (word32Attr ext) :=
  safe_bind_l (safe_attrSlice _ _) fun _ => safe_bind_r (safe_onSub _ safe_readU32.zero) fun _ => safe_pure _

theorem safe_parseAigp (ext : Bool) : Safe 1 (parseAigp ext) := by
  refine safe_bind_l (safe_attrSlice _ _) fun _ => safe_bind_r (safe_onSub (k := 0) _ ?_) fun _ => safe_pure _
  unfold aigpBody; psafe

theorem safeAt_parseUnknownAttr (code : UInt8) (ext : Bool) : SafeAt 1 1 (parseUnknownAttr code ext) := by
  unfold parseUnknownAttr
  refine safeAt_bind (j := 1) (k := 0) ((safe_attrLen _ _).at 1) fun l => ?_
  refine safeAt_bind_r (safe_getRemaining.at _) fun rem => ?_
  refine safeAt_ite (fun _ => ?_) fun _ => ?_
  · refine ⟨fun r hr => ?_⟩
    rw [bind_ok (getOffset_run r), if_neg (by omega)]
    exact (safe_fail _ _).out r
  · exact Safe.at (safe_bind_r (safe_mapErr _ (safe_readBytes _)).zero fun _ => safe_pure _) _

/-- the label limits under which the label parsers cannot overflow (C43) -/
def AttrCtx.LimOk (c : AttrCtx) : Prop :=
  (c.lim .ipv4MplsLabeledVpn).toNat ≤ 7 ∧ (c.lim .ipv6MplsLabeledVpn).toNat ≤ 7 ∧
    (c.lim .ipv4NlriMplsLabels).toNat ≤ 10 ∧ (c.lim .ipv6NlriMplsLabels).toNat ≤ 10

theorem safe_nlriMany {α : Type} {t : AddressType} {p : Parser NlriError α} (h : Safe 1 p) : Safe 0 (nlriMany t p) :=
  safe_many (safe_mapErr _ h)

theorem safeAt_nlriFor {c : AttrCtx} (hc : c.LimOk) {t : AddressType} {p : Parser MpErr NlriList}
    (h : nlriFor c t = some p) : SafeAt 2 0 p := by
  obtain ⟨h1, h2, h3, h4⟩ := hc
  cases t <;> unfold nlriFor at h <;> simp only [Option.some.injEq, reduceCtorEq] at h <;> subst h
  · exact (safe_map _ (safe_nlriMany (safe_parseNetAddr ..))).at 2
  · exact (safe_map _ (safe_nlriMany (safe_parseNetAddr ..))).at 2
  · exact (safe_map _ (safe_nlriMany (safe_parseVpnAddr _ _ _ _ _ h1))).at 2
  · exact (safe_map _ (safe_nlriMany (safe_parseLabeledAddr _ _ _ _ h3))).at 2
  · exact (safe_map _ (safe_nlriMany (safe_parseNetAddr ..))).at 2
  · exact (safe_map _ (safe_nlriMany (safe_parseNetAddr ..))).at 2
  · exact (safe_map _ (safe_nlriMany (safe_parseVpnAddr _ _ _ _ _ h2))).at 2
  · exact (safe_map _ (safe_nlriMany (safe_parseLabeledAddr _ _ _ _ h4))).at 2
  · exact (safe_map _ (safe_nlriMany (safe_parseEvpnAddr _))).at 2
  · exact safeAt_map _ (safeAt_many (safeAt_mapErr _ (safeAt_parseLsNlri _)))
  · exact safeAt_map _ (safeAt_many (safeAt_mapErr _ (safeAt_parseLsVpnNlri _)))
  · exact (safe_map _ (safe_nlriMany (safe_parseRtmAddr _))).at 2

theorem safe_dualNextHop (t : AddressType) : Safe 0 (parseDualNextHop t) := by unfold parseDualNextHop; psafe
theorem safe_nextHop6 : Safe 0 parseNextHop6 := by unfold parseNextHop6; psafe
theorem safe_ipNextHop (t : AddressType) : Safe 0 (parseIpNextHop t) := by unfold parseIpNextHop parseIpAddr; psafe
theorem safe_labNextHop (t : AddressType) : Safe 0 (parseLabNextHop t) := (safe_mapErr _ safe_parseLabeledNextHop).zero

theorem safeAt_reachArm {α β : Type} {nh : Parser MpErr α} {p : Parser MpErr (List β)} {mk : α → List β → MpReach}
    (h1 : Safe 0 nh) (h2 : SafeAt 2 0 p) : SafeAt 2 0 (reachArm nh p mk) := by
  unfold reachArm
  refine safeAt_bind_r (h1.at 2) fun _ => safeAt_bind_r ((safe_mapErr _ safe_readU8).zero.at 2) fun _ => ?_
  exact safeAt_bind_r h2 fun _ => (safe_pure _).at 2

theorem safeAt_reachFor {c : AttrCtx} (hc : c.LimOk) {t : AddressType} {p : Parser MpErr MpReach}
    (h : reachFor c t = some p) : SafeAt 2 0 p := by
  obtain ⟨h1, h2, h3, h4⟩ := hc
  cases t <;> unfold reachFor at h <;> simp only [Option.some.injEq, reduceCtorEq] at h <;> subst h
  · exact safeAt_reachArm (safe_dualNextHop _) ((safe_nlriMany (safe_parseNetAddr ..)).at 2)
  · exact safeAt_reachArm (safe_dualNextHop _) ((safe_nlriMany (safe_parseNetAddr ..)).at 2)
  · exact safeAt_reachArm (safe_labNextHop _) ((safe_nlriMany (safe_parseVpnAddr _ _ _ _ _ h1)).at 2)
  · exact safeAt_reachArm (safe_dualNextHop _) ((safe_nlriMany (safe_parseLabeledAddr _ _ _ _ h3)).at 2)
  · exact safeAt_reachArm safe_nextHop6 ((safe_nlriMany (safe_parseNetAddr ..)).at 2)
  · exact safeAt_reachArm safe_nextHop6 ((safe_nlriMany (safe_parseNetAddr ..)).at 2)
  · exact safeAt_reachArm (safe_labNextHop _) ((safe_nlriMany (safe_parseVpnAddr _ _ _ _ _ h2)).at 2)
  · exact safeAt_reachArm (safe_dualNextHop _) ((safe_nlriMany (safe_parseLabeledAddr _ _ _ _ h4)).at 2)
  · exact safeAt_reachArm (safe_ipNextHop _) ((safe_nlriMany (safe_parseEvpnAddr _)).at 2)
  · exact safeAt_reachArm (safe_ipNextHop _) (safeAt_many (safeAt_mapErr _ (safeAt_parseLsNlri _)))
  · exact safeAt_reachArm (safe_labNextHop _) (safeAt_many (safeAt_mapErr _ (safeAt_parseLsVpnNlri _)))
  · exact safeAt_reachArm (safe_ipNextHop _) ((safe_nlriMany (safe_parseRtmAddr _)).at 2)

theorem _root_.Verif.Parser.bind_assoc {ε α β γ : Type} (p : Parser ε α) (f : α → Parser ε β) (g : β → Parser ε γ) :
    p >>= f >>= g = p >>= fun a => f a >>= g := by
  funext r
  show Parser.bind (Parser.bind p f) g r = Parser.bind p (fun a => Parser.bind (f a) g) r
  unfold Parser.bind
  rcases p r with ⟨_ | _ | _, _⟩ <;> rfl

theorem safeAt_attrSlice {ε β : Type} {m : Nat} {g : ParseError → ε} {ext : Bool} {f : Reader → Parser ε β}
    (hf : ∀ s : Reader, m ≤ s.offset → SafeAt m 0 (f s)) : SafeAt m 1 (attrSlice g ext >>= f) := by
  have e : attrSlice g ext >>= f =
      if ext then mapErr g readU16 >>= fun l => mapErr g (takeSlice l.toNat) >>= f
      else mapErr g readU8 >>= fun l => mapErr g (takeSlice l.toNat) >>= f := by
    unfold attrSlice
    cases ext <;> simp only [Bool.false_eq_true, if_false, if_true, Parser.bind_assoc]
  rw [e]
  refine safeAt_ite (fun _ => ?_) fun _ => ?_
  · refine SafeAt.mono (k := 2) (safeAt_bind (k := 0) ((safe_mapErr _ safe_readU16).at m) fun l => ?_) (by omega)
    exact SafeAt.from (safeAt_slice hf) (by omega)
  · refine safeAt_bind (k := 0) ((safe_mapErr _ safe_readU8).at m) fun l => ?_
    exact SafeAt.from (safeAt_slice hf) (by omega)

theorem safeAt_parseMpUnreach {c : AttrCtx} (hc : c.LimOk) (ext : Bool) : SafeAt 2 1 (parseMpUnreach c ext) := by
  refine safeAt_attrSlice fun s hs => safeAt_bind_r (safe_getOffset.at 2) fun o => ?_
  refine safeAt_bind_r (safeAt_onSub (k := 0) hs ?_) fun _ => (safe_pure _).at 2
  refine safeAt_bind_r (Safe.at (by unfold mpUnreachHead; psafe) 2) fun h => ?_
  unfold mpUnreachBody
  split
  · rename_i p hp
    obtain ⟨t, _, ht⟩ := Option.bind_eq_some_iff.mp hp
    exact safeAt_map _ (safeAt_nlriFor hc ht)
  · exact (safe_map _ (safe_restBytes _)).at 2

theorem safeAt_parseMpReach {c : AttrCtx} (hc : c.LimOk) (ext : Bool) : SafeAt 2 1 (parseMpReach c ext) := by
  refine safeAt_attrSlice fun s hs => ?_
  refine safeAt_bind_r (safeAt_onSub (k := 0) hs ?_) fun _ => (safe_pure _).at 2
  refine safeAt_bind_r (Safe.at (by unfold mpReachHead; psafe) 2) fun h => ?_
  unfold mpReachBody
  split
  · rename_i p hp
    obtain ⟨t, _, ht⟩ := Option.bind_eq_some_iff.mp hp
    exact safeAt_reachFor hc ht
  · exact (safe_map _ (safe_restBytes _)).at 2

theorem safeAt_attrValue {c : AttrCtx} (hc : c.LimOk) (ext : Bool) (code : UInt8) : SafeAt 2 1 (attrValue c ext code) := by
  unfold attrValue
  refine safeAt_ite (fun _ => (safe_map _ (safe_mapErr _ (safe_parseOrigin _))).at 2) fun _ => ?_
  refine safeAt_ite (fun _ => ?_) fun _ => ?_
  · refine (safe_map _ (safe_mapErr _ ?_)).at 2
    unfold parseAsPath
    exact safe_ite (fun _ => safe_map _ (safe_attrMany (safe_parseSeg safe_readU32.zero 4)))
      fun _ => safe_map _ (safe_attrMany (safe_parseSeg safe_readU16.zero 2))
  refine safeAt_ite (fun _ => (safe_map _ (safe_mapErr _ (safe_attrMany (safe_parseSeg safe_readU32.zero 4)))).at 2)
    fun _ => ?_
  iterate 3
    refine safeAt_ite (fun _ => (safe_map _ (safe_mapErr _ (safe_fixedAttr safe_readU32.zero))).at 2) fun _ => ?_
  refine safeAt_ite (fun _ => (safe_map _ (safe_mapErr _ (safe_fixedAttr (safe_pure _)))).at 2) fun _ => ?_
  refine safeAt_ite (fun _ => (safe_map _ (safe_mapErr _ (safe_parseAggregator _ _))).at 2) fun _ => ?_
  refine safeAt_ite (fun _ => (safe_map _ (safe_mapErr _ (safe_attrMany (safe_mapErr _
    (safe_readU32.mono (by omega)))))).at 2) fun _ => ?_
  refine safeAt_ite (fun _ => (safe_map _ (safe_mapErr _ (safe_attrMany (safe_mapErr _ safe_parseExtComm)))).at 2)
    fun _ => ?_
  refine safeAt_ite (fun _ => (safe_map _ (safe_mapErr _ (safe_attrMany (safe_mapErr _ safe_parseExtComm6)))).at 2)
    fun _ => ?_
  refine safeAt_ite (fun _ => (safe_map _ (safe_mapErr _ (safe_attrMany (safe_mapErr _ safe_parseLargeComm)))).at 2)
    fun _ => ?_
  refine safeAt_ite (fun _ => (safe_map _ (safe_mapErr _ (safe_word32 _))).at 2) fun _ => ?_
  refine safeAt_ite (fun _ => (safe_map _ (safe_mapErr _ (safe_attrMany (safe_mapErr _
    (safe_readU32.mono (by omega)))))).at 2) fun _ => ?_
  refine safeAt_ite (fun _ => safeAt_map _ (safeAt_mapErr _ (safeAt_parseMpReach hc _))) fun _ => ?_
  refine safeAt_ite (fun _ => safeAt_map _ (safeAt_mapErr _ (safeAt_parseMpUnreach hc _))) fun _ => ?_
  refine safeAt_ite (fun _ => (safe_map _ (safe_mapErr _ (safe_word32 _))).at 2) fun _ => ?_
  refine safeAt_ite (fun _ => (safe_map _ (safe_mapErr _ (safe_parseAigp _))).at 2) fun _ => ?_
  refine safeAt_ite (fun _ => (safe_map _ (safe_mapErr _ (safe_parseLsAttrs _))).at 2) fun _ => ?_
  refine safeAt_ite (fun _ => (safe_map _ (safe_mapErr _ (safe_parseSid _))).at 2) fun _ => ?_
  exact safeAt_mapErr _ ((safeAt_parseUnknownAttr _ _).from (by omega))

theorem safe_parseAttr {c : AttrCtx} (hc : c.LimOk) : Safe 3 (parseAttr c) := by
  refine SafeAt.safe ?_
  unfold parseAttr
  refine safeAt_bind_r (safe_getOffset.at 0) fun o => ?_
  refine safeAt_bind (j := 1) (k := 2) ((safe_mapErr _ safe_readU8).at 0) fun f => ?_
  refine safeAt_bind (j := 1) (k := 1) ((safe_mapErr _ safe_readU8).at _) fun code => ?_
  refine safeAt_bind (j := 1) (k := 0) (safeAt_attrValue hc _ _) fun v => ?_
  split
  · exact (safe_pure _).at _
  · exact (safe_fail _ _).at _

end Verif.Bgp
