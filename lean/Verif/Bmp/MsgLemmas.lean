import Verif.Bmp.HeaderLemmas
import Verif.Bmp.Msg
/-!
# BMP messages: what is written is read back
-/
namespace Verif.Bmp
open Verif Bgp Parser

theorem Reads.takeSlice_last {ε β : Type} {f : Reader → Parser ε β} {g : ParseError → ε} {v : Bytes} {b : β} {n : Nat}
    (hn : v.length = n) (h : ∀ o, Reads (f ⟨v, o⟩) b []) : Reads (Parser.mapErr g (Verif.takeSlice n) >>= f) b v := by
  have := Reads.takeSlice (g := g) hn h; rwa [List.append_nil] at this
theorem CRd.takeSlice_last {σ ε β : Type} {P Q : σ → Prop} {f : Reader → CParser σ ε β} {g : ParseError → ε} {v : Bytes} {b : β} {n : Nat}
    (hn : v.length = n) (h : ∀ o, CRd P Q (f ⟨v, o⟩) b []) : CRd P Q (CParser.lift (Parser.mapErr g (Verif.takeSlice n)) >>= f) b v := by
  have := CRd.takeSlice (g := g) hn h; rwa [List.append_nil] at this

/-! ## Information elements -/

theorem InfoType.ofCode_code (t : InfoType) : InfoType.ofCode t.code = some t := by
  cases t with
  | text k => cases k <;> rfl
  | experimental n => revert n; decide
theorem TermType.ofCode_code (t : TermType) : TermType.ofCode t.code = some t := by
  cases t with
  | string => rfl
  | reason => rfl
  | experimental n => revert n; decide
theorem MirrorType.ofCode_code (t : MirrorType) : MirrorType.ofCode t.code = some t := by
  cases t with
  | message => rfl
  | information => rfl
  | experimental n => revert n; decide

/-- the value fits the length field -/
def Info.WF (i : Info) : Prop := i.value.length ≤ 65535
/-- the value fits the length field -/
def TermInfo.WF (i : TermInfo) : Prop := i.value.length ≤ 65535

theorem readsAll_infoBody (i : Info) : ReadsAll (infoBody i.type) i i.value := by
  unfold infoBody
  refine ReadsAll.getOffset fun o => ReadsAll.bind_all (readsAll_rest _) ?_
  cases i with
  | text k s => exact Reads.bind_nil (Reads.ofOption (ofUtf8_utf8 s)) (Reads.pure _)
  | experimental n v => exact Reads.pure _

theorem reads_info {i : Info} (h : i.WF) : Reads parseInfo i i.write := by
  unfold parseInfo Info.write
  refine Reads.bind ((reads_u16 _).mapErr _) (Reads.getOffset fun o => ?_)
  refine Reads.bind_nil (Reads.ofOption (InfoType.ofCode_code _)) (Reads.bind ((reads_u16 _).mapErr _) ?_)
  refine Reads.takeSlice_last (UInt16.toNat_ofNat_le h).symm fun o' => ?_
  exact ReadsAll.onSub (readsAll_infoBody i) fun s' _ => Reads.pure _

@[simp] theorem Info.length_write (i : Info) : i.write.length = i.len := by simp [Info.write, Info.len]; omega
theorem Info.write_ne (i : Info) : i.write ≠ [] := by
  intro h; have := congrArg List.length h; simp [Info.len] at this

theorem flatMap_eq {α : Type} (f : α → Bytes) (l : List α) : l.flatMap f = (l.map f).flatten := by
  induction l with
  | nil => rfl
  | cons a l ih => simp [ih]

theorem length_flatMap_sum {α : Type} {f : α → Bytes} {n : α → Nat} {l : List α} (h : ∀ a ∈ l, (f a).length = n a) :
    (l.flatMap f).length = (l.map n).sum := by
  induction l with
  | nil => rfl
  | cons a l ih => simp [h a (by simp), ← ih fun b hb => h b (by simp [hb])]

@[simp] theorem length_infosWrite (l : List Info) : (infosWrite l).length = infosLen l :=
  length_flatMap_sum fun i _ => i.length_write

theorem readsAll_infos {ε : Type} {l : List Info} (h : ∀ i ∈ l, i.WF) (g : InfoErr → ε) :
    ReadsAll (many (mapErr g parseInfo)) l (infosWrite l) := by
  unfold infosWrite
  rw [flatMap_eq]
  exact ReadsAll.many (fun i hi => (reads_info (h i hi)).mapErr _) fun i _ => i.write_ne

/-! ## Termination -/

theorem readsAll_termBody (i : TermInfo) : ReadsAll (termBody i.type) i i.value := by
  cases i with
  | string s =>
    exact ReadsAll.getOffset fun o => ReadsAll.bind_all (readsAll_rest _)
      (Reads.bind_nil (Reads.ofOption (ofUtf8_utf8 s)) (Reads.pure _))
  | reason r =>
    have hr : TermReason.ofCode r.1 = some r := by unfold TermReason.ofCode; rw [dif_pos r.2]
    refine Reads.all (Reads.bind_last ((reads_u16 r.1).mapErr _) (Reads.getOffset fun o => Reads.bind_nil (Reads.ofOption hr) ?_))
    exact Reads.pure _
  | experimental n v => exact ReadsAll.bind_all (readsAll_rest _) (Reads.pure _)

theorem reads_termInfo {i : TermInfo} (h : i.WF) : Reads parseTermInfo i i.write := by
  unfold parseTermInfo TermInfo.write
  refine Reads.bind ((reads_u16 _).mapErr _) (Reads.getOffset fun o => ?_)
  refine Reads.bind_nil (Reads.ofOption (TermType.ofCode_code _)) (Reads.bind ((reads_u16 _).mapErr _) ?_)
  refine Reads.takeSlice_last (UInt16.toNat_ofNat_le h).symm fun o' => ?_
  refine ReadsAll.onSub (readsAll_termBody i) fun s' hs => ?_
  simp only
  rw [if_pos hs]
  exact Reads.pure _

@[simp] theorem TermInfo.length_write (i : TermInfo) : i.write.length = i.len := by simp [TermInfo.write, TermInfo.len]; omega
theorem TermInfo.write_ne (i : TermInfo) : i.write ≠ [] := by
  intro h; have := congrArg List.length h; simp [TermInfo.len] at this

theorem readsAll_termInfos {ε : Type} {l : List TermInfo} (h : ∀ i ∈ l, i.WF) (g : TermErr → ε) :
    ReadsAll (many (mapErr g parseTermInfo)) l (l.flatMap TermInfo.write) := by
  rw [flatMap_eq]
  exact ReadsAll.many (fun i hi => (reads_termInfo (h i hi)).mapErr _) fun i _ => i.write_ne

/-! ## Statistics -/

/-- opaque values fit the length field and an unknown code is not one of those that are known -/
def Counter.WF : Counter → Prop
  | .experimental _ v => v.length ≤ 65535
  | .unknown c v => v.length ≤ 65535 ∧ c ∉ codes32 ∧ c ∉ codes64 ∧ c ∉ codesFam ∧ ofExp16 c = none
  | _ => True

theorem codes32_64 : ∀ c ∈ codes64, c ∉ codes32 := by decide
theorem codes32_fam : ∀ c ∈ codesFam, c ∉ codes32 := by decide
theorem codes64_fam : ∀ c ∈ codesFam, c ∉ codes64 := by decide
theorem exp16_codes (n : Fin 4) : exp16 n ∉ codes32 ∧ exp16 n ∉ codes64 ∧ exp16 n ∉ codesFam := by revert n; decide

theorem readsAll_counterBody {c : Counter} (h : c.WF) : ReadsAll (counterBody c.code) c c.value := by
  unfold counterBody
  cases c with
  | u32 c v =>
    rw [dif_pos (show Counter.code (.u32 c v) ∈ codes32 from c.2)]
    exact Reads.all (Reads.bind_last ((reads_u32 v).mapErr _) (by exact Reads.pure _))
  | u64 c v =>
    rw [dif_neg (show ¬ Counter.code (.u64 c v) ∈ codes32 from codes32_64 _ c.2),
      dif_pos (show Counter.code (.u64 c v) ∈ codes64 from c.2)]
    exact Reads.all (Reads.bind_last ((reads_u64 v).mapErr _) (by exact Reads.pure _))
  | family c t v =>
    rw [dif_neg (show ¬ Counter.code (.family c t v) ∈ codes32 from codes32_fam _ c.2),
      dif_neg (show ¬ Counter.code (.family c t v) ∈ codes64 from codes64_fam _ c.2),
      dif_pos (show Counter.code (.family c t v) ∈ codesFam from c.2)]
    have : Counter.value (.family c t v) = (u16be t.afi ++ [t.safi]) ++ u64be v := by simp [Counter.value]
    rw [this]
    exact Reads.all (Reads.bind ((reads_family t).mapErr _) (Reads.bind_last ((reads_u64 v).mapErr _) (by exact Reads.pure _)))
  | experimental n v =>
    obtain ⟨h1, h2, h3⟩ := exp16_codes n
    rw [dif_neg (show ¬ Counter.code (.experimental n v) ∈ codes32 from h1), dif_neg (show ¬ Counter.code (.experimental n v) ∈ codes64 from h2),
      dif_neg (show ¬ Counter.code (.experimental n v) ∈ codesFam from h3)]
    refine ReadsAll.bind_all (readsAll_rest _) ?_
    rw [show ofExp16 (Counter.code (.experimental n v)) = some n from ofExp16_exp16 n]
    exact Reads.pure _
  | unknown c v =>
    obtain ⟨_, h1, h2, h3, h4⟩ := h
    rw [dif_neg (show ¬ Counter.code (.unknown c v) ∈ codes32 from h1), dif_neg (show ¬ Counter.code (.unknown c v) ∈ codes64 from h2),
      dif_neg (show ¬ Counter.code (.unknown c v) ∈ codesFam from h3)]
    refine ReadsAll.bind_all (readsAll_rest _) ?_
    rw [show ofExp16 (Counter.code (.unknown c v)) = none from h4]
    exact Reads.pure _

theorem Counter.value_le {c : Counter} (h : c.WF) : c.value.length ≤ 65535 := by
  cases c with
  | u32 _ _ => simp [Counter.value]
  | u64 _ _ => simp [Counter.value]
  | family _ _ _ => simp [Counter.value]
  | experimental n v => exact h
  | unknown c v => exact h.1

@[simp] theorem Counter.length_write (c : Counter) : c.write.length = c.len := by
  simp [Counter.write, Counter.len]; omega
theorem Counter.write_ne (c : Counter) : c.write ≠ [] := by
  intro h; have := congrArg List.length h; simp [Counter.len] at this

theorem reads_counter {c : Counter} (h : c.WF) : Reads parseCounter c c.write := by
  unfold parseCounter Counter.write
  refine Reads.bind ((reads_u16 _).mapErr _) (Reads.bind ((reads_u16 _).mapErr _) ?_)
  rw [show c.len - 4 = c.value.length by simp [Counter.len]]
  refine Reads.takeSlice_last (UInt16.toNat_ofNat_le (Counter.value_le h)).symm fun o' => ?_
  refine ReadsAll.onSub (readsAll_counterBody h) fun s' hs => ?_
  simp only
  rw [if_pos hs]
  exact Reads.pure _

theorem reads_times {ε α : Type} {p : Parser ε α} {w : α → Bytes} {l : List α} (h : ∀ a ∈ l, Reads p a (w a)) :
    Reads (times p l.length) l (l.map w).flatten := by
  induction l with
  | nil => exact Reads.pure _
  | cons a l ih =>
    refine Reads.bind (h a (by simp)) (Reads.bind_last (ih fun b hb => h b (by simp [hb])) (Reads.pure _))

/-- a statistics report that fits its wire format -/
structure Stats.WF (s : Stats) : Prop where
  header : s.header.WF
  counters : ∀ c ∈ s.counters, c.WF
  count : s.counters.length < 4294967296

theorem reads_stats {s : Stats} (h : s.WF) : Reads parseStats s s.write := by
  unfold parseStats Stats.write
  refine Reads.bind ((reads_bmpHeader h.header).mapErr _) (Reads.bind ((reads_u32 _).mapErr _) ?_)
  rw [UInt32.toNat_ofNat_of_lt' (by exact h.count), flatMap_eq]
  exact Reads.bind_last (reads_times fun c hc => (reads_counter (h.counters c hc)).mapErr _) (Reads.pure _)

theorem Stats.length_write (s : Stats) : s.write.length = s.len := by
  unfold Stats.write Stats.len
  simp only [List.length_append, length_bmpHeader, length_u32be, PeerHeader.len, length_flatMap_sum fun c _ => Counter.length_write c]
  omega

/-! ## BGP messages inside -/

section
variable {ε α : Type}

theorem crd_atPeer {P Q : PeerCtx → Prop} {k : PeerKey} {p : CParser PeerCtx ε α} {a : α} {w : Bytes} (h : CRd P Q p a w) :
    CRd (fun g => P (g.at k)) (fun _ => True) (atPeer k p) a w := by
  intro rest o g hg
  obtain ⟨c, h1, _⟩ := h rest o (g.at k) hg
  exact ⟨g.insert k c, by unfold atPeer; simp only; rw [h1], trivial⟩

theorem crdAll_atPeer {P Q : PeerCtx → Prop} {k : PeerKey} {p : CParser PeerCtx ε α} {a : α} {w : Bytes} (h : CRdAll P Q p a w) :
    CRdAll (fun g => P (g.at k)) (fun _ => True) (atPeer k p) a w := by
  intro o g hg
  obtain ⟨c, h1, _⟩ := h o (g.at k) hg
  exact ⟨g.insert k c, by unfold atPeer; simp only; rw [h1], trivial⟩
end

/-- the settings of a peer are `c`, apart from the width of AS numbers -/
def Has (c : AttrCtx) (x : PeerCtx) : Prop := { x.ctx.attr with asn4 := c.asn4 } = c
/-- the settings of a peer are `c` -/
def Is (c : AttrCtx) (x : PeerCtx) : Prop := x.ctx.attr = c

theorem crd_setAsn4 {ε : Type} {c : AttrCtx} {b : Bool} (hb : c.asn4 = b) : CRd (Has c) (Is c) (setAsn4 b : CParser PeerCtx ε Unit) () [] :=
  crd_modify fun x hx => by
    show { x.ctx.attr with asn4 := b } = c
    rw [← hb]; exact hx
theorem crd_setAsn4' {ε : Type} {c : AttrCtx} {b : Bool} (hb : c.asn4 = b) : CRd (Is c) (Is c) (setAsn4 b : CParser PeerCtx ε Unit) () [] :=
  crd_modify fun x hx => by
    show { x.ctx.attr with asn4 := b } = c
    rw [← hb, show x.ctx.attr = c from hx]

theorem crd_bgpMsg {c : AttrCtx} {m : Msg} (h : m.WF c) : CRd (Is c) (Is c) bgpMsg m m.bytes := by
  intro rest o x hx
  have := (creads_msg x.ctx (m := m) (by rw [show x.ctx.attr = c from hx]; exact h)).run rest o x.ignored
  refine ⟨x, ?_, hx⟩
  unfold bgpMsg
  simp only
  rw [this]

theorem msgBytes_eq {c : AttrCtx} {m : Msg} (h : m.WF c) : msgBytes m = .ok m.bytes := by
  unfold msgBytes; rw [Msg.write_eq h]; rfl

/-! ## Route mirroring -/

/-- a mirrored message that can be read back; raw octets are read as a message -/
def MirrorValue.WF (c : AttrCtx) : MirrorValue → Prop
  | .message (.parsed m) => m.WF c
  | .message (.raw _) => False
  | .information _ => True
  | .experimental _ v => v.length ≤ 65535

/-- the octets of a value -/
def MirrorValue.valueBytes : MirrorValue → Bytes
  | .message (.parsed m) => m.bytes
  | .message (.raw b) => b
  | .information i => u16be i.1
  | .experimental _ v => v
/-- the octets of a TLV -/
def MirrorValue.bytes (v : MirrorValue) : Bytes :=
  u16be v.type.code ++ (u16be (UInt16.ofNat v.valueBytes.length) ++ v.valueBytes)

theorem MirrorValue.len_eq {c : AttrCtx} {v : MirrorValue} (h : v.WF c) : v.len = 4 + v.valueBytes.length ∧ v.valueBytes.length ≤ 65535 := by
  match v, h with
  | .message (.parsed m), h => exact ⟨by simp [MirrorValue.len, MirrorValue.valueBytes, Msg.length_bytes h], by
      rw [MirrorValue.valueBytes, Msg.length_bytes h]; exact (Msg.len_le h).1⟩
  | .information i, _ => simp [MirrorValue.len, MirrorValue.valueBytes]
  | .experimental n v, h => exact ⟨rfl, h⟩

theorem MirrorValue.write_eq {c : AttrCtx} {v : MirrorValue} (h : v.WF c) : v.write = .ok v.bytes := by
  unfold MirrorValue.write MirrorValue.bytes
  have hv : v.value = .ok v.valueBytes := by
    match v, h with
    | .message (.parsed m), h => exact msgBytes_eq h
    | .information i, _ => rfl
    | .experimental n v, h => rfl
  rw [hv, (MirrorValue.len_eq h).1, Res.cat_ok, show 4 + v.valueBytes.length - 4 = v.valueBytes.length by omega]
  simp

theorem MirrorValue.length_bytes {c : AttrCtx} {v : MirrorValue} (h : v.WF c) : v.bytes.length = v.len := by
  rw [(MirrorValue.len_eq h).1]; simp [MirrorValue.bytes]; omega

theorem MirrorValue.bytes_ne (v : MirrorValue) : v.bytes ≠ [] := by
  intro h; have := congrArg List.length h; simp [MirrorValue.bytes] at this

theorem crdAll_mirrorBody {c : AttrCtx} {v : MirrorValue} (h : v.WF c) :
    CRdAll (Is c) (Is c) (mirrorBody (UInt16.ofNat v.valueBytes.length) v.type) v v.valueBytes := by
  match v, h with
  | .message (.parsed m), h => exact CRdAll.bind_all ((crd_bgpMsg h).mapErr _).all (crd_pure _)
  | .information i, _ =>
    have hi : MirrorInfo.ofCode i.1 = some i := by unfold MirrorInfo.ofCode; rw [dif_pos i.2]
    refine crdAll_lift (Reads.all (Reads.bind_last ((reads_u16 i.1).mapErr _) (Reads.getOffset fun o => Reads.bind_nil (Reads.ofOption hi) ?_)))
    exact Reads.pure _
  | .experimental n v, h =>
    refine crdAll_lift (Reads.all (Reads.takeSlice_last ?_ fun o => ?_))
    · exact (UInt16.toNat_ofNat_le h).symm
    · exact Reads.pure _

theorem crd_mirrorValue {c : AttrCtx} {v : MirrorValue} (h : v.WF c) : CRd (Is c) (Is c) parseMirrorValue v v.bytes := by
  unfold parseMirrorValue MirrorValue.bytes
  refine CRd.bind (crd_lift ((reads_u16 _).mapErr _)) (CRd.getOffset fun o => ?_)
  refine CRd.bind_nil (crd_lift (Reads.ofOption (MirrorType.ofCode_code _))) (CRd.bind (crd_lift ((reads_u16 _).mapErr _)) ?_)
  refine CRd.takeSlice_last (UInt16.toNat_ofNat_le (MirrorValue.len_eq h).2).symm fun o' => ?_
  refine CRd.bind_nil (CRdAll.onSub (crdAll_mirrorBody h) o') ?_
  simp only
  rw [if_pos trivial]
  exact crd_pure _

/-- a mirroring message that fits its wire format -/
structure Mirroring.WF (c : AttrCtx) (m : Mirroring) : Prop where
  header : m.header.WF
  asn4 : c.asn4 = m.header.type.asn4
  values : ∀ v ∈ m.values, v.WF c

/-- its octets -/
def Mirroring.bytes (m : Mirroring) : Bytes := m.header.write ++ (m.values.map MirrorValue.bytes).flatten

theorem Mirroring.write_eq {c : AttrCtx} {m : Mirroring} (h : m.WF c) : m.write = .ok m.bytes := by
  unfold Mirroring.write Mirroring.bytes
  rw [Res.catAll_ok (g := MirrorValue.bytes) fun v hv => MirrorValue.write_eq (h.values v hv), Res.cat_ok]

theorem Mirroring.length_bytes {c : AttrCtx} {m : Mirroring} (h : m.WF c) : m.bytes.length = m.len := by
  unfold Mirroring.bytes Mirroring.len
  rw [List.length_append, ← flatMap_eq, length_flatMap_sum (n := MirrorValue.len) fun v hv => MirrorValue.length_bytes (h.values v hv)]
  simp [PeerHeader.len]

theorem crdAll_mirroring {c : AttrCtx} {m : Mirroring} (h : m.WF c) :
    CRdAll (fun g => Has c (g.at m.header.key)) (fun _ => True) parseMirroring m m.bytes := by
  unfold parseMirroring Mirroring.bytes
  refine CRdAll.bind (crd_lift ((reads_bmpHeader h.header).mapErr _)) (CRdAll.bind_all (crdAll_atPeer (Q := Is c) ?_) (crd_pure _))
  refine CRdAll.bind_nil (crd_setAsn4 h.asn4) (crdAll_cmany _ _ (fun v hv => ?_) fun v _ => v.bytes_ne)
  exact CRd.mapErr _ (CRd.bind_last (crd_mirrorValue (h.values v hv)) (crd_pure _))

/-! ## Peer down -/

/-- a reason that can be read back -/
def Reason.WF (c : AttrCtx) : Reason → Prop
  | .localNotification m => m.WF c ∧ m.type = .notification
  | .remoteNotification m => m.WF c ∧ m.type = .notification
  | .localTlv i => i.WF ∧ i.type = .text .vrfTableName
  | _ => True

/-- the octets behind the code -/
def Reason.rest : Reason → Bytes
  | .localNotification m => m.bytes
  | .localFsm e => u16be e
  | .remoteNotification m => m.bytes
  | .remoteNoData => []
  | .deConfigured => []
  | .localTlv i => i.write
  | .experimental _ v => v
/-- the octets of a reason -/
def Reason.bytes (r : Reason) : Bytes := r.code :: r.rest

theorem Reason.write_eq {c : AttrCtx} {r : Reason} (h : r.WF c) : r.write = .ok r.bytes := by
  unfold Reason.write Reason.bytes
  cases r with
  | localNotification m => simp only [msgBytes_eq h.1, Res.cat_ok]; rfl
  | remoteNotification m => simp only [msgBytes_eq h.1, Res.cat_ok]; rfl
  | _ => rfl

theorem Reason.length_bytes {c : AttrCtx} {r : Reason} (h : r.WF c) : r.bytes.length = r.len := by
  unfold Reason.bytes
  cases r with
  | localNotification m => simp only [List.length_cons, Reason.rest, Reason.len, Msg.length_bytes h.1]; omega
  | remoteNotification m => simp only [List.length_cons, Reason.rest, Reason.len, Msg.length_bytes h.1]; omega
  | localTlv i => simp only [List.length_cons, Reason.rest, Reason.len, Info.length_write]; omega
  | _ => simp [Reason.rest, Reason.len]; try omega

theorem Reason.check_none {c : AttrCtx} {r : Reason} (h : r.WF c) : r.check = none := by
  cases r with
  | localNotification m => exact if_pos h.2
  | remoteNotification m => exact if_pos h.2
  | localTlv i => exact if_pos h.2
  | _ => rfl

/-- reasons that take all that is left -/
def Reason.open? : Reason → Bool
  | .experimental .. => true
  | _ => false

theorem reasonBody_exp {o : Nat} {n : Fin 4} : reasonBody o (exp8 n) = (do
    let b ← CParser.lift (restBytes .parse)
    Pure.pure (.experimental n b)) := by
  revert n
  intro n
  unfold reasonBody
  rw [ofExp8_exp8]
  rw [if_neg (by revert n; decide), if_neg (by revert n; decide), if_neg (by revert n; decide), if_neg (by revert n; decide),
    if_neg (by revert n; decide), if_neg (by revert n; decide)]

theorem crd_reason {c : AttrCtx} {r : Reason} (h : r.WF c) (ho : r.open? = false) : CRd (Is c) (Is c) parseReason r r.bytes := by
  unfold parseReason Reason.bytes
  rw [show r.code :: r.rest = [r.code] ++ r.rest from rfl]
  refine CRd.bind (crd_lift ((reads_u8 _).mapErr _)) (CRd.getOffset fun o => ?_)
  cases r with
  | localNotification m => exact CRd.bind_last ((crd_bgpMsg h.1).mapErr _) (crd_pure _)
  | localFsm e => exact CRd.bind_last (crd_lift ((reads_u16 _).mapErr _)) (crd_pure _)
  | remoteNotification m => exact CRd.bind_last ((crd_bgpMsg h.1).mapErr _) (crd_pure _)
  | remoteNoData => exact crd_pure _
  | deConfigured => exact crd_pure _
  | localTlv i => exact CRd.bind_last (crd_lift ((reads_info h.1).mapErr _)) (crd_pure _)
  | experimental n v => simp [Reason.open?] at ho

theorem crdAll_reason {c : AttrCtx} {r : Reason} (h : r.WF c) : CRdAll (Is c) (Is c) parseReason r r.bytes := by
  cases ho : r.open? with
  | false => exact (crd_reason h ho).all
  | true =>
    cases r with
    | experimental n v =>
      unfold parseReason Reason.bytes
      refine CRdAll.bind (v := [exp8 n]) (w := v) (crd_lift ((reads_u8 _).mapErr _)) (CRdAll.getOffset fun o => ?_)
      rw [reasonBody_exp]
      exact CRdAll.bind_all (crdAll_lift (readsAll_rest _)) (crd_pure _)
    | _ => simp [Reason.open?] at ho

/-- a peer down that fits its wire format -/
structure Down3.WF (c : AttrCtx) (d : Down3) : Prop where
  header : d.header.WF
  asn4 : c.asn4 = d.header.type.asn4
  reason : d.reason.WF c

/-- its octets -/
def Down3.bytes (d : Down3) : Bytes := d.header.write ++ d.reason.bytes

theorem Down3.write_eq {c : AttrCtx} {d : Down3} (h : d.WF c) : d.write = .ok d.bytes := by
  unfold Down3.write Down3.bytes; rw [Reason.write_eq h.reason, Res.cat_ok]
theorem Down3.length_bytes {c : AttrCtx} {d : Down3} (h : d.WF c) : d.bytes.length = d.len := by
  unfold Down3.bytes Down3.len; rw [List.length_append, Reason.length_bytes h.reason, length_bmpHeader]; rfl

theorem crdAll_down3 {c : AttrCtx} {d : Down3} (h : d.WF c) :
    CRdAll (fun g => Has c (g.at d.header.key)) (fun _ => True) parseDown3 d d.bytes := by
  unfold parseDown3 Down3.bytes
  refine CRdAll.getOffset fun o => CRdAll.bind (crd_lift ((reads_bmpHeader h.header).mapErr _)) ?_
  refine CRdAll.bind_all (crdAll_atPeer (Q := Is c) (CRdAll.bind_nil (crd_setAsn4 h.asn4) ((crdAll_reason h.reason).mapErr _))) ?_
  rw [Reason.check_none h.reason]
  exact crd_pure _

/-- a peer down that fits its wire format; behind an experimental reason there is no place for TLVs -/
structure Down4.WF (c : AttrCtx) (d : Down4) : Prop where
  header : d.header.WF
  asn4 : c.asn4 = d.header.type.asn4
  reason : d.reason.WF c
  tlvs : ∀ t ∈ d.tlvs, t.value.length + 4 ≤ 65535
  noTlvs : d.reason.open? = true → d.tlvs = []

/-- the octets of a TLV -/
def DownTlv.bytes (t : DownTlv) : Bytes := tlvBytes16 t.code t.value
/-- its octets -/
def Down4.bytes (d : Down4) : Bytes := d.header.write ++ (d.reason.bytes ++ (d.tlvs.map DownTlv.bytes).flatten)

theorem Down4.write_eq {c : AttrCtx} {d : Down4} (h : d.WF c) : d.write = .ok d.bytes := by
  unfold Down4.write Down4.bytes
  rw [Res.catAll_ok (g := DownTlv.bytes) fun t ht => ?_, Reason.write_eq h.reason, Res.cat_ok, Res.cat_ok]
  exact tlvWrite16_ok rfl rfl (h.tlvs t ht)

theorem Down4.length_bytes {c : AttrCtx} {d : Down4} (h : d.WF c) : d.bytes.length = d.len := by
  unfold Down4.bytes Down4.len
  rw [List.length_append, List.length_append, Reason.length_bytes h.reason, length_bmpHeader, ← flatMap_eq,
    length_flatMap_sum (n := DownTlv.len) fun t _ => by simp [DownTlv.bytes, DownTlv.len]]
  simp only [PeerHeader.len]; omega

theorem crdAll_down4 {c : AttrCtx} {d : Down4} (h : d.WF c) :
    CRdAll (fun g => Has c (g.at d.header.key)) (fun _ => True) parseDown4 d d.bytes := by
  unfold parseDown4 Down4.bytes
  refine CRdAll.getOffset fun o => CRdAll.bind (crd_lift ((reads_bmpHeader h.header).mapErr _)) ?_
  have ht : ∀ {P : Peers → Prop}, CRdAll P P (CParser.lift (many (mapErr DownErr.tlv parseDownTlv))) d.tlvs (d.tlvs.map DownTlv.bytes).flatten := by
    intro P
    refine crdAll_lift (ReadsAll.many (fun t ht => Reads.mapErr _ ?_) fun t _ hn => ?_)
    · have := h.tlvs t ht
      exact reads_tlv16 (by omega) fun o => ReadsAll.bind_all (readsAll_rest _) (Reads.pure _)
    · have := congrArg List.length hn; simp [DownTlv.bytes] at this
  cases ho : d.reason.open? with
  | false =>
    refine CRdAll.bind (crd_atPeer (Q := Is c) (CRd.bind_nil (crd_setAsn4 h.asn4) ((crd_reason h.reason ho).mapErr _))) ?_
    refine CRdAll.bind_all ht ?_
    rw [Reason.check_none h.reason]
    exact crd_pure _
  | true =>
    have hn := h.noTlvs ho
    rw [hn, List.map_nil, List.flatten_nil, List.append_nil]
    have h0 : CRdAll (fun _ : Peers => True) (fun _ => True) (CParser.lift (many (mapErr DownErr.tlv parseDownTlv))) [] [] := by
      have := @ht fun _ => True; rwa [hn] at this
    have h1 : CRdAll (fun g => Has c (g.at d.header.key)) (fun _ => True) (atPeer d.header.key do
        setAsn4 d.header.type.asn4
        CParser.mapErr DownErr.reason parseReason) d.reason d.reason.bytes :=
      crdAll_atPeer (Q := Is c) (CRdAll.bind_nil (crd_setAsn4 h.asn4) ((crdAll_reason h.reason).mapErr DownErr.reason))
    intro o' g hg
    obtain ⟨g1, e1, -⟩ := h1 o' g hg
    obtain ⟨g2, e2, -⟩ := h0 (o' + d.reason.bytes.length) g1 trivial
    refine ⟨g2, ?_, trivial⟩
    rw [CParser.bind_ok e1, CParser.bind_ok e2, Reason.check_none h.reason]
    cases d; subst hn; rfl

/-! ## Peer up -/

/-- a peer up that fits its wire format -/
structure PeerUp.WF (u : PeerUp) : Prop where
  header : u.header.WF
  address : AddrOk u.header.type.ipv6 u.address
  localPort : u.localPort ≠ some 0
  remotePort : u.remotePort ≠ some 0
  sent : ∃ m, u.sent = .open m ∧ m.WF
  received : ∃ m, u.received = .open m ∧ m.WF
  infos : ∀ i ∈ u.infos, i.WF

/-- its octets -/
def PeerUp.bytes (u : PeerUp) : Bytes :=
  u.header.write ++ (u128be (addrBits u.address) ++ (u16be (u.localPort.getD 0) ++ (u16be (u.remotePort.getD 0) ++
    ((u.sent.bytes ++ u.received.bytes) ++ infosWrite u.infos))))

theorem PeerUp.WF.sent_wf {u : PeerUp} (h : u.WF) (c : AttrCtx) : u.sent.WF c := by
  obtain ⟨m, e, hm⟩ := h.sent; rw [e]; exact hm
theorem PeerUp.WF.received_wf {u : PeerUp} (h : u.WF) (c : AttrCtx) : u.received.WF c := by
  obtain ⟨m, e, hm⟩ := h.received; rw [e]; exact hm

theorem PeerUp.write_eq {u : PeerUp} (h : u.WF) : u.write = .ok u.bytes := by
  unfold PeerUp.write PeerUp.bytes
  rw [msgBytes_eq (h.sent_wf ⟨false, HMap.empty, HMap.empty⟩), msgBytes_eq (h.received_wf ⟨false, HMap.empty, HMap.empty⟩),
    Res.cat_ok, Res.cat_ok, Res.cat_ok, addressBytes_eq]
  simp

theorem PeerUp.length_bytes {u : PeerUp} (h : u.WF) : u.bytes.length = u.len := by
  unfold PeerUp.bytes PeerUp.len
  simp only [List.length_append, length_bmpHeader, length_u128be, length_u16be, length_infosWrite, PeerHeader.len,
    Msg.length_bytes (h.sent_wf ⟨false, HMap.empty, HMap.empty⟩), Msg.length_bytes (h.received_wf ⟨false, HMap.empty, HMap.empty⟩)]
  omega

theorem portOf_getD {p : Option UInt16} (h : p ≠ some 0) : portOf (p.getD 0) = p := by
  cases p with
  | none => rfl
  | some p => exact if_neg fun e => h (by rw [show p = 0 from e])

theorem crd_bgpMsg_open {m : Msg} (h : ∃ o, m = .open o ∧ o.WF) : CRd (fun _ => True) (fun _ => True) bgpMsg m m.bytes := by
  obtain ⟨o, rfl, ho⟩ := h
  intro rest n x _
  obtain ⟨g, h1, _⟩ := crd_bgpMsg (c := x.ctx.attr) (m := .open o) ho rest n x rfl
  exact ⟨g, h1, trivial⟩

theorem crdAll_up {u : PeerUp} (h : u.WF) : CRdAll (fun _ => True) (fun _ => True) parseUp u u.bytes := by
  unfold parseUp PeerUp.bytes
  refine CRdAll.getOffset fun o => CRdAll.bind (crd_lift ((reads_bmpHeader h.header).mapErr _)) ?_
  refine CRdAll.bind (crd_lift ((reads_u128 _).mapErr _)) (CRdAll.bind (crd_lift ((reads_u16 _).mapErr _)) ?_)
  refine CRdAll.bind (crd_lift ((reads_u16 _).mapErr _)) ?_
  refine CRdAll.bind (Q := fun _ => True) (a := (u.sent, u.received)) (crd_atPeer (P := fun _ => True) (Q := fun _ => True) ?_) ?_
  · refine CRd.bind_nil (crd_modify fun _ _ => trivial) (CRd.bind ((crd_bgpMsg_open h.sent).mapErr _) ?_)
    exact CRd.bind_nil (crd_modify fun _ _ => trivial) (CRd.bind_last ((crd_bgpMsg_open h.received).mapErr _) (crd_pure _))
  · refine CRdAll.bind_all (crdAll_lift (readsAll_infos h.infos _)) ?_
    obtain ⟨m, e, _⟩ := h.sent
    obtain ⟨m', e', _⟩ := h.received
    have : upCheck u.sent u.received = none := by rw [e, e']; rfl
    simp only [this, addressOf_bits h.address, portOf_getD h.localPort, portOf_getD h.remotePort]
    exact crd_pure _

/-! ## Route monitoring -/

/-- a route monitoring message that fits its wire format -/
structure Rm3.WF (c : AttrCtx) (m : Rm3) : Prop where
  header : m.header.WF
  asn4 : c.asn4 = m.header.type.asn4
  msg : m.msg.WF c
  update : m.msg.type = .update

/-- its octets -/
def Rm3.bytes (m : Rm3) : Bytes := m.header.write ++ m.msg.bytes

theorem Rm3.write_eq {c : AttrCtx} {m : Rm3} (h : m.WF c) : m.write = .ok m.bytes := by
  unfold Rm3.write Rm3.bytes; rw [msgBytes_eq h.msg, Res.cat_ok]
theorem Rm3.length_bytes {c : AttrCtx} {m : Rm3} (h : m.WF c) : m.bytes.length = m.len := by
  unfold Rm3.bytes Rm3.len; rw [List.length_append, Msg.length_bytes h.msg, length_bmpHeader]; rfl

theorem crdAll_rm3 {c : AttrCtx} {m : Rm3} (h : m.WF c) :
    CRdAll (fun g => Has c (g.at m.header.key)) (fun _ => True) parseRm3 m m.bytes := by
  intro o g hg
  have h1 := reads_bmpHeader h.header
  obtain ⟨x1, e1, hx1⟩ := crd_setAsn4 (ε := RmErr3) h.asn4 m.msg.bytes (o + m.header.write.length) (g.at m.header.key) hg
  obtain ⟨x2, e2, -⟩ := ((crd_bgpMsg h.msg).mapErr RmErr3.msg).all (o + m.header.write.length) x1 hx1
  refine ⟨g.insert m.header.key x2, ?_, trivial⟩
  unfold parseRm3 Rm3.bytes
  rw [CParser.bind_ok (s' := (⟨m.msg.bytes, o + m.header.write.length⟩, g)) (a := m.header)
    (by rw [CParser.lift_run, Parser.mapErr_ok (h1.run _ _)])]
  rw [CParser.bind_ok (s' := (⟨[], o + m.header.write.length + m.msg.bytes.length⟩, g.insert m.header.key x2))
    (a := (o + m.header.write.length, m.msg))]
  · rw [if_neg (by simp [h.update])]
    simp [Nat.add_assoc]
  · unfold atPeer
    simp only
    rw [CParser.bind_ok (s := (⟨m.msg.bytes, o + m.header.write.length⟩, g.at m.header.key)) e1]
    simp only [List.length_nil, Nat.add_zero]
    rw [CParser.bind_ok (p := CParser.lift getOffset) (s' := (⟨m.msg.bytes, o + m.header.write.length⟩, x1)) (a := o + m.header.write.length) rfl,
      CParser.bind_ok e2]
    simp

/-- a value that can be read back from a TLV -/
def RmVal.WF (index : UInt16) : RmVal → Prop
  | .stateless c => c.Fits ∧ c.len ≤ 65531
  | .group l => 2 * l.length ≤ 65531 ∧ index &&& 0x8000 = 0x8000
  | .vrf s => (utf8 s).length ≤ 255
  | .update _ => False
  | .path _ r => ∀ c, r = some (.unknown c) → ¬ (1 ≤ c.toNat ∧ c.toNat ≤ 11)
  | .unknown c v => v.length ≤ 65531 ∧ c ∉ [1, 2, 3, 4, 5]

/-- the octets of a value -/
def RmVal.bytes : RmVal → Bytes
  | vrf s => utf8 s
  | update m => m.bytes
  | group l => (l.map u16be).flatten
  | stateless c => c.bytes
  | path s r => u32be s ++ (match r with | some r => u16be r.code | none => [])
  | unknown _ v => v
/-- the octets of a TLV -/
def RmTlv.bytes (t : RmTlv) : Bytes :=
  u16be t.value.code ++ (u16be (UInt16.ofNat t.value.bytes.length) ++ (u16be t.index ++ t.value.bytes))

theorem length_flatten_u16 (l : List UInt16) : (l.map u16be).flatten.length = 2 * l.length := by
  induction l with
  | nil => rfl
  | cons a l ih => simp only [List.map_cons, List.flatten_cons, List.length_append, ih, length_u16be, List.length_cons]; omega

theorem RmVal.length_bytes {i : UInt16} {v : RmVal} (h : v.WF i) : v.bytes.length = v.len ∧ v.len ≤ 65531 := by
  cases v with
  | stateless c => exact ⟨(Cap.facts h.1).2.2.1, h.2⟩
  | group l => exact ⟨length_flatten_u16 l, h.1⟩
  | vrf s => exact ⟨rfl, by have : (utf8 s).length ≤ 255 := h; show (utf8 s).length ≤ 65531; omega⟩
  | update m => exact h.elim
  | path s r => cases r <;> simp [RmVal.bytes, RmVal.len]
  | unknown c v => exact ⟨rfl, h.1⟩

theorem RmVal.write_eq {i : UInt16} {v : RmVal} (h : v.WF i) : v.write = .ok v.bytes := by
  cases v with
  | stateless c => simp only [RmVal.write, (Cap.facts h.1).1]; rfl
  | group l => simp only [RmVal.write, RmVal.bytes, flatMap_eq]
  | vrf s => rfl
  | update m => exact h.elim
  | path s r => rfl
  | unknown c v => rfl

theorem RmTlv.write_of {t : RmTlv} (hv : t.value.write = .ok t.value.bytes) (hl : t.value.bytes.length = t.value.len)
    (hn : t.value.len ≤ 65531) : t.write = .ok t.bytes := by
  unfold RmTlv.write RmTlv.bytes RmTlv.len
  rw [hv, show 6 + t.value.len - 2 = 4 + t.value.len by omega, tlvHead16_ok (by omega), Res.cat_ok, Res.cat_ok, hl]
  simp

theorem RmTlv.length_of {t : RmTlv} (hl : t.value.bytes.length = t.value.len) : t.bytes.length = t.len := by
  simp only [RmTlv.bytes, RmTlv.len, List.length_append, length_u16be, hl]; omega

theorem PathReason.ofCode_code {r : PathReason} (h : ∀ c, r = .unknown c → ¬ (1 ≤ c.toNat ∧ c.toNat ≤ 11)) :
    PathReason.ofCode r.code = r := by
  unfold PathReason.ofCode
  cases r with
  | wellKnown c => exact dif_pos c.2
  | unknown c => exact dif_neg (h c rfl)

/-- the change that a TLV makes to the settings for the message -/
def RmVal.apply (out : Bool) (c : AttrCtx) : RmVal → AttrCtx
  | .stateless cap => AttrCtx.update c out cap
  | _ => c

theorem readsAll_path {s : UInt32} {r : Option PathReason} (h : ∀ c, r = some (.unknown c) → ¬ (1 ≤ c.toNat ∧ c.toNat ≤ 11)) :
    ReadsAll parsePath (.path s r) (RmVal.bytes (.path s r)) := by
  refine ⟨fun o => ?_⟩
  unfold parsePath
  cases r with
  | none =>
    rw [show RmVal.bytes (.path s none) = u32be s ++ [] from rfl, Parser.bind_ok (Parser.mapErr_ok ((reads_u32 s).run _ o) _)]
    simp [Parser.bind_ok (p := getOffset) rfl, Parser.bind_ok (p := getRemaining) rfl]
  | some r =>
    rw [show RmVal.bytes (.path s (some r)) = u32be s ++ u16be r.code from rfl, Parser.bind_ok (Parser.mapErr_ok ((reads_u32 s).run _ o) _)]
    have hr := PathReason.ofCode_code (r := r) fun c e => h c (by rw [e])
    have h2 := (reads_u16 r.code).run [] (o + (u32be s).length)
    rw [List.append_nil] at h2
    rw [Parser.bind_ok (p := getOffset) rfl, Parser.bind_ok (p := getRemaining) rfl]
    simp only [length_u16be]
    rw [if_neg (by decide), if_pos trivial, Parser.bind_ok (Parser.mapErr_ok h2 _), hr]
    simp

theorem crdAll_tlvBody {out : Bool} {c : AttrCtx} {i : UInt16} {v : RmVal} (h : v.WF i) :
    CRdAll (Is c) (Is (v.apply out c)) (tlvBody out v.code) v v.bytes ∨
    ((∃ s, v = .vrf s) ∨ ∃ d b, v = .unknown d b) := by
  cases v with
  | stateless cap =>
    refine .inl (CRdAll.bind_all (crd_lift ((Cap.facts h.1).2.1.mapErr _)).all ?_)
    exact CRd.bind_nil (Q := Is (AttrCtx.update c out cap)) (crd_modify fun x hx => by
      show AttrCtx.update x.ctx.attr out cap = _; rw [show x.ctx.attr = c from hx]) (crd_pure _)
  | group l =>
    refine .inl (crdAll_lift (ReadsAll.bind_all (ReadsAll.many (fun a _ => (reads_u16 a).mapErr _) fun a _ hn => ?_) (Reads.pure _)))
    have := congrArg List.length hn; simp at this
  | path s r => exact .inl (crdAll_lift (ReadsAll.mapErr _ (readsAll_path h)))
  | update m => exact h.elim
  | vrf s => exact .inr (.inl ⟨s, rfl⟩)
  | unknown d b => exact .inr (.inr ⟨d, b, rfl⟩)

/-- the body of a TLV; what is left of the slice does not matter -/
theorem tlvBody_run {out : Bool} {c : AttrCtx} {i : UInt16} {v : RmVal} (h : v.WF i) (o : Nat) (x : PeerCtx) (hx : Is c x) :
    ∃ r x', tlvBody out v.code (⟨v.bytes, o⟩, x) = (.ok v, (r, x')) ∧ Is (v.apply out c) x' := by
  rcases crdAll_tlvBody (out := out) (c := c) h with h1 | ⟨s, rfl⟩ | ⟨d, b, rfl⟩
  · obtain ⟨x', e, hx'⟩ := h1 o x hx
    exact ⟨_, x', e, hx'⟩
  · refine ⟨⟨utf8 s, o⟩, x, ?_, hx⟩
    show (CParser.lift _) _ = _
    rw [CParser.lift_run]
    rw [Parser.bind_ok (p := getOffset) rfl, Parser.bind_ok (p := sliceBytes) rfl]
    simp only [RmVal.bytes, ofUtf8_utf8]
    rfl
  · refine ⟨⟨b, o⟩, x, ?_, hx⟩
    have hd := h.2
    simp only [List.mem_cons, List.not_mem_nil, or_false, not_or] at hd
    obtain ⟨h1, h2, h3, h4, h5⟩ := hd
    have e : tlvBody out d = CParser.lift (do
        let b ← sliceBytes
        pure (.unknown d b)) := by
      unfold tlvBody
      rw [if_neg h3, if_neg h4, if_neg h2, if_neg h1, if_neg h5]
    simp only [RmVal.code, e]
    rfl

theorem tlvCheck_none {i : UInt16} {v : RmVal} (h : v.WF i) : tlvCheck i v = none := by
  cases v with
  | group l => exact if_neg (by simp [h.2])
  | vrf s => exact if_neg (by have : (utf8 s).length ≤ 255 := h; omega)
  | update m => exact h.elim
  | _ => rfl

theorem crd_rmTlv {out : Bool} {c : AttrCtx} {t : RmTlv} (h : t.value.WF t.index) :
    CRd (Is c) (Is (t.value.apply out c)) (parseRmTlv out) t t.bytes := by
  obtain ⟨hl, hn⟩ := RmVal.length_bytes h
  have hn' : (UInt16.ofNat t.value.bytes.length).toNat = t.value.bytes.length := UInt16.toNat_ofNat_le (by omega)
  unfold parseRmTlv RmTlv.bytes
  refine CRd.getOffset fun o => CRd.bind (crd_lift ((reads_u16 _).mapErr _)) (CRd.bind (crd_lift ((reads_u16 _).mapErr _)) ?_)
  refine CRd.bind (crd_lift ((reads_u16 _).mapErr _)) (CRd.getOffset fun o' => CRd.getRemaining fun n hr => ?_)
  rw [hn', if_neg (by omega)]
  refine CRd.takeSlice_last rfl fun o2 => ?_
  intro rest o3 x hx
  obtain ⟨r, x', e, hx'⟩ := tlvBody_run (out := out) h o2 x hx
  refine ⟨x', ?_, hx'⟩
  rw [CParser.bind_ok (s' := (⟨rest, o3⟩, x')) (a := (t.value, r)) (by unfold CParser.onSub; simp only; rw [e]; simp)]
  simp only [tlvCheck_none h]
  simp

theorem RmVal.code_ne {i : UInt16} {v : RmVal} (h : v.WF i) : v.code ≠ 4 := by
  cases v with
  | unknown c b =>
    have hd := h.2
    simp only [List.mem_cons, List.not_mem_nil, or_false, not_or] at hd
    exact hd.2.2.2.1
  | update m => exact h.elim
  | _ => intro e; revert e; simp only [RmVal.code]; decide

theorem crd_peekU16 {σ ε β : Type} {P Q : σ → Prop} {f : UInt16 → CParser σ ε β} {g : ParseError → ε} {x : UInt16} {b : β} {w : Bytes}
    (h : CRd P Q (f x) b (u16be x ++ w)) : CRd P Q (CParser.lift (Parser.mapErr g Verif.peekU16) >>= f) b (u16be x ++ w) := by
  intro rest o c hc
  obtain ⟨g1, h1, h2⟩ := h rest o c hc
  refine ⟨g1, ?_, h2⟩
  have hp : Verif.peekU16 ⟨u16be x ++ w ++ rest, o⟩ = (.ok x, ⟨u16be x ++ w ++ rest, o⟩) := by
    rw [List.append_assoc, Verif.peekU16, Parser.map_run, peekArray_append (length_u16be x)]; simp
  rw [CParser.bind_ok (s' := (⟨u16be x ++ w ++ rest, o⟩, c)) (a := x) (by rw [CParser.lift_run, Parser.mapErr_ok hp]), h1]

theorem crd_rm4Item {out : Bool} {c : AttrCtx} {t : RmTlv} (h : t.value.WF t.index) :
    CRd (Is c) (Is (t.value.apply out c)) (rm4Item out) (.inr t) t.bytes := by
  unfold rm4Item RmTlv.bytes
  refine crd_peekU16 ?_
  rw [if_neg (RmVal.code_ne h)]
  exact CRd.bind_last ((crd_rmTlv h).mapErr _) (crd_pure _)

/-- the TLV of the BGP message -/
theorem rm4Item_pdu (out : Bool) {b rest : Bytes} {i : UInt16} (hb : b.length ≤ 65535) (o : Nat) (x : PeerCtx) :
    rm4Item out (⟨u16be 4 ++ (u16be (UInt16.ofNat b.length) ++ (u16be i ++ b)) ++ rest, o⟩, x) =
      (.ok (.inl ⟨b, o + 6⟩), (⟨rest, o + 6 + b.length⟩, x)) := by
  unfold rm4Item
  have hp : Verif.peekU16 ⟨u16be 4 ++ (u16be (UInt16.ofNat b.length) ++ (u16be i ++ b)) ++ rest, o⟩ =
      (.ok 4, ⟨u16be 4 ++ (u16be (UInt16.ofNat b.length) ++ (u16be i ++ b)) ++ rest, o⟩) := by
    rw [List.append_assoc, Verif.peekU16, Parser.map_run, peekArray_append (length_u16be 4)]; simp
  rw [CParser.bind_ok (by rw [CParser.lift_run, Parser.mapErr_ok hp]), if_pos rfl, CParser.lift_run]
  simp only [List.append_assoc]
  rw [Parser.bind_ok (Parser.mapErr_ok ((reads_u16 4).run _ _) _), Parser.bind_ok (Parser.mapErr_ok ((reads_u16 _).run _ _) _),
    Parser.bind_ok (Parser.mapErr_ok ((reads_u16 i).run _ _) _),
    Parser.bind_ok (Parser.mapErr_ok (takeSlice_append (UInt16.toNat_ofNat_le hb).symm) _)]
  simp [UInt16.toNat_ofNat_le hb]

/-- a loop that reads a list and then what `H` says -/
theorem cmany_prefix {σ τ ε α : Type} {I : τ → σ → Prop} (f : τ → α → τ) {p : CParser σ ε (Option α)} (w : α → Bytes) {l : List α}
    {K : List α → Reader × σ → Prop} {rest : Bytes} {t : τ} (hp : ∀ t, ∀ a ∈ l, CRd (I t) (I (f t a)) p (some a) (w a))
    (hne : ∀ a ∈ l, w a ≠ [])
    (o : Nat) (H : ∀ g, I (l.foldl f t) g → ∃ l' s', CParser.cmany p (⟨rest, o + (l.map w).flatten.length⟩, g) = (.ok l', s') ∧ K l' s')
    (g : σ) (hg : I t g) :
    ∃ l' s', CParser.cmany p (⟨(l.map w).flatten ++ rest, o⟩, g) = (.ok (l ++ l'), s') ∧ K l' s' := by
  induction l generalizing t o g with
  | nil => exact H g hg
  | cons a l ih =>
    obtain ⟨g1, h1, h2⟩ := hp t a (by simp) ((l.map w).flatten ++ rest) o g hg
    obtain ⟨l', s', h3, h4⟩ := ih (t := f t a) (fun t b hb => hp t b (by simp [hb])) (fun b hb => hne b (by simp [hb]))
      (o + (w a).length) (by simpa [Nat.add_assoc] using H) g1 h2
    have hl := List.length_pos_iff.mpr (hne a (by simp))
    refine ⟨l', s', ?_, h4⟩
    rw [List.map_cons, List.flatten_cons, List.append_assoc,
      CParser.cmany_cons (s := (⟨w a ++ ((l.map w).flatten ++ rest), o⟩, g)) (by simp [hne a (by simp)]) h1
        (by simp only [List.length_append]; omega), h3]
    simp

/-- the settings for the message of a route monitoring: those of the peer with the capabilities in its TLVs -/
def Rm4.ctx (c : AttrCtx) (m : Rm4) : AttrCtx := m.tlvs.foldl (fun c t => t.value.apply m.header.type.adjRibOut c) c

/-- a route monitoring message that fits its wire format -/
structure Rm4.WF (c : AttrCtx) (m : Rm4) : Prop where
  header : m.header.WF
  asn4 : c.asn4 = m.header.type.asn4
  tlvs : ∀ t ∈ m.tlvs, t.value.WF t.index
  pdu : m.pdu.WF (m.ctx c)
  fits : m.pdu.len ≤ 65531
  update : m.pdu.type = .update

/-- its octets -/
def Rm4.bytes (m : Rm4) : Bytes := m.header.write ++ ((m.tlvs.map RmTlv.bytes).flatten ++ m.pduTlv.bytes)

theorem Rm4.WF.pdu_len {c : AttrCtx} {m : Rm4} (h : m.WF c) : m.pduTlv.value.bytes.length = m.pduTlv.value.len := Msg.length_bytes h.pdu

theorem Rm4.write_eq {c : AttrCtx} {m : Rm4} (h : m.WF c) : m.write = .ok m.bytes := by
  unfold Rm4.write Rm4.bytes
  rw [Res.catAll_ok (g := RmTlv.bytes) fun t ht => ?_, RmTlv.write_of (t := m.pduTlv) (msgBytes_eq h.pdu) h.pdu_len h.fits,
    Res.cat_ok, Res.cat_ok]
  have hw := h.tlvs t ht
  exact RmTlv.write_of (RmVal.write_eq hw) (RmVal.length_bytes hw).1 (RmVal.length_bytes hw).2

theorem Rm4.length_bytes {c : AttrCtx} {m : Rm4} (h : m.WF c) : m.bytes.length = m.len := by
  unfold Rm4.bytes Rm4.len
  rw [List.length_append, List.length_append, RmTlv.length_of h.pdu_len, length_bmpHeader, ← flatMap_eq,
    length_flatMap_sum (n := RmTlv.len) fun t ht => RmTlv.length_of (RmVal.length_bytes (h.tlvs t ht)).1]
  simp only [PeerHeader.len]; omega

theorem lastPdu_append (l : List (Reader ⊕ RmTlv)) (d : Reader) : lastPdu (l ++ [.inl d]) = some d := by
  simp [lastPdu, List.filterMap_append]

theorem tlvsOf_append (l : List RmTlv) (d : Reader) : tlvsOf (l.map .inr ++ [.inl d]) = l := by
  simp only [tlvsOf, List.filterMap_append, List.filterMap_map]
  have : ((Sum.getRight? : Reader ⊕ RmTlv → Option RmTlv) ∘ Sum.inr) = some := rfl
  simp [this]

/-- the loop of `D/v4.rs:200-221` -/
theorem cmany_rm4 {out : Bool} {c : AttrCtx} {l : List RmTlv} {b : Bytes} {i : UInt16} (hb : b.length ≤ 65535)
    (h : ∀ t ∈ l, t.value.WF t.index) (o : Nat) (x : PeerCtx) (hx : Is c x) :
    ∃ n x', CParser.cmany (do let x ← rm4Item out; pure (some x) : CParser PeerCtx RmErr4 (Option (Reader ⊕ RmTlv)))
      (⟨(l.map RmTlv.bytes).flatten ++ (u16be 4 ++ (u16be (UInt16.ofNat b.length) ++ (u16be i ++ b))), o⟩, x) =
        (.ok (l.map .inr ++ [.inl ⟨b, n⟩]), (⟨[], o + (l.map RmTlv.bytes).flatten.length + 6 + b.length⟩, x')) ∧ Is (l.foldl (fun c t => t.value.apply out c) c) x' := by
  let w : Reader ⊕ RmTlv → Bytes := fun | .inr t => t.bytes | .inl _ => []
  let f : AttrCtx → Reader ⊕ RmTlv → AttrCtx := fun c a => match a with | .inr t => t.value.apply out c | .inl _ => c
  have hl : (l.map Sum.inr).map w = l.map RmTlv.bytes := by rw [List.map_map]; rfl
  have hf : ∀ c, (l.map Sum.inr).foldl f c = l.foldl (fun c t => t.value.apply out c) c := by intro c; rw [List.foldl_map]
  have := cmany_prefix (I := Is) f (p := (do let x ← rm4Item out; pure (some x) : CParser PeerCtx RmErr4 (Option (Reader ⊕ RmTlv)))) w
    (l := l.map .inr) (rest := u16be 4 ++ (u16be (UInt16.ofNat b.length) ++ (u16be i ++ b))) (t := c)
    (K := fun l' s' => ∃ n x', l' = [.inl ⟨b, n⟩] ∧ s' = (⟨[], o + (l.map RmTlv.bytes).flatten.length + 6 + b.length⟩, x') ∧
      Is ((l.map Sum.inr).foldl f c) x') ?_ ?_ o ?_ x hx
  · obtain ⟨l', s', h1, n, x', rfl, rfl, h2⟩ := this
    rw [hl] at h1
    rw [hf] at h2
    exact ⟨n, x', h1, h2⟩
  · intro t a ha
    obtain ⟨t', ht', rfl⟩ := List.mem_map.1 ha
    exact CRd.bind_last (crd_rm4Item (h t' ht')) (crd_pure _)
  · intro a ha
    obtain ⟨t', ht', rfl⟩ := List.mem_map.1 ha
    intro hn
    have := congrArg List.length hn
    simp [w, RmTlv.bytes] at this
  · intro g hg
    rw [hl]
    generalize o + (l.map RmTlv.bytes).flatten.length = o'
    have h1 := rm4Item_pdu out (b := b) (rest := []) (i := i) hb o' g
    rw [List.append_nil] at h1
    refine ⟨[.inl ⟨b, o' + 6⟩], (⟨[], o' + 6 + b.length⟩, g), ?_, _, g, rfl, rfl, hg⟩
    rw [CParser.cmany_cons (a := (Sum.inl ⟨b, o' + 6⟩ : Reader ⊕ RmTlv)) (s' := (⟨[], o' + 6 + b.length⟩, g)) (by
      intro hn; have := congrArg List.length hn; simp at this) (by rw [CParser.bind_ok h1]; rfl) (by simp; omega)]
    rw [CParser.cmany_nil _ _ rfl]
    rfl

theorem rm4Body_run {out : Bool} {c : AttrCtx} {l : List RmTlv} {m : Msg} {i : UInt16}
    (h : ∀ t ∈ l, t.value.WF t.index) (hm : m.WF (l.foldl (fun c t => t.value.apply out c) c)) :
    CRdAll (Is c) (fun _ => True) (rm4Body out) (m, l) ((l.map RmTlv.bytes).flatten ++ (RmTlv.bytes ⟨i, .update m⟩)) := by
  intro o x hx
  have hb : m.bytes.length ≤ 65535 := by rw [Msg.length_bytes hm]; exact (Msg.len_le hm).1
  obtain ⟨n, x', h1, h2⟩ := cmany_rm4 (out := out) (i := i) hb h o x hx
  obtain ⟨x2, h3, -⟩ := (crd_bgpMsg hm).all n x' h2
  refine ⟨x2, ?_, trivial⟩
  unfold rm4Body
  rw [show RmTlv.bytes ⟨i, .update m⟩ = u16be 4 ++ (u16be (UInt16.ofNat m.bytes.length) ++ (u16be i ++ m.bytes)) from rfl,
    CParser.bind_ok h1]
  simp only [lastPdu_append, tlvsOf_append]
  rw [CParser.bind_ok (s' := (⟨[], o + (l.map RmTlv.bytes).flatten.length + 6 + m.bytes.length⟩, x2)) (a := (m, ⟨[], n + m.bytes.length⟩)) (by
    unfold CParser.onSub; simp only; rw [CParser.mapErr_run, h3]; simp)]
  simp only [CParser.pure_run, List.length_append, length_u16be]
  congr 3
  omega

theorem CRdAll.scratch {ε α : Type} {P Q : PeerCtx → Prop} {p : CParser PeerCtx ε α} {a : α} {w : Bytes} (h : CRdAll P Q p a w) :
    CRdAll P P (Bmp.scratch p) a w := by
  intro o x hx
  obtain ⟨x', e, _⟩ := h o x hx
  exact ⟨x, by unfold Bmp.scratch; simp only; rw [e], hx⟩

theorem crdAll_rm4 {c : AttrCtx} {m : Rm4} (h : m.WF c) :
    CRdAll (fun g => Has c (g.at m.header.key)) (fun _ => True) parseRm4 m m.bytes := by
  unfold parseRm4 Rm4.bytes
  refine CRdAll.getOffset fun o => CRdAll.bind (crd_lift ((reads_bmpHeader h.header).mapErr _)) ?_
  refine CRdAll.bind_all (a := (m.pdu, m.tlvs)) (crdAll_atPeer (Q := Is c) (CRdAll.bind_nil (crd_setAsn4 h.asn4)
    (CRdAll.scratch (rm4Body_run (i := 0) h.tlvs h.pdu)))) ?_
  have : tlvCheck 0 (.update m.pdu) = none := if_neg (by simp [h.update])
  simp only [this]
  exact crd_pure _

/-! ## Messages -/

section
variable {R D RE : Type}

/-- a message whose parts fit their wire formats -/
def Value.WF (rm : R → Prop) (down : D → Prop) (c : AttrCtx) : Value R D → Prop
  | routeMonitoring m => rm m
  | stats m => m.WF
  | peerDown m => down m
  | peerUp m => m.WF
  | initiation l => ∀ i ∈ l, i.WF
  | termination l => ∀ i ∈ l, i.WF
  | mirroring m => m.WF c
  | experimental _ _ => True

/-- the octets behind the type -/
def Value.rest (rm : R → Bytes) (down : D → Bytes) : Value R D → Bytes
  | routeMonitoring m => rm m
  | stats m => m.write
  | peerDown m => down m
  | peerUp m => m.bytes
  | initiation l => infosWrite l
  | termination l => l.flatMap TermInfo.write
  | mirroring m => m.bytes
  | experimental _ b => b

/-- the peer whose settings a message is read with -/
def Value.peer (rm : R → PeerHeader) (down : D → PeerHeader) : Value R D → Option PeerHeader
  | routeMonitoring m => some (rm m)
  | peerDown m => some (down m)
  | mirroring m => some m.header
  | _ => none

/-- the settings of the peer are `c` -/
def At (c : AttrCtx) (h : Option PeerHeader) (g : Peers) : Prop := ∀ p, h = some p → Has c (g.at p.key)

variable {rmW : R → Prop} {downW : D → Prop} {rmB : R → Bytes} {downB : D → Bytes} {rmP : CParser Peers RE R}
  {downP : CParser Peers DownErr D} {rmH : R → PeerHeader} {downH : D → PeerHeader} {c : AttrCtx}

theorem crdAll_value (hrm : ∀ m, rmW m → CRdAll (fun g => Has c (g.at (rmH m).key)) (fun _ => True) rmP m (rmB m))
    (hdown : ∀ m, downW m → CRdAll (fun g => Has c (g.at (downH m).key)) (fun _ => True) downP m (downB m))
    {v : Value R D} (h : v.WF rmW downW c) :
    CRdAll (At c (v.peer rmH downH)) (fun _ => True) (parseValue rmP downP) v (v.code :: v.rest rmB downB) := by
  unfold parseValue
  refine CRdAll.bind (v := [v.code]) (crd_lift ((reads_u8 _).mapErr _)) (CRdAll.getOffset fun o => ?_)
  cases v with
  | routeMonitoring m =>
    exact CRdAll.bind_all (((hrm m h).mapErr _).weaken (fun g hg => hg _ rfl) fun _ h => h) (crd_pure _)
  | stats m =>
    exact CRdAll.bind_all (Q := fun _ => True) ((crdAll_lift (P := fun _ => True) (ReadsAll.mapErr _ (reads_stats h).all)).weaken
      (fun _ _ => trivial) fun _ h => h) (crd_pure _)
  | peerDown m =>
    exact CRdAll.bind_all (((hdown m h).mapErr _).weaken (fun g hg => hg _ rfl) fun _ h => h) (crd_pure _)
  | peerUp m =>
    exact CRdAll.bind_all (((crdAll_up h).mapErr _).weaken (fun _ _ => trivial) fun _ h => h) (crd_pure _)
  | initiation l =>
    exact CRdAll.bind_all (Q := fun _ => True) ((crdAll_lift (P := fun _ => True) (readsAll_infos h _)).weaken
      (fun _ _ => trivial) fun _ h => h) (crd_pure _)
  | termination l =>
    exact CRdAll.bind_all (Q := fun _ => True) ((crdAll_lift (P := fun _ => True) (readsAll_termInfos h _)).weaken
      (fun _ _ => trivial) fun _ h => h) (crd_pure _)
  | mirroring m =>
    exact CRdAll.bind_all (((crdAll_mirroring h).mapErr _).weaken (fun g hg => hg _ rfl) fun _ h => h) (crd_pure _)
  | experimental n b =>
    clear h
    have e : valueBody rmP downP o (exp8 n) = (do
        let b ← CParser.lift (restBytes .parse)
        pure (.experimental n b)) := by
      unfold valueBody
      rw [ofExp8_exp8, if_neg (by revert n; decide), if_neg (by revert n; decide), if_neg (by revert n; decide), if_neg (by revert n; decide),
        if_neg (by revert n; decide), if_neg (by revert n; decide), if_neg (by revert n; decide)]
    simp only [Value.code, e]
    exact CRdAll.bind_all (Q := fun _ => True) ((crdAll_lift (P := fun _ => True) (readsAll_rest _)).weaken
      (fun _ _ => trivial) fun _ h => h) (crd_pure _)

theorem Value.write_eq {rmF : R → Res WErr Bytes} {downF : D → Res WErr Bytes} (hrm : ∀ m, rmW m → rmF m = .ok (rmB m))
    (hdown : ∀ m, downW m → downF m = .ok (downB m)) {v : Value R D} (h : v.WF rmW downW c) :
    v.write rmF downF = .ok (v.code :: v.rest rmB downB) := by
  unfold Value.write
  have : v.body rmF downF = .ok (v.rest rmB downB) := by
    cases v with
    | routeMonitoring m => exact hrm m h
    | peerDown m => exact hdown m h
    | peerUp m => exact PeerUp.write_eq h
    | mirroring m => exact Mirroring.write_eq h
    | _ => rfl
  rw [this, Res.cat_ok]; rfl

theorem Value.length_rest {rmN : R → Nat} {downN : D → Nat} (hrm : ∀ m, rmW m → (rmB m).length = rmN m)
    (hdown : ∀ m, downW m → (downB m).length = downN m) {v : Value R D} (h : v.WF rmW downW c) :
    1 + (v.rest rmB downB).length = v.len rmN downN := by
  cases v with
  | routeMonitoring m => simp only [Value.rest, Value.len, hrm m h]
  | stats m => simp only [Value.rest, Value.len, Stats.length_write]
  | peerDown m => simp only [Value.rest, Value.len, hdown m h]
  | peerUp m => simp only [Value.rest, Value.len, PeerUp.length_bytes h]
  | initiation l => simp only [Value.rest, Value.len, length_infosWrite]
  | termination l => simp only [Value.rest, Value.len, length_flatMap_sum fun i _ => TermInfo.length_write i]
  | mirroring m => simp only [Value.rest, Value.len, Mirroring.length_bytes h]
  | experimental n b => rfl
end

/-- a message whose parts fit their wire formats and which fits the length field -/
def BmpMsg.WF (c : AttrCtx) (m : BmpMsg) : Prop :=
  m.len < 4294967296 ∧ match m with
  | v3 v => v.WF (Rm3.WF c) (Down3.WF c) c
  | v4 v => v.WF (Rm4.WF c) (Down4.WF c) c

/-- the peer whose settings a message is read with -/
def BmpMsg.peer : BmpMsg → Option PeerHeader
  | v3 v => v.peer Rm3.header Down3.header
  | v4 v => v.peer Rm4.header Down4.header

/-- the octets behind the length -/
def BmpMsg.rest : BmpMsg → Bytes
  | v3 v => v.code :: v.rest Rm3.bytes Down3.bytes
  | v4 v => v.code :: v.rest Rm4.bytes Down4.bytes

/-- the octets of a message -/
def BmpMsg.bytes (m : BmpMsg) : Bytes := m.version.code :: (u32be (UInt32.ofNat m.len) ++ m.rest)

theorem BmpMsg.length_rest {c : AttrCtx} {m : BmpMsg} (h : m.WF c) : 5 + m.rest.length = m.len := by
  cases m with
  | v3 v =>
    have := Value.length_rest (v := v) (c := c) (rmB := Rm3.bytes) (downB := Down3.bytes) (rmN := Rm3.len) (downN := Down3.len) (fun _ => Rm3.length_bytes) (fun _ => Down3.length_bytes) h.2
    show 5 + (_ + 1) = 5 + _
    rw [← this]; omega
  | v4 v =>
    have := Value.length_rest (v := v) (c := c) (rmB := Rm4.bytes) (downB := Down4.bytes) (rmN := Rm4.len) (downN := Down4.len) (fun _ => Rm4.length_bytes) (fun _ => Down4.length_bytes) h.2
    show 5 + (_ + 1) = 5 + _
    rw [← this]; omega

theorem BmpMsg.write_eq {c : AttrCtx} {m : BmpMsg} (h : m.WF c) : m.write = .ok m.bytes := by
  unfold BmpMsg.write BmpMsg.bytes
  have : m.body = .ok m.rest := by
    cases m with
    | v3 v => exact Value.write_eq (c := c) (fun _ => Rm3.write_eq) (fun _ => Down3.write_eq) h.2
    | v4 v => exact Value.write_eq (c := c) (fun _ => Rm4.write_eq) (fun _ => Down4.write_eq) h.2
  rw [this, Res.cat_ok]; rfl

theorem crdAll_version {c : AttrCtx} {m : BmpMsg} (h : m.WF c) :
    CRdAll (At c m.peer) (fun _ => True) (versionBody m.version) m m.rest := by
  cases m with
  | v3 v =>
    exact CRdAll.bind_all ((crdAll_value (fun _ => crdAll_rm3) (fun _ => crdAll_down3) h.2).mapErr _) (crd_pure _)
  | v4 v =>
    exact CRdAll.bind_all ((crdAll_value (fun _ => crdAll_rm4) (fun _ => crdAll_down4) h.2).mapErr _) (crd_pure _)

/-- what is written is read back, with whatever follows -/
theorem crd_bmp {c : AttrCtx} {m : BmpMsg} (h : m.WF c) : CRd (At c m.peer) (fun _ => True) parseBmp m m.bytes := by
  have hl := BmpMsg.length_rest h
  have hn : (UInt32.ofNat m.len).toNat = m.len := UInt32.toNat_ofNat_of_lt' h.1
  have hv : Version.ofCode m.version.code = some m.version := by cases m <;> rfl
  unfold parseBmp BmpMsg.bytes
  rw [show m.version.code :: (u32be (UInt32.ofNat m.len) ++ m.rest) = [m.version.code] ++ (u32be (UInt32.ofNat m.len) ++ m.rest) from rfl]
  refine CRd.bind (crd_lift ((reads_u8 _).mapErr _)) (CRd.getOffset fun o => CRd.bind_nil (crd_lift (Reads.ofOption hv)) ?_)
  refine CRd.bind (crd_lift ((reads_u32 _).mapErr _)) (CRd.getOffset fun o => ?_)
  rw [hn, if_neg (by omega)]
  refine CRd.takeSlice_last (show m.rest.length = m.len - 5 by omega) fun o2 => ?_
  refine CRd.bind_nil (CRdAll.onSub (crdAll_version h) o2) ?_
  simp only
  rw [if_pos trivial]
  exact crd_pure _

end Verif.Bmp
