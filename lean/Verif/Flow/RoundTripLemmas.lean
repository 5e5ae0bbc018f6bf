import Verif.Flow.ValueLemmas
import Verif.Flow.WriteLemmas
/-!
# Data records and messages, written and read back
-/
namespace Verif.Flow
open Parser

/-- the fields of a record are those of its template, with values that fit -/
def Conforms : List Spec → List Field → Prop
  | [], [] => True
  | s :: ss, f :: fs => (f.ie = s.ie ∧ f.Fits s.length) ∧ Conforms ss fs
  | _, _ => False

/-- a field of fixed length takes this length -/
theorem fits_len {l : UInt16} {f : Field} (h : f.Fits l) (hl : l ≠ 65535) : f.len (some l) = l.toNat := by
  cases f with
  | known p i v =>
    cases v <;> simp only [Field.Fits, Fits] at h <;> simp only [Field.len, Value.len, octetsLen]
    case boolean => subst h; rfl
    case unsigned8 => subst h; rfl
    case macAddress => subst h; rfl
    case ipv4 => subst h; rfl
    case ipv6 => subst h; rfl
    case seconds => rw [h.1]; rfl
    case millis => rw [h.1]; rfl
    case micros => rw [h.1]; rfl
    case nanos => rw [h.1]; rfl
    case basicList => exact h.2
    case subTemplateList => exact h.2
    case subTemplateMultiList => exact h.2
    case octetArray => rw [if_neg hl]
    case mpls => rw [if_neg hl]
    case string => rw [if_neg hl]
    all_goals rfl
  | vendorUnknown p i v => simp only [Field.len, octetsLen]; rw [if_neg hl]
  | unknown p i v => simp only [Field.len, octetsLen]; rw [if_neg hl]

theorem fields_write {ss : List Spec} {fs : List Field} (h : Conforms ss fs) :
    ∃ w, writeFields fs ss = .ok w ∧ Reads (parseFields ss) fs w ∧ w.length = fieldsLen fs ss := by
  induction ss generalizing fs with
  | nil =>
    cases fs with
    | nil => exact ⟨[], rfl, Reads.pure _, rfl⟩
    | cons f fs => exact h.elim
  | cons s ss ih =>
    cases fs with
    | nil => exact h.elim
    | cons f fs =>
      obtain ⟨⟨he, hf⟩, ht⟩ := h
      obtain ⟨w, h1, h2, h3⟩ := ih ht
      obtain ⟨v, k1, k2, k3⟩ := field_write hf
      rw [he] at k2
      refine ⟨v ++ w, ?_, k2.bind (h2.bind_last (Reads.pure _)), ?_⟩
      · show (f.write (some s.length)).cat (writeFields fs ss) = _
        rw [k1, h1]; rfl
      · show _ = (if s.length = 65535 then f.len (some s.length) else s.length.toNat) + fieldsLen fs ss
        rw [List.length_append, k3, h3]
        by_cases hl : s.length = 65535
        · rw [if_pos hl]
        · rw [if_neg hl, fits_len hf hl]

/-- a field of this length is written in full, so its octets are the same when the writer does not know the template; an
element that is not in a registry is written with a length prefix then -/
def Spec.Full (s : Spec) : Prop :=
  match s.ie with
  | .known _ _ k =>
    match k with
    | .octetArray | .mpls => s.length ≠ 65535
    | .unsigned16 | .tcpControlBits => s.length = 2
    | .unsigned32 | .signed32 => s.length = 4
    | .unsigned64 | .float64 => s.length = 8
    | .unsigned256 => s.length = 32
    | .string => s.length = 65535
    | _ => True
  | _ => False

theorem full_write {s : Spec} {f : Field} (hs : s.Full) (hi : f.ie = s.ie) (hf : f.Fits s.length) :
    f.write none = f.write (some s.length) ∧ f.len none = if s.length = 65535 then f.len (some s.length) else s.length.toNat := by
  have hl : f.len none = f.len (some s.length) → f.len none = if s.length = 65535 then f.len (some s.length) else s.length.toNat := by
    intro h
    by_cases h6 : s.length = 65535
    · rw [if_pos h6, h]
    · rw [if_neg h6, h, fits_len hf h6]
  obtain ⟨ie, l⟩ := s
  simp only at hi hf hl
  subst hi
  cases f with
  | known p i v =>
    simp only [Spec.Full, Field.ie] at hs
    cases v <;> simp only [Value.kind] at hs <;> simp only [Field.Fits, Fits] at hf
    case octetArray v => 
      rw [if_neg hs] at hf
      refine ⟨?_, hl ?_⟩
      · simp [Field.write, Value.write, writeOctets, zeroFill, hs, hf]
      · simp [Field.len, Value.len, octetsLen, hs, hf]
    case mpls v =>
      subst hf
      refine ⟨?_, hl ?_⟩
      · simp [Field.write, Value.write, writeOctets, zeroFill]
      · rfl
    case string v =>
      subst hs
      exact ⟨rfl, hl rfl⟩
    case unsigned16 v => subst hs; exact ⟨rfl, hl rfl⟩
    case tcpControlBits v => subst hs; exact ⟨rfl, hl rfl⟩
    case unsigned32 v => subst hs; exact ⟨rfl, hl rfl⟩
    case signed32 v => subst hs; exact ⟨rfl, hl rfl⟩
    case unsigned64 v => subst hs; exact ⟨rfl, hl rfl⟩
    case float64 v => subst hs; exact ⟨rfl, hl rfl⟩
    case unsigned256 v =>
      subst hs
      refine ⟨?_, hl rfl⟩
      show Res.ok (beBytes 32 v.toNat) = Res.ok ((beBytes 32 v.toNat).take 32)
      rw [List.take_of_length_le (by simp)]
    all_goals exact ⟨rfl, hl rfl⟩
  | vendorUnknown p i v => exact hs.elim
  | unknown p i v => exact hs.elim

theorem full_fields {ss : List Spec} {fs : List Field} (hs : ∀ s ∈ ss, s.Full) (h : Conforms ss fs) :
    writeFields fs [] = writeFields fs ss ∧ fieldsLen fs [] = fieldsLen fs ss := by
  induction ss generalizing fs with
  | nil =>
    cases fs with
    | nil => exact ⟨rfl, rfl⟩
    | cons f fs => exact h.elim
  | cons s ss ih =>
    cases fs with
    | nil => exact h.elim
    | cons f fs =>
      obtain ⟨h1, h2⟩ := full_write (hs s (by simp)) h.1.1 h.1.2
      obtain ⟨k1, k2⟩ := ih (fun x hx => hs x (by simp [hx])) h.2
      refine ⟨?_, ?_⟩
      · show (f.write none).cat (writeFields fs []) = (f.write (some s.length)).cat (writeFields fs ss)
        rw [h1, k1]
      · show f.len none + fieldsLen fs [] = (if s.length = 65535 then f.len (some s.length) else s.length.toNat) + fieldsLen fs ss
        rw [h2, k2]

theorem writeAll_congr {α ε : Type} {f g : α → Res ε Bytes} {l : List α} (h : ∀ a ∈ l, f a = g a) : writeAll f l = writeAll g l := by
  induction l with
  | nil => rfl
  | cons a l ih => rw [writeAll, writeAll, h a (by simp), ih fun b hb => h b (by simp [hb])]

/-- a record of a template -/
def RecordFits (t : List Spec × List Spec) (r : DataRecord Field) : Prop := Conforms t.1 r.scope ∧ Conforms t.2 r.fields

theorem ipfixRecord_write {t : Template Spec} {r : DataRecord Field} (h : RecordFits t.shape r) :
    ∃ w, ipfixRecordWrite (some t) r = .ok w ∧ Reads (ipfixRecord t) r w ∧ w.length = ipfixRecordLen (some t) r := by
  obtain ⟨u, h1, h2, h3⟩ := fields_write h.1
  obtain ⟨v, k1, k2, k3⟩ := fields_write h.2
  refine ⟨u ++ v, ?_, (h2.mapErr _).bind ((k2.mapErr _).bind_last (Reads.pure _)), ?_⟩
  · show (writeFields r.scope t.scope).cat (writeFields r.fields t.fields) = _
    rw [show writeFields r.scope t.scope = _ from h1, show writeFields r.fields t.fields = _ from k1]; rfl
  · rw [List.length_append, h3, k3]; rfl

theorem writeAll_ok {α ε : Type} {f : α → Res ε Bytes} {w : α → Bytes} {l : List α} (h : ∀ a ∈ l, f a = .ok (w a)) :
    writeAll f l = .ok (l.map w).flatten := by
  induction l with
  | nil => rfl
  | cons a l ih =>
    rw [writeAll, h a (by simp), ih fun b hb => h b (by simp [hb])]; rfl

/-- what a writer writes, nothing when it fails -/
def written {ε : Type} : Res ε Bytes → Bytes
  | .ok w => w
  | _ => []

theorem shapes_some {κ : Type} {m : Templates κ} {id : UInt16} {x : List κ × List Spec} (h : m.shapes id = some x) :
    ∃ t, m id = some t ∧ t.shape = x := by
  unfold Templates.shapes at h
  cases hm : m id with
  | none => rw [hm] at h; cases h
  | some t => rw [hm] at h; exact ⟨t, rfl, by injection h⟩

theorem Reads.length_ge {ε α : Type} {p : Parser ε α} {a : α} {w : Bytes} {k : Nat} (h : Reads p a w) (hs : Safe k p) :
    k ≤ w.length := by
  have h1 := hs.out ⟨w ++ [], 0⟩
  rw [h.run] at h1
  have := Adv.length h1
  simp only [List.append_nil, List.length_nil] at this
  omega

theorem skipZeros_zeros (n o : Nat) : skipZeros ⟨List.replicate n 0, o⟩ = (.ok (), ⟨[], o + n⟩) := by
  unfold skipZeros
  simp only [List.length_replicate]
  induction n generalizing o with
  | zero => rfl
  | succ n ih =>
    rw [List.replicate_succ]
    have := ih (o + 1)
    rw [show o + (n + 1) = o + 1 + n by omega, ← this]
    rfl

theorem checkPadding_zeros (n o : Nat) : checkPadding ⟨List.replicate n 0, o⟩ = (.ok (), ⟨[], o + n⟩) := by
  unfold checkPadding
  simp only [List.length_replicate]
  induction n generalizing o with
  | zero => rfl
  | succ n ih =>
    rw [List.replicate_succ]
    have := ih (o + 1)
    rw [show o + (n + 1) = o + 1 + n by omega, ← this]
    rfl

/-- the records of a set are read back and the templates kept -/
theorem ipfixData_write {reg : Registry} {md : Templates Spec} {t : Template Spec} {id : UInt16} {l : List (DataRecord Field)} (hid : 256 ≤ id.toNat)
    (hd : md.shapes id = some t.shape) (h0 : 0 < ipfixSize t.shape) (hl : ∀ r ∈ l, RecordFits t.shape r) :
    ∃ w, writeAll (ipfixRecordWrite (some t)) l = .ok w ∧ w.length = (l.map (ipfixRecordLen (some t))).sum ∧
      ∀ off o pad, pad < ipfixSize t.shape →
        ∃ r m', FlowSet.content reg ipfix off id (⟨w ++ List.replicate pad 0, o⟩, md) = (.ok (.data id l), (r, m')) ∧ Learns md [] m' := by
  let w := fun r => written (ipfixRecordWrite (some t) r)
  have hw : ∀ r ∈ l, ipfixRecordWrite (some t) r = .ok (w r) := fun r hr => by
    obtain ⟨v, h1, -⟩ := ipfixRecord_write (hl r hr)
    show _ = Res.ok (written (ipfixRecordWrite (some t) r))
    rw [h1]; rfl
  refine ⟨(l.map w).flatten, writeAll_ok hw, ?_, fun off o pad hpad => ?_⟩
  · refine sum_flatten_length _ _ _ fun r hr => ?_
    obtain ⟨v, h1, -, h2⟩ := ipfixRecord_write (hl r hr)
    have := hw r hr
    rw [h1] at this
    injection this with this
    rw [← this, h2]
  · obtain ⟨t', ht, hs⟩ := shapes_some hd
    have hsc : t'.scope = t.scope := congrArg (·.1) hs
    have hfi : t'.fields = t.fields := congrArg (·.2) hs
    have hrec : ipfixRecord t' = ipfixRecord t := by unfold ipfixRecord; rw [hsc, hfi]
    have hrd : ∀ r ∈ l, Reads (ipfixRecord t') r (w r) := fun r hr => by
      obtain ⟨v, h1, h2, -⟩ := ipfixRecord_write (hl r hr)
      have := hw r hr
      rw [h1] at this
      injection this with this
      rw [← this, hrec]; exact h2
    have hmin : (t'.scope.map Spec.minLength).sum + (t'.fields.map Spec.minLength).sum = ipfixSize t.shape := by
      rw [hsc, hfi]; rfl
    obtain ⟨g', h1, hg⟩ := CParser.crd_rows (k := ipfixSize t.shape) h0 (I := fun m => m = md)
      (p := (CParser.lift (ipfixRecord t') : CParser (Templates Spec) SetErr _)) w l
      (fun r hr rest o g hg => ⟨g, lift_reads (hrd r hr) _ _ _, hg⟩)
      (fun r hr => by
        have := Reads.length_ge (hrd r hr) (safe_ipfixRecord t')
        rwa [hmin] at this) (List.replicate pad 0) (by simpa using hpad) o md rfl
    subst hg
    have hr : ipfixRecords id t' (⟨(l.map w).flatten ++ List.replicate pad 0, o⟩, g') =
        (.ok l, (⟨[], o + (l.map w).flatten.length + pad⟩, g'.count id)) := by
      unfold ipfixRecords
      simp only
      rw [hmin, if_pos h0, CParser.bind_ok h1]
      show (CParser.lift skipZeros >>= _) (⟨List.replicate pad 0, _⟩, g'.count id) = _
      rw [CParser.bind_ok (p := CParser.lift skipZeros) (by rw [CParser.lift_run, skipZeros_zeros])]
      rfl
    refine ⟨⟨[], o + (l.map w).flatten.length + pad⟩, g'.count id, ?_, Learns.count _ _⟩
    unfold FlowSet.content
    have n2 : id ≠ 2 := by rintro rfl; revert hid; decide
    have n3 : id ≠ 3 := by rintro rfl; revert hid; decide
    rw [if_neg (show id ≠ ipfix.templateSet from n2), if_neg (show id ≠ ipfix.optionsSet from n3),
      CParser.bind_ok (p := CParser.getCtx) (a := g') (s' := (⟨(l.map w).flatten ++ List.replicate pad 0, o⟩, g')) rfl]
    simp only [ht]
    rw [CParser.bind_ok (show ipfix.records id t' _ = _ from hr)]
    rfl

/-- a set that can be sent by a codec which knows the templates `enc` to one which knows `dec`; the sender need not know a
template all fields of which are written in full -/
def SetFits (reg : Registry) (enc dec : UInt16 → Option (List Spec × List Spec)) : FlowSet Spec Field → Prop
  | .template l => ∀ t ∈ l, t.Valid reg
  | .options l => ∀ t ∈ l, OptionsValid reg t
  | .data id l => 256 ≤ id.toNat ∧ ∃ t, (enc id = some t ∨ enc id = none ∧ ∀ s ∈ t.1 ++ t.2, s.Full) ∧ dec id = some t ∧
      0 < ipfixSize t ∧ ∀ r ∈ l, RecordFits t r

/-- the sets of a message; the receiver learns the templates as it reads them, the sender does not -/
def SetsFit (reg : Registry) (enc : UInt16 → Option (List Spec × List Spec)) :
    (UInt16 → Option (List Spec × List Spec)) → List (FlowSet Spec Field) → Prop
  | _, [] => True
  | dec, s :: l => SetFits reg enc dec s ∧ SetsFit reg enc (fun id => (lastDef s.defs id).or (dec id)) l

theorem ipfixSet_write {reg : Registry} {mw md : Templates Spec} {s : FlowSet Spec Field} (h : SetFits reg mw.shapes md.shapes s)
    (hl : ipfixSetLen mw s < 65536) : ∃ w, ipfixSetWrite mw s = .ok w ∧ w.length = ipfixSetLen mw s ∧
      ∀ rest o, ∃ m', FlowSet.parse reg ipfix (⟨w ++ rest, o⟩, md) = (.ok s, (⟨rest, o + w.length⟩, m')) ∧ Learns md s.defs m' := by
  have key : ∀ (id : UInt16) (body : Bytes), ¬ ipfix.badId id → body.length + 4 = ipfixSetLen mw s →
      (∀ off o, ∃ r m', FlowSet.content reg ipfix off id (⟨body, o⟩, md) = (.ok s, (r, m')) ∧ Learns md s.defs m') →
      (u16be id ++ u16be (UInt16.ofNat (ipfixSetLen mw s)) ++ body).length = ipfixSetLen mw s ∧
      ∀ rest o, ∃ m', FlowSet.parse reg ipfix (⟨u16be id ++ u16be (UInt16.ofNat (ipfixSetLen mw s)) ++ body ++ rest, o⟩, md) =
        (.ok s, (⟨rest, o + (u16be id ++ u16be (UInt16.ofNat (ipfixSetLen mw s)) ++ body).length⟩, m')) ∧ Learns md s.defs m' := by
    intro id body hid hb hc
    have hlen : (u16be id ++ u16be (UInt16.ofNat (ipfixSetLen mw s)) ++ body).length = ipfixSetLen mw s := by
      simp only [List.length_append, length_u16be]; omega
    refine ⟨hlen, fun rest o => ?_⟩
    obtain ⟨r, m', h1, h2⟩ := hc o (o + 4)
    have := set_write reg (d := ipfix) hid (by omega) h1 rest
    rw [show 4 + body.length = ipfixSetLen mw s by omega] at this
    refine ⟨m', ?_, h2⟩
    rw [hlen]
    exact this
  cases s with
  | template l =>
    obtain ⟨k1, k2⟩ := key 2 (l.map TemplateRecord.write).flatten (by decide)
      (by rw [sum_flatten_length _ _ _ fun a _ => length_template a]; rfl) (fun off o => by
        obtain ⟨m', r, h1, h2⟩ := content_templates reg ipfix h off o md
        exact ⟨r, m', h1, h2⟩)
    exact ⟨_, rfl, k1, k2⟩
  | options l =>
    obtain ⟨k1, k2⟩ := key 3 (l.map ipfixOptionsWrite).flatten (by decide)
      (by rw [sum_flatten_length _ _ _ fun a _ => length_ipfixOptions a]; rfl) (fun off o => by
        obtain ⟨m', r, h1, h2⟩ := content_options reg (d := ipfix) (by decide) (w := ipfixOptionsWrite) (l := l)
          (fun a ha rest o m => ipfixOptions_write (h a ha) rest o m)
          (fun a _ => by rw [length_ipfixOptions]; unfold ipfixOptionsLen; omega) off o md
        exact ⟨r, m', h1, h2⟩)
    exact ⟨_, rfl, k1, k2⟩
  | data id l =>
    obtain ⟨hid, t, he, hd, h0, hr⟩ := h
    obtain ⟨tw, htw, rfl⟩ := shapes_some hd
    obtain ⟨w, h1, h2, h3⟩ := ipfixData_write (reg := reg) hid hd h0 hr
    replace h3 := fun off o => h3 off o 0 h0
    simp only [List.replicate_zero, List.append_nil] at h3
    have hw : ∀ r ∈ l, ipfixRecordWrite (mw id) r = ipfixRecordWrite (some tw) r ∧ ipfixRecordLen (mw id) r = ipfixRecordLen (some tw) r := by
      intro r hx
      rcases he with he | ⟨he, hn⟩
      · obtain ⟨te, hte, hs⟩ := shapes_some he
        have hsc : te.scope = tw.scope := congrArg (·.1) hs
        have hfi : te.fields = tw.fields := congrArg (·.2) hs
        rw [hte]
        unfold ipfixRecordWrite ipfixRecordLen scopeOf fieldsOf
        simp [hsc, hfi]
      · have hm : mw id = none := by
          unfold Templates.shapes at he
          exact Option.map_eq_none_iff.mp he
        rw [hm]
        obtain ⟨a1, a2⟩ := full_fields (fun s hs => hn s (List.mem_append_left _ hs)) (hr r hx).1
        obtain ⟨b1, b2⟩ := full_fields (fun s hs => hn s (List.mem_append_right _ hs)) (hr r hx).2
        refine ⟨?_, ?_⟩
        · show (writeFields r.scope []).cat (writeFields r.fields []) = (writeFields r.scope tw.scope).cat (writeFields r.fields tw.fields)
          rw [a1, b1]; rfl
        · show fieldsLen r.scope [] + fieldsLen r.fields [] = fieldsLen r.scope tw.scope + fieldsLen r.fields tw.fields
          rw [a2, b2]; rfl
    obtain ⟨k1, k2⟩ := key id w (by
        rintro ⟨-, -, hlt⟩
        have := UInt16.lt_iff_toNat_lt.mp hlt
        have : (256 : UInt16).toNat = 256 := rfl
        omega) (by
          rw [h2]; show _ = (l.map (ipfixRecordLen (mw id))).sum + 4
          rw [List.map_congr_left fun r hx => (hw r hx).2]) h3
    refine ⟨_, ?_, k1, k2⟩
    show (Res.ok (u16be id ++ u16be _)).cat (writeAll (ipfixRecordWrite (mw id)) l) = _
    rw [writeAll_congr fun r hx => (hw r hx).1, h1]
    rfl

theorem ipfixSets_write {reg : Registry} {mw : Templates Spec} {l : List (FlowSet Spec Field)} {dec : UInt16 → Option (List Spec × List Spec)}
    (h : SetsFit reg mw.shapes dec l) (hl : ∀ s ∈ l, ipfixSetLen mw s < 65536) :
    ∃ w, writeAll (ipfixSetWrite mw) l = .ok w ∧ w.length = (l.map (ipfixSetLen mw)).sum ∧
      ∀ (md : Templates Spec) (rest : Bytes) (o : Nat), md.shapes = dec →
        ∃ s', SetsRead reg ipfix (⟨w ++ rest, o⟩, md) l s' ∧ s'.1 = ⟨rest, o + w.length⟩ ∧ Learns md (l.flatMap FlowSet.defs) s'.2 := by
  induction l generalizing dec with
  | nil => exact ⟨[], rfl, rfl, fun md rest o _ => ⟨_, .nil, rfl, Learns.refl _⟩⟩
  | cons s l ih =>
    obtain ⟨w, h1, h2, h3⟩ := ih h.2 fun x hx => hl x (by simp [hx])
    have hs := h.1
    obtain ⟨md0, rfl⟩ : ∃ m : Templates Spec, m.shapes = dec :=
      ⟨fun id => (dec id).map fun t => { scope := t.1, fields := t.2 }, by
        funext id
        unfold Templates.shapes
        cases hx : dec id <;> simp [hx, Template.shape]⟩
    obtain ⟨v, k1, k2, -⟩ := ipfixSet_write hs (hl s (by simp))
    refine ⟨v ++ w, ?_, ?_, fun md rest o hmd => ?_⟩
    · rw [writeAll, k1, h1]; rfl
    · rw [List.length_append, k2, h2]; rfl
    · obtain ⟨v', k1', -, k3⟩ := ipfixSet_write (md := md) (by rw [hmd]; exact hs) (hl s (by simp))
      obtain rfl : v = v' := by rw [k1] at k1'; injection k1'
      obtain ⟨m', g1, g2⟩ := k3 (w ++ rest) o
      obtain ⟨s', e1, e2, e3⟩ := h3 m' rest (o + v.length) (by
        funext id
        rw [g2 id, hmd])
      refine ⟨s', ?_, ?_, ?_⟩
      · rw [List.append_assoc]; exact .cons g1 e1
      · rw [e2, List.length_append, Nat.add_assoc]
      · rw [List.flatMap_cons]; exact g2.trans e3

/-- a message whose sets fit is read back, and the receiver has learnt its templates -/
theorem ipfix_write {reg : Registry} {c c' : FlowCodec} {p : IpfixPacket} (ht : 0 ≤ p.exportTime.secs ∧ p.exportTime.secs < 2 ^ 32 ∧ p.exportTime.nanos = 0)
    (h : SetsFit reg c.ipfix.shapes c'.ipfix.shapes p.sets) (hl : p.len c.ipfix < 65536) :
    ∃ w m', FlowCodec.encode c (.ipfix p) = .ok w ∧ w.length = p.len c.ipfix ∧
      (∀ rest, FlowCodec.decode reg c' (w ++ rest) = (.out (.ok (.ipfix p)), { c' with ipfix := m' }, rest)) ∧
      Learns c'.ipfix (p.sets.flatMap FlowSet.defs) m' := by
  obtain ⟨⟨s, n⟩, q, dm, sets⟩ := p
  simp only at ht h
  obtain ⟨t0, t1, rfl⟩ := ht
  have hsum : ∀ x ∈ sets, ipfixSetLen c.ipfix x < 65536 := fun x hx => by
    have hm : ipfixSetLen c.ipfix x ≤ (sets.map (ipfixSetLen c.ipfix)).sum := by
      clear hl h
      induction sets with
      | nil => cases hx
      | cons y l ih =>
        rw [List.map_cons, List.sum_cons]
        rcases List.mem_cons.mp hx with rfl | hx
        · omega
        · have := ih hx; omega
    have : 16 + (sets.map (ipfixSetLen c.ipfix)).sum < 65536 := hl
    omega
  obtain ⟨w, h1, h2, h3⟩ := ipfixSets_write h hsum
  have hlen : (IpfixPacket.len c.ipfix ⟨⟨s, 0⟩, q, dm, sets⟩) = 16 + w.length := by rw [h2]; rfl
  rw [hlen] at hl
  obtain ⟨⟨r', m'⟩, e1, e2, e3⟩ := h3 c'.ipfix [] (4 + 12) rfl
  simp only at e2 e3
  rw [List.append_nil] at e1
  let T := UInt32.ofNat (s % 4294967296).toNat
  have hT : (T.toNat : Int) = s := by
    show ((UInt32.ofNat (s % 4294967296).toNat).toNat : Int) = s
    rw [UInt32.toNat_ofNat_of_lt' (by simp only [UInt32.size]; omega)]; omega
  have hb := ipfixBody_eq reg T q dm w 4 c'.ipfix
  rw [rows_sets e1, CParser.rows_stop _ (by rw [e2]; simp)] at hb
  simp only [List.append_nil] at hb
  rw [hT] at hb
  refine ⟨_, m', by
    show IpfixPacket.write c.ipfix _ = _
    unfold IpfixPacket.write
    rw [h1]; rfl, ?_, fun rest => ?_, e3⟩
  · rw [hlen]; simp only [List.length_append, length_u16be, length_u32be]
  · rw [hlen]
    have hn : (UInt16.ofNat (16 + w.length)).toNat = 16 + w.length := UInt16.toNat_ofNat_of_lt' hl
    have := decode_ipfix reg c' (len := UInt16.ofNat (16 + w.length)) (body := u32be T ++ (u32be q ++ (u32be dm ++ w))) rest (by omega)
      (by rw [hn]; simp only [List.length_append, length_u32be]; omega)
    rw [hb] at this
    simp only [List.append_assoc] at this ⊢
    exact this

/-! ## NetFlow -/

/-- a scope field which can be sent with the length `l` and read back -/
def ScopeField.Fits (l : UInt16) : ScopeField → Prop
  | unknown _ _ v | cache v | template v => v.length = l.toNat
  | system v | interface v | lineCard v => l.toNat ≤ 4 ∧ v.toNat < 256 ^ l.toNat

/-- the element of a scope field -/
def ScopeField.ie : ScopeField → ScopeIe
  | unknown p i _ => .unknown p i
  | system _ => .system | interface _ => .interface | lineCard _ => .lineCard | cache _ => .cache | template _ => .template

theorem reads_reduced {l : UInt16} {v : UInt32} (h : l.toNat ≤ 4) (hv : v.toNat < 256 ^ l.toNat) :
    Reads (readReduced l) v (beBytes l.toNat v.toNat) := by
  unfold readReduced
  have := reads_unsigned64 (l := l.toNat) (v := v.toUInt64) (by omega) (by simpa using hv)
  rw [UInt32.toNat_toUInt64] at this
  refine (reads_atMost h).bind_nil ((this.mapErr _).bind_last ?_)
  rw [show v.toUInt64.toUInt32 = v by simp]
  exact Reads.pure _

theorem scopeField_write {l : UInt16} {f : ScopeField} (h : f.Fits l) :
    ∃ w, f.write (some l) = .ok w ∧ Reads (ScopeField.parse f.ie l) f w ∧ w.length = l.toNat := by
  cases f <;> simp only [ScopeField.Fits] at h <;> simp only [ScopeField.write, ScopeField.ie, ScopeField.parse]
  case unknown => exact ⟨_, rfl, ((reads_bytes h).mapErr _).bind_last (Reads.pure _), h⟩
  case cache => exact ⟨_, rfl, ((reads_bytes h).mapErr _).bind_last (Reads.pure _), h⟩
  case template => exact ⟨_, rfl, ((reads_bytes h).mapErr _).bind_last (Reads.pure _), h⟩
  all_goals exact ⟨_, writeInt_eq h.1, (reads_reduced h.1 h.2).bind_last (Reads.pure _), by simp⟩

/-- the scope fields of a record are those of its template, with values that fit -/
def ScopeConforms : List ScopeSpec → List ScopeField → Prop
  | [], [] => True
  | s :: ss, f :: fs => (f.ie = s.ie ∧ f.Fits s.length) ∧ ScopeConforms ss fs
  | _, _ => False

theorem scopeFields_write {ss : List ScopeSpec} {fs : List ScopeField} (h : ScopeConforms ss fs) :
    ∃ w, writeScopeFields fs ss = .ok w ∧ Reads (parseScopeFields ss) fs w ∧ w.length = (ss.map (·.length.toNat)).sum := by
  induction ss generalizing fs with
  | nil =>
    cases fs with
    | nil => exact ⟨[], rfl, Reads.pure _, rfl⟩
    | cons f fs => exact h.elim
  | cons s ss ih =>
    cases fs with
    | nil => exact h.elim
    | cons f fs =>
      obtain ⟨⟨he, hf⟩, ht⟩ := h
      obtain ⟨w, h1, h2, h3⟩ := ih ht
      obtain ⟨v, k1, k2, k3⟩ := scopeField_write hf
      rw [he] at k2
      refine ⟨v ++ w, ?_, k2.bind (h2.bind_last (Reads.pure _)), ?_⟩
      · show (f.write (some s.length)).cat (writeScopeFields fs ss) = _
        rw [k1, h1]; rfl
      · rw [List.length_append, k3, h3]; rfl

/-- a scope field of this length is written in full -/
def ScopeSpec.Full (s : ScopeSpec) : Prop :=
  match s.ie with
  | .system | .interface | .lineCard => s.length = 4
  | _ => True

theorem full_scopeFields {ss : List ScopeSpec} {fs : List ScopeField} (hs : ∀ s ∈ ss, s.Full) (h : ScopeConforms ss fs) :
    writeScopeFields fs [] = writeScopeFields fs ss ∧ (fs.map (·.len none)).sum = (ss.map (·.length.toNat)).sum := by
  induction ss generalizing fs with
  | nil =>
    cases fs with
    | nil => exact ⟨rfl, rfl⟩
    | cons f fs => exact h.elim
  | cons s ss ih =>
    cases fs with
    | nil => exact h.elim
    | cons f fs =>
      have hf : f.write none = f.write (some s.length) ∧ f.len none = s.length.toNat := by
        obtain ⟨ie, l⟩ := s
        obtain ⟨⟨hi, hf⟩, -⟩ := h
        have hs := hs _ (List.mem_cons_self ..)
        simp only at hi hf
        subst hi
        cases f <;> simp only [ScopeSpec.Full, ScopeField.ie] at hs <;> simp only [ScopeField.Fits] at hf
        case system => subst hs; exact ⟨rfl, rfl⟩
        case interface => subst hs; exact ⟨rfl, rfl⟩
        case lineCard => subst hs; exact ⟨rfl, rfl⟩
        all_goals exact ⟨rfl, hf⟩
      obtain ⟨k1, k2⟩ := ih (fun x hx => hs x (by simp [hx])) h.2
      refine ⟨?_, ?_⟩
      · show (f.write none).cat (writeScopeFields fs []) = (f.write (some s.length)).cat (writeScopeFields fs ss)
        rw [hf.1, k1]
      · rw [List.map_cons, List.sum_cons, List.map_cons, List.sum_cons, hf.2, k2]

theorem fieldsLen_none (fs : List Field) : fieldsLen fs [] = (fs.map (·.len none)).sum := by
  induction fs with
  | nil => rfl
  | cons f fs ih => rw [List.map_cons, List.sum_cons, ← ih]; rfl

theorem fieldsLen_fixed {ss : List Spec} {fs : List Field} (h : Conforms ss fs) (hl : ∀ s ∈ ss, s.length ≠ 65535) :
    fieldsLen fs ss = (ss.map (·.length.toNat)).sum := by
  induction ss generalizing fs with
  | nil =>
    cases fs with
    | nil => rfl
    | cons f fs => exact h.elim
  | cons s ss ih =>
    cases fs with
    | nil => exact h.elim
    | cons f fs =>
      show (if s.length = 65535 then f.len (some s.length) else s.length.toNat) + fieldsLen fs ss = _
      rw [if_neg (hl s (by simp)), ih h.2 fun x hx => hl x (by simp [hx])]
      rfl

/-- a record of a NetFlow template, all fields of which have fixed lengths -/
def NetflowRecordFits (t : List ScopeSpec × List Spec) (r : DataRecord ScopeField) : Prop :=
  ScopeConforms t.1 r.scope ∧ Conforms t.2 r.fields ∧ ∀ s ∈ t.2, s.length ≠ 65535

theorem netflowRecord_write {t : Template ScopeSpec} {r : DataRecord ScopeField} (h : NetflowRecordFits t.shape r) :
    ∃ w, netflowRecordWrite (some t) r = .ok w ∧ Reads (netflowRecord t) r w ∧ w.length = netflowSize t.shape := by
  obtain ⟨u, h1, h2, h3⟩ := scopeFields_write h.1
  obtain ⟨v, k1, k2, k3⟩ := fields_write h.2.1
  refine ⟨u ++ v, ?_, (h2.mapErr _).bind ((k2.mapErr _).bind_last (Reads.pure _)), ?_⟩
  · show (writeScopeFields r.scope t.scope).cat (writeFields r.fields t.fields) = _
    rw [show writeScopeFields r.scope t.scope = _ from h1, show writeFields r.fields t.fields = _ from k1]; rfl
  · rw [List.length_append, h3, k3, fieldsLen_fixed h.2.1 h.2.2]; rfl

theorem netflowData_write {reg : Registry} {md : Templates ScopeSpec} {t : Template ScopeSpec} {id : UInt16}
    {l : List (DataRecord ScopeField)} (hid : 256 ≤ id.toNat) (hd : md.shapes id = some t.shape)
    (h0 : 0 < netflowSize t.shape) (hl : ∀ r ∈ l, NetflowRecordFits t.shape r) :
    ∃ w, writeAll (netflowRecordWrite (some t)) l = .ok w ∧ w.length = (l.map (netflowRecordLen (some t))).sum ∧
      ∀ off o pad, pad < netflowSize t.shape →
        ∃ r m', FlowSet.content reg netflow off id (⟨w ++ List.replicate pad 0, o⟩, md) = (.ok (.data id l), (r, m')) ∧ Learns md [] m' := by
  let w := fun r => written (netflowRecordWrite (some t) r)
  have hw : ∀ r ∈ l, netflowRecordWrite (some t) r = .ok (w r) ∧ Reads (netflowRecord t) r (w r) ∧
      (w r).length = netflowSize t.shape := fun r hr => by
    obtain ⟨v, h1, h2⟩ := netflowRecord_write (hl r hr)
    have : w r = v := by show written (netflowRecordWrite (some t) r) = v; rw [h1]; rfl
    rw [this]
    exact ⟨h1, h2⟩
  refine ⟨(l.map w).flatten, writeAll_ok fun r hr => (hw r hr).1, ?_, fun off o pad hpad => ?_⟩
  · exact sum_flatten_length _ _ _ fun r hr => (hw r hr).2.2
  · obtain ⟨t', ht, hs⟩ := shapes_some hd
    have hsc : t'.scope = t.scope := congrArg (·.1) hs
    have hfi : t'.fields = t.fields := congrArg (·.2) hs
    have hrec : netflowRecord t' = netflowRecord t := by unfold netflowRecord; rw [hsc, hfi]
    have hmin : (t'.scope.map (·.length.toNat)).sum + (t'.fields.map (·.length.toNat)).sum = netflowSize t.shape := by
      rw [hsc, hfi]; rfl
    obtain ⟨g', h1, hg⟩ := CParser.crd_rows (k := netflowSize t.shape) h0 (I := fun m => Templates.shapes m = md.shapes)
      (p := (do
        let x ← CParser.lift (netflowRecord t')
        CParser.modify fun m => m.count id
        pure x : CParser (Templates ScopeSpec) SetErr _)) w l
      (fun r hr rest o g hg => ⟨g.count id, by
        rw [CParser.bind_ok (lift_reads (by rw [hrec]; exact (hw r hr).2.1) _ _ _)]; rfl, (shapes_count g id).trans hg⟩)
      (fun r hr => by rw [(hw r hr).2.2]; exact Nat.le_refl _) (List.replicate pad 0) (by simpa using hpad) o md rfl
    have hr : netflowRecords id t' (⟨(l.map w).flatten ++ List.replicate pad 0, o⟩, md) =
        (.ok l, (⟨[], o + (l.map w).flatten.length + pad⟩, g')) := by
      unfold netflowRecords
      simp only
      rw [hmin, if_pos h0, CParser.bind_ok h1,
        CParser.bind_ok (p := CParser.lift checkPadding) (by rw [CParser.lift_run, checkPadding_zeros])]
      rfl
    refine ⟨⟨[], o + (l.map w).flatten.length + pad⟩, g', ?_, fun i => by rw [hg]; rfl⟩
    unfold FlowSet.content
    have n2 : id ≠ 0 := by rintro rfl; revert hid; decide
    have n3 : id ≠ 1 := by rintro rfl; revert hid; decide
    rw [if_neg (show id ≠ netflow.templateSet from n2), if_neg (show id ≠ netflow.optionsSet from n3),
      CParser.bind_ok (p := CParser.getCtx) (a := md) (s' := (⟨(l.map w).flatten ++ List.replicate pad 0, o⟩, md)) rfl]
    simp only [ht]
    rw [CParser.bind_ok (show netflow.records id t' _ = _ from hr)]
    rfl

/-- a NetFlow set that can be sent by a codec which knows the templates `enc` to one which knows `dec`; it is not empty -/
def NetflowSetFits (reg : Registry) (enc dec : UInt16 → Option (List ScopeSpec × List Spec)) : FlowSet ScopeSpec ScopeField → Prop
  | .template l => l ≠ [] ∧ ∀ t ∈ l, t.Valid reg
  | .options l => l ≠ [] ∧ ∀ t ∈ l, NetflowOptionsValid reg t
  | .data id l => l ≠ [] ∧ 256 ≤ id.toNat ∧
      ∃ t, (enc id = some t ∨ enc id = none ∧ (∀ s ∈ t.1, s.Full) ∧ ∀ s ∈ t.2, s.Full) ∧ dec id = some t ∧ 0 < netflowSize t ∧
        ∀ r ∈ l, NetflowRecordFits t r

/-- the sets of a packet -/
def NetflowSetsFit (reg : Registry) (enc : UInt16 → Option (List ScopeSpec × List Spec)) :
    (UInt16 → Option (List ScopeSpec × List Spec)) → List (FlowSet ScopeSpec ScopeField) → Prop
  | _, [] => True
  | dec, s :: l => NetflowSetFits reg enc dec s ∧ NetflowSetsFit reg enc (fun id => (lastDef s.defs id).or (dec id)) l

/-- the octets of a set that is not aligned -/
def netflowSetLen (m : Templates ScopeSpec) (s : FlowSet ScopeSpec ScopeField) : Nat := (netflowSetSize m false s).1

/-- the sender writes a record as the receiver expects it -/
theorem netflow_same {mw : Templates ScopeSpec} {tw : Template ScopeSpec} {id : UInt16} {r : DataRecord ScopeField}
    (he : mw.shapes id = some tw.shape ∨ mw.shapes id = none ∧ (∀ s ∈ tw.shape.1, s.Full) ∧ ∀ s ∈ tw.shape.2, s.Full)
    (hr : NetflowRecordFits tw.shape r) :
    netflowRecordWrite (mw id) r = netflowRecordWrite (some tw) r ∧ netflowRecordLen (mw id) r = netflowRecordLen (some tw) r := by
  rcases he with he | ⟨he, hn1, hn2⟩
  · obtain ⟨te, hte, hs⟩ := shapes_some he
    have hsc : te.scope = tw.scope := congrArg (·.1) hs
    have hfi : te.fields = tw.fields := congrArg (·.2) hs
    rw [hte]
    unfold netflowRecordWrite netflowRecordLen scopeOf fieldsOf
    simp [hsc, hfi]
  · have hm : mw id = none := by
      unfold Templates.shapes at he
      exact Option.map_eq_none_iff.mp he
    rw [hm]
    obtain ⟨a1, a2⟩ := full_scopeFields hn1 hr.1
    obtain ⟨b1, b2⟩ := full_fields hn2 hr.2.1
    refine ⟨?_, ?_⟩
    · show (writeScopeFields r.scope []).cat (writeFields r.fields []) = (writeScopeFields r.scope tw.scope).cat (writeFields r.fields tw.fields)
      rw [a1, b1]; rfl
    · show (r.scope.map (·.len none)).sum + (r.fields.map (·.len none)).sum =
        (tw.scope.map (·.length.toNat)).sum + (tw.fields.map (·.length.toNat)).sum
      rw [a2, ← fieldsLen_none, b2, fieldsLen_fixed hr.2.1 hr.2.2]; rfl

theorem netflowSet_write {reg : Registry} {mw md : Templates ScopeSpec} {s : FlowSet ScopeSpec ScopeField}
    (h : NetflowSetFits reg mw.shapes md.shapes s) (hl : netflowSetLen mw s < 65536) :
    ∃ w, netflowSetWrite mw false s = .ok w ∧ w.length = netflowSetLen mw s ∧
      ∀ rest o, ∃ m', FlowSet.parse reg netflow (⟨w ++ rest, o⟩, md) = (.ok s, (⟨rest, o + w.length⟩, m')) ∧ Learns md s.defs m' := by
  have key : ∀ (id : UInt16) (body : Bytes), ¬ netflow.badId id → 4 + body.length = netflowSetLen mw s →
      (∀ off o, ∃ r m', FlowSet.content reg netflow off id (⟨body, o⟩, md) = (.ok s, (r, m')) ∧ Learns md s.defs m') →
      (u16be id ++ u16be (UInt16.ofNat (netflowSetLen mw s)) ++ body).length = netflowSetLen mw s ∧
      ∀ rest o, ∃ m', FlowSet.parse reg netflow (⟨u16be id ++ u16be (UInt16.ofNat (netflowSetLen mw s)) ++ body ++ rest, o⟩, md) =
        (.ok s, (⟨rest, o + (u16be id ++ u16be (UInt16.ofNat (netflowSetLen mw s)) ++ body).length⟩, m')) ∧ Learns md s.defs m' := by
    intro id body hid hb hc
    have hlen : (u16be id ++ u16be (UInt16.ofNat (netflowSetLen mw s)) ++ body).length = netflowSetLen mw s := by
      simp only [List.length_append, length_u16be]; omega
    refine ⟨hlen, fun rest o => ?_⟩
    obtain ⟨r, m', h1, h2⟩ := hc o (o + 4)
    have := set_write reg (d := netflow) hid (by omega) h1 rest
    rw [hb] at this
    refine ⟨m', ?_, h2⟩
    rw [hlen]
    exact this
  cases s with
  | template l =>
    obtain ⟨k1, k2⟩ := key 0 (l.map TemplateRecord.write).flatten (by decide)
      (by rw [sum_flatten_length _ _ _ fun a _ => length_template a]; rfl) (fun off o => by
        obtain ⟨m', r, h1, h2⟩ := content_templates reg netflow h.2 off o md
        exact ⟨r, m', h1, h2⟩)
    exact ⟨_, congrArg Res.ok (List.append_nil _), k1, k2⟩
  | options l =>
    obtain ⟨k1, k2⟩ := key 1 (l.map netflowOptionsWrite).flatten (by decide)
      (by rw [sum_flatten_length _ _ _ fun a _ => length_netflowOptions a]; rfl) (fun off o => by
        obtain ⟨m', r, h1, h2⟩ := content_options reg (d := netflow) (by decide) (w := netflowOptionsWrite) (l := l)
          (fun a ha rest o m => netflowOptions_write (h.2 a ha) rest o m)
          (fun a _ => by rw [length_netflowOptions]; unfold netflowOptionsLen; omega) off o md
        exact ⟨r, m', h1, h2⟩)
    exact ⟨_, congrArg Res.ok (List.append_nil _), k1, k2⟩
  | data id l =>
    obtain ⟨-, hid, t, he, hd, h0, hr⟩ := h
    obtain ⟨tw, htw, rfl⟩ := shapes_some hd
    obtain ⟨w, h1, h2, h3⟩ := netflowData_write (reg := reg) hid hd h0 hr
    replace h3 := fun off o => h3 off o 0 h0
    simp only [List.replicate_zero, List.append_nil] at h3
    have hw : ∀ r ∈ l, netflowRecordWrite (mw id) r = netflowRecordWrite (some tw) r ∧
        netflowRecordLen (mw id) r = netflowRecordLen (some tw) r := fun r hx => netflow_same he (hr r hx)
    obtain ⟨k1, k2⟩ := key id w (by
        rintro ⟨-, -, hlt⟩
        have := UInt16.lt_iff_toNat_lt.mp hlt
        have : (256 : UInt16).toNat = 256 := rfl
        omega) (by
          rw [h2]; show _ = 4 + (l.map (netflowRecordLen (mw id))).sum
          rw [List.map_congr_left fun r hx => (hw r hx).2]) h3
    refine ⟨_, ?_, k1, k2⟩
    show ((Res.ok (u16be id ++ u16be _)).cat (writeAll (netflowRecordWrite (mw id)) l)).cat (.ok []) = _
    rw [writeAll_congr fun r hx => (hw r hx).1, h1]
    exact congrArg Res.ok (List.append_nil _)

theorem NetflowSetFits.takes {reg : Registry} {enc dec : UInt16 → Option (List ScopeSpec × List Spec)} {s : FlowSet ScopeSpec ScopeField}
    (h : NetflowSetFits reg enc dec s) : s.takes ≤ s.records ∧ 0 < s.records := by
  cases s with
  | template l => have := List.length_pos_iff.mpr h.1; exact ⟨this, this⟩
  | options l => have := List.length_pos_iff.mpr h.1; exact ⟨this, this⟩
  | data id l => have := List.length_pos_iff.mpr h.1; exact ⟨Nat.le_refl _, this⟩

theorem NetflowSetFits.bound {reg : Registry} {mw : Templates ScopeSpec} {dec : UInt16 → Option (List ScopeSpec × List Spec)}
    {s : FlowSet ScopeSpec ScopeField} (h : NetflowSetFits reg mw.shapes dec s) : s.records ≤ netflowSetLen mw s := by
  have key : ∀ {α : Type} (l : List α) (f : α → Nat), (∀ a ∈ l, 1 ≤ f a) → l.length ≤ 4 + (l.map f).sum := by
    intro α l f hf
    induction l with
    | nil => simp
    | cons a l ih =>
      have := ih fun b hb => hf b (by simp [hb])
      have := hf a (by simp)
      simp only [List.length_cons, List.map_cons, List.sum_cons]; omega
  cases s with
  | template l => exact key l _ fun t _ => by unfold TemplateRecord.len; omega
  | options l => exact key l _ fun t _ => by unfold netflowOptionsLen; omega
  | data id l =>
    obtain ⟨-, -, t, he, -, h0, hr⟩ := h
    refine key l _ fun r hx => ?_
    have := (netflow_same (tw := { scope := t.1, fields := t.2 }) he (hr r hx)).2
    rw [this]
    exact h0

theorem netflowSets_write {reg : Registry} {mw : Templates ScopeSpec} {l : List (FlowSet ScopeSpec ScopeField)}
    {dec : UInt16 → Option (List ScopeSpec × List Spec)} (co : Nat) (cnt : UInt16)
    (h : NetflowSetsFit reg mw.shapes dec l) (hl : ∀ s ∈ l, netflowSetLen mw s < 65536) :
    ∃ w, writeAll (netflowSetWrite mw false) l = .ok w ∧ w.length = (l.map (netflowSetLen mw)).sum ∧
      ∀ (md : Templates ScopeSpec) (o i : Nat), md.shapes = dec → (l.map FlowSet.records).sum ≤ i →
        ∃ m', CParser.loop (fun i n => decide (0 < i) && decide (3 < n)) (netflowStep reg co cnt) i (⟨w, o⟩, md) =
          (.ok l, (⟨[], o + w.length⟩, m')) ∧ Learns md (l.flatMap FlowSet.defs) m' := by
  induction l generalizing dec with
  | nil => exact ⟨[], rfl, rfl, fun md o i _ _ => ⟨md, CParser.loop_stop _ _ (by simp), Learns.refl _⟩⟩
  | cons s l ih =>
    obtain ⟨w, h1, h2, h3⟩ := ih h.2 fun x hx => hl x (by simp [hx])
    have hs := h.1
    obtain ⟨md0, rfl⟩ : ∃ m : Templates ScopeSpec, m.shapes = dec :=
      ⟨fun id => (dec id).map fun t => { scope := t.1, fields := t.2 }, by
        funext id
        unfold Templates.shapes
        cases hx : dec id <;> simp [hx, Template.shape]⟩
    obtain ⟨v, k1, k2, -⟩ := netflowSet_write hs (hl s (by simp))
    refine ⟨v ++ w, ?_, ?_, fun md o i hmd hi => ?_⟩
    · rw [writeAll, k1, h1]; rfl
    · rw [List.length_append, k2, h2]; rfl
    · obtain ⟨v', k1', -, k3⟩ := netflowSet_write (md := md) (by rw [hmd]; exact hs) (hl s (by simp))
      obtain rfl : v = v' := by rw [k1] at k1'; injection k1'
      obtain ⟨m', g1, g2⟩ := k3 w o
      obtain ⟨ht, hp⟩ := hs.takes
      rw [List.map_cons, List.sum_cons] at hi
      obtain ⟨m'', e1, e2⟩ := h3 m' (o + v.length) (i - s.takes) (by
        funext id
        rw [g2 id, hmd]) (by omega)
      have h4 : 4 ≤ v.length := by
        rw [k2]
        unfold netflowSetLen netflowSetSize
        simp
      refine ⟨m'', ?_, by rw [List.flatMap_cons]; exact g2.trans e2⟩
      have hstep : netflowStep reg co cnt i (⟨v ++ w, o⟩, md) = (.ok (s, i - s.takes), (⟨w, o + v.length⟩, m')) := by
        unfold netflowStep
        rw [CParser.bind_ok (a := s) (s' := (⟨w, o + v.length⟩, m')) (by rw [CParser.mapErr_run, g1]; rfl), if_neg (by omega)]
        rfl
      rw [CParser.loop_cons (by simp) (by simp; omega) hstep (by simp; omega), e1]
      simp [Nat.add_assoc]

/-- a NetFlow datagram whose sets fit is read back, and the receiver has learnt its templates -/
theorem netflow_write {reg : Registry} {c c' : FlowCodec} {p : NetflowPacket}
    (ht : 0 ≤ p.unixTime.secs ∧ p.unixTime.secs < 2 ^ 32 ∧ p.unixTime.nanos = 0)
    (h : NetflowSetsFit reg c.netflow.shapes c'.netflow.shapes p.sets) (hl : ∀ s ∈ p.sets, netflowSetLen c.netflow s < 65536)
    (hn : (p.sets.map FlowSet.records).sum < 65536) :
    ∃ w m', FlowCodec.encode c (.netflow p) = .ok w ∧ w.length = 20 + (p.sets.map (netflowSetLen c.netflow)).sum ∧
      FlowCodec.decode reg c' w = (.out (.ok (.netflow p)), { c' with netflow := m' }, []) ∧
      Learns c'.netflow (p.sets.flatMap FlowSet.defs) m' := by
  obtain ⟨up, ⟨s, n⟩, q, src, sets⟩ := p
  simp only at ht h hl hn
  obtain ⟨t0, t1, rfl⟩ := ht
  have hc : (sets.map FlowSet.records).sum ≤ 20 + (sets.map (netflowSetLen c.netflow)).sum := by
    suffices ∀ (l : List (FlowSet ScopeSpec ScopeField)) (d : UInt16 → Option (List ScopeSpec × List Spec)),
        NetflowSetsFit reg c.netflow.shapes d l → (l.map FlowSet.records).sum ≤ (l.map (netflowSetLen c.netflow)).sum by
      have := this sets _ h
      omega
    intro l
    induction l with
    | nil => exact fun _ _ => Nat.le_refl _
    | cons s l ih =>
      intro d hd
      have h1 := ih _ hd.2
      have h2 := NetflowSetFits.bound (mw := c.netflow) hd.1
      simp only [List.map_cons, List.sum_cons]; omega
  obtain ⟨cnt, hcnt0, hcnt⟩ : ∃ cnt : UInt16, UInt16.ofNat (sets.map FlowSet.records).sum = cnt ∧ cnt.toNat = (sets.map FlowSet.records).sum :=
    ⟨_, rfl, UInt16.toNat_ofNat_of_lt' hn⟩
  obtain ⟨w, h1, h2, h3⟩ := netflowSets_write 2 cnt h hl
  obtain ⟨m', e1, e2⟩ := h3 c'.netflow 20 cnt.toNat rfl (by rw [hcnt]; exact Nat.le_refl _)
  obtain ⟨T, hT0, hT⟩ : ∃ T : UInt32, UInt32.ofNat (s % 4294967296).toNat = T ∧ (T.toNat : Int) = s :=
    ⟨_, rfl, by rw [UInt32.toNat_ofNat_of_lt' (by simp only [UInt32.size]; omega)]; omega⟩
  have hp : NetflowPacket.parse reg (⟨u16be 9 ++ (u16be cnt ++ (u32be up ++ (u32be T ++ (u32be q ++ (u32be src ++ w))))), 0⟩, c'.netflow) =
      (.ok ⟨up, ⟨s, 0⟩, q, src, sets⟩, (⟨[], 20 + w.length⟩, m')) := by
    unfold NetflowPacket.parse
    rw [CParser.bind_ok (p := CParser.lift (parseVersion 9)) (a := ()) (s' := (⟨u16be cnt ++ (u32be up ++ (u32be T ++ (u32be q ++ (u32be src ++ w)))), 0 + 2⟩, c'.netflow))
      (by unfold CParser.lift; rw [parseVersion_eq]), CParser.bind_ok (lift_getOffset _ _),
      CParser.bind_ok (lift_reads ((reads_u16 cnt).mapErr _) _ _ _), CParser.bind_ok (lift_reads ((reads_u32 up).mapErr _) _ _ _),
      CParser.bind_ok (lift_reads (reads_time T) _ _ _), CParser.bind_ok (lift_reads ((reads_u32 q).mapErr _) _ _ _),
      CParser.bind_ok (lift_reads ((reads_u32 src).mapErr _) _ _ _)]
    have ho : 0 + 2 + (u16be cnt).length + (u32be up).length + (u32be T).length + (u32be q).length + (u32be src).length = 20 := by
      simp only [length_u16be, length_u32be]
    rw [ho, CParser.bind_ok e1, hT, CParser.pure_run]
  refine ⟨u16be 9 ++ (u16be cnt ++ (u32be up ++ (u32be T ++ (u32be q ++ (u32be src ++ w))))), m', ?_, ?_, ?_, e2⟩
  · show NetflowPacket.write c.netflow false _ = _
    unfold NetflowPacket.write
    rw [h1, Res.cat]
    simp only [List.append_assoc, hcnt0, hT0, Res.map]
  · rw [← h2]; simp only [List.length_append, length_u16be, length_u32be]; omega
  · rw [decode_netflow reg c' (by simp only [List.length_append, length_u32be]; omega)
      (by rw [hcnt]; rw [← h2] at hc; simp only [List.length_append, length_u32be]; omega)]
    unfold Reader.new
    rw [hp]
    rfl

end Verif.Flow
