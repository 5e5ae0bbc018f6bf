import Verif.Flow.PacketLemmas
/-!
# What is written for templates is read again
-/
namespace Verif.Flow
open Parser

/-! ## Field specifiers -/

theorem low15 (x : UInt16) (h : x.toNat < 32768) :
    x &&& 0x7FFF = x ∧ x &&& 0x8000 = 0 ∧ (x ||| 0x8000) &&& 0x7FFF = x ∧ (x ||| 0x8000) &&& 0x8000 = 0x8000 := by
  have ht : x &&& 0x7FFF = x := by
    apply UInt16.toNat_inj.mp
    rw [UInt16.toNat_and]
    exact (Nat.and_two_pow_sub_one_eq_mod x.toNat 15).trans (Nat.mod_eq_of_lt h)
  have h8 : x &&& 0x8000 = 0 := by
    rw [← ht, UInt16.and_assoc]; exact UInt16.and_zero
  have key : ∀ y : UInt16, (x ||| 0x8000) &&& y = (x &&& y) ||| (0x8000 &&& y) := by
    intro y
    apply UInt16.toNat_inj.mp
    simp only [UInt16.toNat_and, UInt16.toNat_or, Nat.and_or_distrib_right]
  refine ⟨ht, h8, ?_, ?_⟩
  · rw [key, ht]; exact UInt16.or_zero
  · rw [key, h8]; exact UInt16.zero_or

/-- the specifier names its element as the registry does, the enterprise bit is not part of the id, and the length is one
the element can have -/
structure Spec.Valid (reg : Registry) (s : Spec) : Prop where
  named : reg.tryFrom s.ie.pen s.ie.id = some s.ie
  id : s.ie.id.toNat < 32768
  length : inRange s.ie.lengthRange s.length = true

theorem length_spec (s : Spec) : s.write.length = s.len := by
  unfold Spec.write Spec.len
  split <;> simp_all [u16be, u32be]

theorem reads_specNew (reg : Registry) {s : Spec} (h : s.Valid reg) : Reads (Spec.new s.ie s.length) s [] := by
  unfold Spec.new
  rw [if_pos h.length]
  exact Reads.pure _

theorem reads_spec (reg : Registry) {s : Spec} (h : s.Valid reg) : Reads (Spec.parse reg) s s.write := by
  obtain ⟨k1, k2, k3, k4⟩ := low15 _ h.id
  unfold Spec.parse Spec.write
  by_cases hp : s.ie.pen = 0
  · rw [if_pos hp, if_neg (fun hn => hn hp), List.append_nil]
    refine ((reads_u16 _).mapErr _).bind (((reads_u16 _).mapErr _).bind_last ?_)
    rw [if_neg (fun hn => hn k2)]
    have := h.named
    rw [hp] at this
    rw [this]
    exact Reads.bind_nil (Reads.pure _) (reads_specNew reg h)
  · rw [if_neg hp, if_pos hp, List.append_assoc]
    refine ((reads_u16 _).mapErr _).bind (((reads_u16 _).mapErr _).bind ?_)
    rw [if_pos (by rw [k4]; decide), k3]
    refine ((reads_u32 _).mapErr _).bind_last ?_
    rw [h.named]
    exact Reads.bind_nil (Reads.pure _) (reads_specNew reg h)

theorem reads_specs (reg : Registry) {l : List Spec} (h : ∀ s ∈ l, s.Valid reg) :
    Reads (parseSpecs reg l.length) l (l.map Spec.write).flatten := by
  induction l with
  | nil => exact Reads.pure _
  | cons s l ih =>
    rw [List.map_cons, List.flatten_cons]
    exact ((reads_spec reg (h s (by simp))).mapErr _).bind ((ih fun x hx => h x (by simp [hx])).bind_last (Reads.pure _))

theorem reads_templateId {id : UInt16} (h : 256 ≤ id.toNat) : Reads parseTemplateId id (u16be id) := by
  refine ⟨fun rest o => ?_⟩
  unfold parseTemplateId
  rw [bind_ok (p := getOffset) (a := o) (r' := ⟨u16be id ++ rest, o⟩) rfl,
    bind_ok (mapErr_ok (peekU16_u16be _ _ _) RecordErr.parse),
    if_neg (by rw [UInt16.lt_iff_toNat_lt]; have : (256 : UInt16).toNat = 256 := rfl; omega),
    mapErr_ok (readU16_u16be _)]
  simp [u16be]

/-! ## Records -/

structure TemplateRecord.Valid (reg : Registry) (t : TemplateRecord) : Prop where
  id : 256 ≤ t.id.toNat
  count : t.fields.length < 65536
  fields : ∀ s ∈ t.fields, s.Valid reg

theorem templateRecord_write {κ : Type} {reg : Registry} {t : TemplateRecord} (h : t.Valid reg) (rest : Bytes) (o : Nat)
    (m : Templates κ) :
    TemplateRecord.parse reg (⟨t.write ++ rest, o⟩, m) =
      (.ok t, (⟨rest, o + t.write.length⟩, m.insert t.id { scope := [], fields := t.fields })) := by
  unfold TemplateRecord.parse TemplateRecord.write
  rw [List.append_assoc, List.append_assoc,
    CParser.bind_ok (lift_reads (reads_templateId h.id) _ _ _),
    CParser.bind_ok (lift_reads ((reads_u16 _).mapErr _) _ _ _), UInt16.toNat_ofNat_of_lt' h.count,
    CParser.bind_ok (lift_reads (reads_specs reg h.fields) _ _ _)]
  simp only [Bind.bind, CParser.bind, CParser.modify, CParser.pure_run, List.length_append, Nat.add_assoc]

structure OptionsValid (reg : Registry) (t : OptionsRecord Spec) : Prop where
  id : 256 ≤ t.id.toNat
  count : t.scope.length + t.fields.length < 65536
  scope : ∀ s ∈ t.scope, s.Valid reg
  fields : ∀ s ∈ t.fields, s.Valid reg

theorem ipfixOptions_write {reg : Registry} {t : OptionsRecord Spec} (h : OptionsValid reg t) (rest : Bytes) (o : Nat)
    (m : Templates Spec) :
    ipfixOptions reg (⟨ipfixOptionsWrite t ++ rest, o⟩, m) =
      (.ok t, (⟨rest, o + (ipfixOptionsWrite t).length⟩, m.insert t.id { scope := t.scope, fields := t.fields })) := by
  have hc := h.count
  have e1 : (UInt16.ofNat t.scope.length).toNat = t.scope.length := UInt16.toNat_ofNat_of_lt' (show _ < 65536 by omega)
  have e2 : (UInt16.ofNat (t.scope.length + t.fields.length)).toNat = t.scope.length + t.fields.length :=
    UInt16.toNat_ofNat_of_lt' hc
  have e3 : (UInt16.ofNat (t.scope.length + t.fields.length) - UInt16.ofNat t.scope.length).toNat = t.fields.length := by
    rw [UInt16.toNat_sub_of_le _ _ (by rw [UInt16.le_iff_toNat_le, e1, e2]; omega), e1, e2]; omega
  unfold ipfixOptions ipfixOptionsWrite
  rw [List.append_assoc, List.append_assoc, List.append_assoc, List.append_assoc,
    CParser.bind_ok (lift_reads (reads_templateId h.id) _ _ _),
    CParser.bind_ok (lift_reads ((reads_u16 _).mapErr _) _ _ _),
    CParser.bind_ok (lift_getOffset _ _),
    CParser.bind_ok (lift_mapErr_ok (peekU16_u16be _ _ _) _ _),
    if_neg (by rw [UInt16.lt_iff_toNat_lt, e1, e2]; omega),
    CParser.bind_ok (lift_reads ((reads_u16 _).mapErr _) _ _ _), e1, e3,
    CParser.bind_ok (lift_reads (reads_specs reg h.scope) _ _ _),
    CParser.bind_ok (lift_reads (reads_specs reg h.fields) _ _ _)]
  simp only [Bind.bind, CParser.bind, CParser.modify, CParser.pure_run, List.length_append, Nat.add_assoc]

theorem length_specs (l : List Spec) : ((l.map Spec.write).flatten).length = (l.map Spec.len).sum := by
  induction l with
  | nil => rfl
  | cons s l ih => simp [length_spec, ih]

theorem length_template (t : TemplateRecord) : t.write.length = t.len := by
  unfold TemplateRecord.write TemplateRecord.len
  rw [List.length_append, List.length_append, length_specs]; simp [u16be]

theorem length_ipfixOptions (t : OptionsRecord Spec) : (ipfixOptionsWrite t).length = ipfixOptionsLen t := by
  unfold ipfixOptionsWrite ipfixOptionsLen
  rw [List.length_append, List.length_append, length_specs, length_specs]; simp [u16be]

/-! ## Sets of templates -/

/-- records written one after the other are read again and learnt -/
theorem rows_write {κ ε α : Type} {k : Nat} (hk : 0 < k) {p : CParser (Templates κ) ε α} {w : α → Bytes}
    {f : α → UInt16 × List κ × List Spec} {l : List α}
    (hp : ∀ a ∈ l, ∀ rest o m, p (⟨w a ++ rest, o⟩, m) =
      (.ok a, (⟨rest, o + (w a).length⟩, m.insert (f a).1 { scope := (f a).2.1, fields := (f a).2.2 })))
    (hw : ∀ a ∈ l, k ≤ (w a).length) (rest : Bytes) (hr : rest.length < k) (o : Nat) (m : Templates κ) :
    ∃ m', CParser.rows k p (⟨(l.map w).flatten ++ rest, o⟩, m) =
      (.ok l, (⟨rest, o + (l.map w).flatten.length⟩, m')) ∧ Learns m (l.map f) m' := by
  induction l generalizing o m with
  | nil => exact ⟨m, by rw [CParser.rows_stop _ (by simpa using hr)]; simp, Learns.refl _⟩
  | cons a l ih =>
    obtain ⟨m', h1, h2⟩ := ih (fun b hb => hp b (by simp [hb])) (fun b hb => hw b (by simp [hb])) (o + (w a).length)
      (m.insert (f a).1 { scope := (f a).2.1, fields := (f a).2.2 })
    have hl := hw a (by simp)
    refine ⟨m', ?_, Learns.trans (l := [f a]) (Learns.insert _ _ _) h2⟩
    rw [List.map_cons, List.flatten_cons, List.append_assoc,
      CParser.rows_cons hk (by simp; omega) (hp a (by simp) _ _ _) (by simp; omega), h1]
    simp [Nat.add_assoc]

theorem sum_flatten_length {α : Type} (w : α → Bytes) (n : α → Nat) (l : List α) (h : ∀ a ∈ l, (w a).length = n a) :
    ((l.map w).flatten).length = (l.map n).sum := by
  induction l with
  | nil => rfl
  | cons a l ih => simp [h a (by simp), ih fun b hb => h b (by simp [hb])]

theorem content_templates (reg : Registry) {κ φ : Type} (d : Dialect κ φ) {l : List TemplateRecord} (h : ∀ t ∈ l, t.Valid reg) (off o : Nat)
    (m : Templates κ) : ∃ m' r, FlowSet.content reg d off d.templateSet (⟨(l.map TemplateRecord.write).flatten, o⟩, m) =
      (.ok (.template l), (r, m')) ∧ Learns m (l.map TemplateRecord.defn) m' := by
  obtain ⟨m', h1, h2⟩ := rows_write (k := 1) (by omega) (p := CParser.mapErr SetErr.record (TemplateRecord.parse reg))
    (w := TemplateRecord.write) (f := TemplateRecord.defn (κ := κ)) (l := l)
    (fun a ha rest o m => by
      show CParser.mapErr _ _ _ = _
      rw [CParser.mapErr_run, templateRecord_write (h a ha)]; rfl)
    (fun a ha => by rw [length_template]; unfold TemplateRecord.len; omega) [] (by simp) o m
  refine ⟨m', ⟨[], o + ((l.map TemplateRecord.write).flatten).length⟩, ?_, h2⟩
  rw [List.append_nil] at h1
  unfold FlowSet.content
  rw [if_pos rfl, CParser.bind_ok h1]
  rfl

theorem checkPadding_nil (o : Nat) : checkPadding ⟨[], o⟩ = (.ok (), ⟨[], o⟩) := rfl

theorem content_options (reg : Registry) {κ φ : Type} {d : Dialect κ φ} (hd : d.optionsSet ≠ d.templateSet)
    {w : OptionsRecord κ → Bytes} {l : List (OptionsRecord κ)}
    (hp : ∀ a ∈ l, ∀ rest o m, d.optionsRecord reg (⟨w a ++ rest, o⟩, m) =
      (.ok a, (⟨rest, o + (w a).length⟩, HMap.insert m a.id { scope := a.scope, fields := a.fields })))
    (hw : ∀ a ∈ l, 4 ≤ (w a).length) (off o : Nat) (m : Templates κ) :
    ∃ m' r, FlowSet.content reg d off d.optionsSet (⟨(l.map w).flatten, o⟩, m) = (.ok (.options l), (r, m')) ∧
      Learns m (l.map OptionsRecord.defn) m' := by
  obtain ⟨m', h1, h2⟩ := rows_write (k := 4) (by omega) (p := CParser.mapErr SetErr.record (d.optionsRecord reg))
    (w := w) (f := OptionsRecord.defn (κ := κ)) (l := l)
    (fun a ha rest o m => by
      show CParser.mapErr _ _ _ = _
      rw [CParser.mapErr_run, hp a ha]; rfl)
    hw [] (by simp) o m
  refine ⟨m', ⟨[], o + ((l.map w).flatten).length⟩, ?_, h2⟩
  rw [List.append_nil] at h1
  unfold FlowSet.content
  rw [if_neg hd, if_pos rfl, CParser.bind_ok h1]
  rfl

/-- a set with a content that is read, as it is written -/
theorem set_write (reg : Registry) {κ φ : Type} {d : Dialect κ φ} {id : UInt16} (hid : ¬ d.badId id) {body : Bytes}
    (hl : 4 + body.length < 65536) {m m' : Templates κ} {x : FlowSet κ φ} {o : Nat} {r : Reader}
    (h : FlowSet.content reg d o id (⟨body, o + 4⟩, m) = (.ok x, (r, m'))) (rest : Bytes) :
    FlowSet.parse reg d (⟨u16be id ++ u16be (UInt16.ofNat (4 + body.length)) ++ body ++ rest, o⟩, m) =
      (.ok x, (⟨rest, o + (4 + body.length)⟩, m')) := by
  have e : (UInt16.ofNat (4 + body.length)).toNat = 4 + body.length := UInt16.toNat_ofNat_of_lt' hl
  rw [List.append_assoc, List.append_assoc, set_eq reg d rest o m hid (by rw [e]; omega), h, e]

/-! ## NetFlow -/

theorem length_scopeSpec (s : ScopeSpec) : s.write.length = s.len := by
  unfold ScopeSpec.write ScopeSpec.len
  split <;> simp_all [u16be, u32be]

/-- an unknown element has an enterprise number exactly when the top bit of its id is set, and is not one of those that are
known; the length is one the element can have -/
structure ScopeSpec.Valid (s : ScopeSpec) : Prop where
  named : ScopeIe.of s.ie.pen s.ie.id = s.ie
  pen : s.ie.pen ≠ 0 ↔ s.ie.id &&& 0x8000 ≠ 0
  length : inRange s.ie.lengthRange s.length = true

theorem reads_scopeSpec {s : ScopeSpec} (h : s.Valid) : Reads ScopeSpec.parse s s.write := by
  unfold ScopeSpec.parse ScopeSpec.write
  refine Reads.getOffset fun o => ?_
  rw [List.append_assoc]
  refine ((reads_u16 _).mapErr _).bind (((reads_u16 _).mapErr _).bind ?_)
  have ht : Reads (if inRange (ScopeIe.of s.ie.pen s.ie.id).lengthRange s.length then pure ⟨ScopeIe.of s.ie.pen s.ie.id, s.length⟩
      else fail (.scopeSpec o s.length) : Parser RecordErr ScopeSpec) s [] := by
    rw [h.named, if_pos h.length]; exact Reads.pure _
  by_cases hp : s.ie.id &&& 0x8000 ≠ 0
  · rw [if_pos hp, if_pos (h.pen.mpr hp)]
    exact ((reads_u32 _).mapErr _).bind_last ht
  · have h0 : ¬ s.ie.pen ≠ 0 := fun hn => hp (h.pen.mp hn)
    rw [if_neg hp, if_neg h0]
    rw [Classical.not_not.mp h0] at ht
    exact Reads.bind_nil (Reads.pure _) ht

structure NetflowOptionsValid (reg : Registry) (t : OptionsRecord ScopeSpec) : Prop where
  id : 256 ≤ t.id.toNat
  scopeLen : (t.scope.map ScopeSpec.len).sum < 65536
  fieldsLen : (t.fields.map Spec.len).sum < 65536
  scope : ∀ s ∈ t.scope, s.Valid
  fields : ∀ s ∈ t.fields, s.Valid reg

theorem lift_onSub_all {σ ε α : Type} {p : Parser ε α} {a : α} {w : Bytes} (h : ReadsAll p a w) (o : Nat) (s : Reader × σ) :
    ∃ r, (CParser.lift (onSub ⟨w, o⟩ p) : CParser σ ε (α × Reader)) s = (.ok (a, r), s) := by
  refine ⟨⟨[], o + w.length⟩, ?_⟩
  unfold CParser.lift onSub
  rw [h.run]

theorem netflowOptions_write {reg : Registry} {t : OptionsRecord ScopeSpec} (h : NetflowOptionsValid reg t) (rest : Bytes)
    (o : Nat) (m : Templates ScopeSpec) :
    netflowOptions reg (⟨netflowOptionsWrite t ++ rest, o⟩, m) =
      (.ok t, (⟨rest, o + (netflowOptionsWrite t).length⟩, m.insert t.id { scope := t.scope, fields := t.fields })) := by
  have l1 : ((t.scope.map ScopeSpec.write).flatten).length = (t.scope.map ScopeSpec.len).sum :=
    sum_flatten_length _ _ _ fun a _ => length_scopeSpec a
  have l2 := length_specs t.fields
  have e1 := UInt16.toNat_ofNat_of_lt' (show (t.scope.map ScopeSpec.len).sum < UInt16.size from h.scopeLen)
  have e2 := UInt16.toNat_ofNat_of_lt' (show (t.fields.map Spec.len).sum < UInt16.size from h.fieldsLen)
  have r1 : ReadsAll (many ScopeSpec.parse) t.scope (t.scope.map ScopeSpec.write).flatten :=
    ReadsAll.many (fun a ha => reads_scopeSpec (h.scope a ha)) fun a _ hn => by
      have := length_scopeSpec a; rw [hn] at this; unfold ScopeSpec.len at this; simp at this; omega
  have r2 : ReadsAll (many (mapErr RecordErr.spec (Spec.parse reg))) t.fields (t.fields.map Spec.write).flatten :=
    ReadsAll.many (fun a ha => (reads_spec reg (h.fields a ha)).mapErr _) fun a _ hn => by
      have := length_spec a; rw [hn] at this; unfold Spec.len at this; simp at this; omega
  unfold netflowOptions netflowOptionsWrite
  rw [List.append_assoc, List.append_assoc, List.append_assoc, List.append_assoc,
    CParser.bind_ok (lift_reads (reads_templateId h.id) _ _ _),
    CParser.bind_ok (lift_reads ((reads_u16 _).mapErr _) _ _ _),
    CParser.bind_ok (lift_reads ((reads_u16 _).mapErr _) _ _ _),
    CParser.bind_ok (lift_mapErr_ok (takeSlice_eq _ _ _ _ (l1.trans e1.symm)) _ _),
    CParser.bind_ok (lift_mapErr_ok (takeSlice_eq _ _ _ _ (l2.trans e2.symm)) _ _)]
  obtain ⟨q1, k1⟩ := lift_onSub_all (σ := Templates ScopeSpec) r1 (o + (u16be t.id).length +
    (u16be (UInt16.ofNat (t.scope.map ScopeSpec.len).sum)).length + (u16be (UInt16.ofNat (t.fields.map Spec.len).sum)).length)
    (⟨rest, o + (u16be t.id).length + (u16be (UInt16.ofNat (t.scope.map ScopeSpec.len).sum)).length +
      (u16be (UInt16.ofNat (t.fields.map Spec.len).sum)).length + (UInt16.ofNat (t.scope.map ScopeSpec.len).sum).toNat +
      (UInt16.ofNat (t.fields.map Spec.len).sum).toNat⟩, m)
  obtain ⟨q2, k2⟩ := lift_onSub_all (σ := Templates ScopeSpec) r2 (o + (u16be t.id).length +
    (u16be (UInt16.ofNat (t.scope.map ScopeSpec.len).sum)).length + (u16be (UInt16.ofNat (t.fields.map Spec.len).sum)).length +
      (UInt16.ofNat (t.scope.map ScopeSpec.len).sum).toNat)
    (⟨rest, o + (u16be t.id).length + (u16be (UInt16.ofNat (t.scope.map ScopeSpec.len).sum)).length +
      (u16be (UInt16.ofNat (t.fields.map Spec.len).sum)).length + (UInt16.ofNat (t.scope.map ScopeSpec.len).sum).toNat +
      (UInt16.ofNat (t.fields.map Spec.len).sum).toNat⟩, m)
  rw [CParser.bind_ok k1]
  simp only
  rw [CParser.bind_ok k2]
  simp only [Bind.bind, CParser.bind, CParser.modify, CParser.pure_run, List.length_append, Nat.add_assoc, l1, l2, e1, e2]

theorem length_netflowOptions (t : OptionsRecord ScopeSpec) : (netflowOptionsWrite t).length = netflowOptionsLen t := by
  have l1 : ((t.scope.map ScopeSpec.write).flatten).length = (t.scope.map ScopeSpec.len).sum :=
    sum_flatten_length _ _ _ fun a _ => length_scopeSpec a
  unfold netflowOptionsWrite netflowOptionsLen
  rw [List.length_append, List.length_append, length_specs, l1]; simp [u16be]

end Verif.Flow
