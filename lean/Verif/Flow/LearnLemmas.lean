import Verif.Flow.SetLemmas
/-!
# What sets teach and with which templates data is read
-/
namespace Verif.Flow
open Parser
variable {κ φ : Type}

/-! ## Records as sequences of fields -/

/-- the octets of fields, one field after the other -/
inductive FieldsRead : List Spec → List Field → Bytes → Prop where
  | nil : FieldsRead [] [] []
  | cons {s ss f fs v w} (h : Reads (Field.parse s.ie s.length) f v) (t : FieldsRead ss fs w) :
      FieldsRead (s :: ss) (f :: fs) (v ++ w)

/-- the octets of the scope fields of NetFlow -/
inductive ScopeRead : List ScopeSpec → List ScopeField → Bytes → Prop where
  | nil : ScopeRead [] [] []
  | cons {s ss f fs v w} (h : Reads (ScopeField.parse s.ie s.length) f v) (t : ScopeRead ss fs w) :
      ScopeRead (s :: ss) (f :: fs) (v ++ w)

theorem parseFields_ok {l : List Spec} {r r' : Reader} {fs : List Field} (h : parseFields l r = (.ok fs, r')) :
    ∃ w, r.buf = w ++ r'.buf ∧ r'.offset = r.offset + w.length ∧ FieldsRead l fs w := by
  induction l generalizing r fs with
  | nil =>
    obtain ⟨rfl, rfl⟩ := pure_eq_ok.mp h
    exact ⟨[], rfl, rfl, .nil⟩
  | cons s l ih =>
    obtain ⟨f, r1, h1, h⟩ := bind_eq_ok.mp h
    obtain ⟨fs', r2, h2, h⟩ := bind_eq_ok.mp h
    obtain ⟨rfl, rfl⟩ := pure_eq_ok.mp h
    obtain ⟨v, e1, o1, k1⟩ := exact_field _ _ _ _ _ h1
    obtain ⟨w, e2, o2, k2⟩ := ih h2
    exact ⟨v ++ w, by rw [e1, e2, List.append_assoc], by rw [o2, o1, List.length_append, Nat.add_assoc], .cons k1 k2⟩

theorem parseScopeFields_ok {l : List ScopeSpec} {r r' : Reader} {fs : List ScopeField}
    (h : parseScopeFields l r = (.ok fs, r')) :
    ∃ w, r.buf = w ++ r'.buf ∧ r'.offset = r.offset + w.length ∧ ScopeRead l fs w := by
  induction l generalizing r fs with
  | nil =>
    obtain ⟨rfl, rfl⟩ := pure_eq_ok.mp h
    exact ⟨[], rfl, rfl, .nil⟩
  | cons s l ih =>
    obtain ⟨f, r1, h1, h⟩ := bind_eq_ok.mp h
    obtain ⟨fs', r2, h2, h⟩ := bind_eq_ok.mp h
    obtain ⟨rfl, rfl⟩ := pure_eq_ok.mp h
    obtain ⟨v, e1, o1, k1⟩ := exact_scopeField _ _ _ _ _ h1
    obtain ⟨w, e2, o2, k2⟩ := ih h2
    exact ⟨v ++ w, by rw [e1, e2, List.append_assoc], by rw [o2, o1, List.length_append, Nat.add_assoc], .cons k1 k2⟩

theorem FieldsRead.reads {l : List Spec} {fs : List Field} {w : Bytes} (h : FieldsRead l fs w) :
    Reads (parseFields l) fs w := by
  induction h with
  | nil => exact Reads.pure _
  | cons h _ ih => exact h.bind (ih.bind_last (Reads.pure _))

theorem ScopeRead.reads {l : List ScopeSpec} {fs : List ScopeField} {w : Bytes} (h : ScopeRead l fs w) :
    Reads (parseScopeFields l) fs w := by
  induction h with
  | nil => exact Reads.pure _
  | cons h _ ih => exact h.bind (ih.bind_last (Reads.pure _))

/-- the elements are those of the template, in order -/
theorem FieldsRead.ies {l : List Spec} {fs : List Field} {w : Bytes} (h : FieldsRead l fs w) :
    fs.map Field.ie = l.map Spec.ie := by
  induction h with
  | nil => rfl
  | cons h _ ih => rw [List.map_cons, List.map_cons, ih, field_ie (h.run [] 0)]

/-- the octets of a data record of a template -/
def IpfixRead (t : List Spec × List Spec) (x : DataRecord Field) (w : Bytes) : Prop :=
  ∃ u v, w = u ++ v ∧ FieldsRead t.1 x.scope u ∧ FieldsRead t.2 x.fields v

@[inherit_doc IpfixRead]
def NetflowRead (t : List ScopeSpec × List Spec) (x : DataRecord ScopeField) (w : Bytes) : Prop :=
  ∃ u v, w = u ++ v ∧ ScopeRead t.1 x.scope u ∧ FieldsRead t.2 x.fields v

theorem ipfixRecord_ok {t : Template Spec} {r r' : Reader} {x : DataRecord Field} (h : ipfixRecord t r = (.ok x, r')) :
    ∃ w, r.buf = w ++ r'.buf ∧ r'.offset = r.offset + w.length ∧ IpfixRead t.shape x w := by
  obtain ⟨a, r1, h1, h⟩ := bind_eq_ok.mp h
  obtain ⟨b, r2, h2, h⟩ := bind_eq_ok.mp h
  obtain ⟨rfl, rfl⟩ := pure_eq_ok.mp h
  obtain ⟨u, e1, o1, k1⟩ := parseFields_ok (mapErr_eq_ok.mp h1)
  obtain ⟨v, e2, o2, k2⟩ := parseFields_ok (mapErr_eq_ok.mp h2)
  exact ⟨u ++ v, by rw [e1, e2, List.append_assoc], by rw [o2, o1, List.length_append, Nat.add_assoc], u, v, rfl, k1, k2⟩

theorem netflowRecord_ok {t : Template ScopeSpec} {r r' : Reader} {x : DataRecord ScopeField}
    (h : netflowRecord t r = (.ok x, r')) :
    ∃ w, r.buf = w ++ r'.buf ∧ r'.offset = r.offset + w.length ∧ NetflowRead t.shape x w := by
  obtain ⟨a, r1, h1, h⟩ := bind_eq_ok.mp h
  obtain ⟨b, r2, h2, h⟩ := bind_eq_ok.mp h
  obtain ⟨rfl, rfl⟩ := pure_eq_ok.mp h
  obtain ⟨u, e1, o1, k1⟩ := parseScopeFields_ok (mapErr_eq_ok.mp h1)
  obtain ⟨v, e2, o2, k2⟩ := parseFields_ok (mapErr_eq_ok.mp h2)
  exact ⟨u ++ v, by rw [e1, e2, List.append_assoc], by rw [o2, o1, List.length_append, Nat.add_assoc], u, v, rfl, k1, k2⟩

/-! ## The records of a set -/

/-- the list is read from the octets, element by element, and `rest` is left -/
inductive Listed {α : Type} (P : α → Bytes → Prop) : Bytes → List α → Bytes → Prop where
  | nil {b} : Listed P b [] b
  | cons {a w b l rest} (h : P a w) (t : Listed P b l rest) : Listed P (w ++ b) (a :: l) rest

/-- what the lemmas below need of a dialect; `P` relates a template, a record and its octets, `size` is the length below
which what is left of a data set is not looked at -/
structure Dialect.Lawful (d : Dialect κ φ) (P : List κ × List Spec → DataRecord φ → Bytes → Prop)
    (size : List κ × List Spec → Nat) : Prop where
  options : ∀ {reg s t s'}, d.optionsRecord reg s = (.ok t, s') →
    s'.2 = HMap.insert s.2 t.id { scope := t.scope, fields := t.fields }
  optionsErr : ∀ {reg s e s'}, d.optionsRecord reg s = (.err e, s') → s'.2 = s.2
  records : ∀ {id t s l s'}, d.records id t s = (.ok l, s') →
    ∃ rest, Listed (P t.shape) s.1.buf l rest ∧ (size t.shape = 0 ∧ l = [] ∨ rest.length < size t.shape)
  shapes : ∀ id t s, Templates.shapes (d.records id t s).2.2 = s.2.shapes

theorem lift_err_ctx {σ ε α : Type} {p : Parser ε α} {s s' : Reader × σ} {e : ε}
    (h : (CParser.lift p : CParser σ ε α) s = (.err e, s')) : s'.2 = s.2 := by
  have := congrArg (·.2.2) h; exact this.symm

/-- a record that fails has not touched the templates -/
theorem templateRecord_err {reg : Registry} {s s' : Reader × Templates κ} {e : RecordErr}
    (h : TemplateRecord.parse reg s = (.err e, s')) : s'.2 = s.2 := by
  unfold TemplateRecord.parse at h
  rcases CParser.bind_eq_err h with h | ⟨_, s1, h1, h⟩
  · exact lift_err_ctx h
  rw [← (CParser.lift_eq_ok h1).2]
  rcases CParser.bind_eq_err h with h | ⟨_, s2, h2, h⟩
  · exact lift_err_ctx h
  rw [← (CParser.lift_eq_ok h2).2]
  rcases CParser.bind_eq_err h with h | ⟨_, s3, h3, h⟩
  · exact lift_err_ctx h
  rw [← (CParser.lift_eq_ok h3).2]
  rcases CParser.bind_eq_err h with h | ⟨_, s4, h4, h⟩
  · simp [CParser.modify] at h
  · simp at h

theorem ipfixOptions_err {reg : Registry} {s s' : Reader × Templates Spec} {e : RecordErr}
    (h : ipfixOptions reg s = (.err e, s')) : s'.2 = s.2 := by
  unfold ipfixOptions at h
  rcases CParser.bind_eq_err h with h | ⟨_, s1, h1, h⟩
  · exact lift_err_ctx h
  rw [← (CParser.lift_eq_ok h1).2]
  rcases CParser.bind_eq_err h with h | ⟨total, s2, h2, h⟩
  · exact lift_err_ctx h
  rw [← (CParser.lift_eq_ok h2).2]
  rcases CParser.bind_eq_err h with h | ⟨_, s3, h3, h⟩
  · exact lift_err_ctx h
  rw [← (CParser.lift_eq_ok h3).2]
  rcases CParser.bind_eq_err h with h | ⟨n, s4, h4, h⟩
  · exact lift_err_ctx h
  rw [← (CParser.lift_eq_ok h4).2]
  by_cases hn : total < n
  · rw [if_pos hn] at h
    have := congrArg (·.2.2) h; exact this.symm
  rw [if_neg hn] at h
  rcases CParser.bind_eq_err h with h | ⟨_, s5, h5, h⟩
  · exact lift_err_ctx h
  rw [← (CParser.lift_eq_ok h5).2]
  rcases CParser.bind_eq_err h with h | ⟨_, s6, h6, h⟩
  · exact lift_err_ctx h
  rw [← (CParser.lift_eq_ok h6).2]
  rcases CParser.bind_eq_err h with h | ⟨_, s7, h7, h⟩
  · exact lift_err_ctx h
  rw [← (CParser.lift_eq_ok h7).2]
  rcases CParser.bind_eq_err h with h | ⟨_, s8, h8, h⟩
  · simp [CParser.modify] at h
  · simp at h

theorem netflowOptions_err {reg : Registry} {s s' : Reader × Templates ScopeSpec} {e : RecordErr}
    (h : netflowOptions reg s = (.err e, s')) : s'.2 = s.2 := by
  unfold netflowOptions at h
  rcases CParser.bind_eq_err h with h | ⟨_, s1, h1, h⟩
  · exact lift_err_ctx h
  rw [← (CParser.lift_eq_ok h1).2]
  rcases CParser.bind_eq_err h with h | ⟨_, s2, h2, h⟩
  · exact lift_err_ctx h
  rw [← (CParser.lift_eq_ok h2).2]
  rcases CParser.bind_eq_err h with h | ⟨_, s3, h3, h⟩
  · exact lift_err_ctx h
  rw [← (CParser.lift_eq_ok h3).2]
  rcases CParser.bind_eq_err h with h | ⟨_, s4, h4, h⟩
  · exact lift_err_ctx h
  rw [← (CParser.lift_eq_ok h4).2]
  rcases CParser.bind_eq_err h with h | ⟨_, s5, h5, h⟩
  · exact lift_err_ctx h
  rw [← (CParser.lift_eq_ok h5).2]
  rcases CParser.bind_eq_err h with h | ⟨⟨_, _⟩, s6, h6, h⟩
  · exact lift_err_ctx h
  rw [← (CParser.lift_eq_ok h6).2]
  rcases CParser.bind_eq_err h with h | ⟨⟨_, _⟩, s7, h7, h⟩
  · exact lift_err_ctx h
  rw [← (CParser.lift_eq_ok h7).2]
  rcases CParser.bind_eq_err h with h | ⟨_, s8, h8, h⟩
  · simp [CParser.modify] at h
  · simp at h

/-- the least length of a record of an IPFIX template -/
def ipfixSize (t : List Spec × List Spec) : Nat := (t.1.map Spec.minLength).sum + (t.2.map Spec.minLength).sum
/-- the length of a record of a NetFlow template -/
def netflowSize (t : List ScopeSpec × List Spec) : Nat := (t.1.map (·.length.toNat)).sum + (t.2.map (·.length.toNat)).sum

theorem rows_listed {σ : Type} {k : Nat} (hk : 0 < k) {p : CParser σ SetErr (DataRecord φ)} {P : DataRecord φ → Bytes → Prop}
    (hp : ∀ {s a s1}, p s = (.ok a, s1) → ∃ w, s.1.buf = w ++ s1.1.buf ∧ P a w)
    {s s' : Reader × σ} {l : List (DataRecord φ)} (h : CParser.rows k p s = (.ok l, s')) :
    Listed P s.1.buf l s'.1.buf ∧ s'.1.buf.length < k := by
  refine CParser.rows_ok_induction hk (Q := fun s l s' => Listed P s.1.buf l s'.1.buf ∧ s'.1.buf.length < k)
    (fun s hs => ⟨.nil, hs⟩) ?_ h
  intro s a s1 as s2 _ hp1 _ _ ⟨ih1, ih2⟩
  obtain ⟨w, e, hw⟩ := hp hp1
  exact ⟨e ▸ .cons hw ih1, ih2⟩

theorem modify_eq_ok {σ ε : Type} {f : σ → σ} {s s' : Reader × σ} {u : Unit}
    (h : (CParser.modify f : CParser σ ε Unit) s = (.ok u, s')) : s' = (s.1, f s.2) := by
  have := congrArg (·.2) h; exact this.symm

theorem shapes_rel_refl (m : Templates κ) : m.shapes = m.shapes := rfl

/-- keeps what the templates say -/
abbrev KeepsShapes {ε α : Type} (p : CParser (Templates κ) ε α) : Prop :=
  Keeps (fun m m' : Templates κ => m'.shapes = m.shapes) p

theorem keepsShapes_count {ε : Type} (id : UInt16) :
    KeepsShapes (CParser.modify fun m => m.count id : CParser (Templates κ) ε Unit) :=
  keeps_modify fun m => shapes_count m id

theorem keepsShapes_bind {ε α β : Type} {p : CParser (Templates κ) ε α} {f : α → CParser (Templates κ) ε β}
    (hp : KeepsShapes p) (hf : ∀ a, KeepsShapes (f a)) : KeepsShapes (p >>= f) :=
  Keeps.bind (R := fun m m' : Templates κ => m'.shapes = m.shapes) (fun h1 h2 => h2.trans h1) hp hf

theorem keepsShapes_rows {ε α : Type} {k : Nat} {p : CParser (Templates κ) ε α} (h : KeepsShapes p) :
    KeepsShapes (CParser.rows k p) :=
  CParser.keeps_rows (R := fun m m' : Templates κ => m'.shapes = m.shapes) (fun _ => rfl) (fun h1 h2 => h2.trans h1) h

theorem keepsShapes_lift {ε α : Type} (p : Parser ε α) : KeepsShapes (CParser.lift p : CParser (Templates κ) ε α) :=
  keeps_lift (R := fun m m' : Templates κ => m'.shapes = m.shapes) (fun _ => rfl) p
theorem keepsShapes_pure {ε α : Type} (a : α) : KeepsShapes (pure a : CParser (Templates κ) ε α) :=
  keeps_pure (R := fun m m' : Templates κ => m'.shapes = m.shapes) (fun _ => rfl) a

theorem ipfix_lawful : ipfix.Lawful IpfixRead ipfixSize where
  options := ipfixOptions_ok
  optionsErr := ipfixOptions_err
  records {id t s l s'} h := by
    change ipfixRecords id t s = _ at h
    unfold ipfixRecords at h
    simp only at h
    by_cases h0 : 0 < ipfixSize t.shape
    · rw [if_pos (show 0 < (t.scope.map Spec.minLength).sum + (t.fields.map Spec.minLength).sum from h0)] at h
      obtain ⟨l', s1, h1, h⟩ := CParser.bind_eq_ok h
      have := rows_listed (P := IpfixRead t.shape) h0 (fun {s a s1} hp => by
        obtain ⟨w, e, -, hw⟩ := ipfixRecord_ok (CParser.lift_eq_ok hp).1
        exact ⟨w, e, hw⟩) h1
      obtain ⟨_, s2, h2, h⟩ := CParser.bind_eq_ok h
      obtain ⟨_, s3, h3, h⟩ := CParser.bind_eq_ok h
      simp only [CParser.pure_run, Prod.mk.injEq, Res.ok.injEq] at h
      obtain ⟨rfl, -⟩ := h
      exact ⟨_, this.1, .inr this.2⟩
    · rw [if_neg (show ¬ 0 < (t.scope.map Spec.minLength).sum + (t.fields.map Spec.minLength).sum from h0)] at h
      obtain ⟨l', s1, h1, h⟩ := CParser.bind_eq_ok h
      obtain ⟨_, s2, h2, h⟩ := CParser.bind_eq_ok h
      obtain ⟨_, s3, h3, h⟩ := CParser.bind_eq_ok h
      simp only [CParser.pure_run, Prod.mk.injEq, Res.ok.injEq] at h h1
      obtain ⟨rfl, -⟩ := h
      obtain ⟨rfl, -⟩ := h1
      exact ⟨_, .nil, .inl ⟨by omega, rfl⟩⟩
  shapes id t s := by
    have : KeepsShapes (ipfixRecords id t) := by
      unfold ipfixRecords
      simp only
      refine Keeps.ite (fun _ => ?_) fun _ => ?_
      · exact keepsShapes_bind (keepsShapes_rows (keepsShapes_lift _)) fun _ => keepsShapes_bind (keepsShapes_count id) fun _ =>
          keepsShapes_bind (keepsShapes_lift _) fun _ => keepsShapes_pure _
      · exact keepsShapes_bind (keepsShapes_pure _) fun _ => keepsShapes_bind (keepsShapes_count id) fun _ =>
          keepsShapes_bind (keepsShapes_lift _) fun _ => keepsShapes_pure _
    exact this s

theorem netflow_lawful : netflow.Lawful NetflowRead netflowSize where
  options := netflowOptions_ok
  optionsErr := netflowOptions_err
  records {id t s l s'} h := by
    change netflowRecords id t s = _ at h
    unfold netflowRecords at h
    simp only at h
    by_cases h0 : 0 < netflowSize t.shape
    · rw [if_pos (show 0 < (t.scope.map (·.length.toNat)).sum + (t.fields.map (·.length.toNat)).sum from h0)] at h
      obtain ⟨l', s1, h1, h⟩ := CParser.bind_eq_ok h
      have := rows_listed (P := NetflowRead t.shape) h0 (fun {s a s1} hp => by
        obtain ⟨x, s2, h2, hp⟩ := CParser.bind_eq_ok hp
        obtain ⟨_, s3, h3, hp⟩ := CParser.bind_eq_ok hp
        have e3 := modify_eq_ok h3
        simp only [CParser.pure_run, Prod.mk.injEq, Res.ok.injEq] at hp
        obtain ⟨rfl, rfl⟩ := hp
        obtain ⟨w, e, -, hw⟩ := netflowRecord_ok (CParser.lift_eq_ok h2).1
        exact ⟨w, by rw [e, e3], hw⟩) h1
      obtain ⟨_, s2, h2, h⟩ := CParser.bind_eq_ok h
      simp only [CParser.pure_run, Prod.mk.injEq, Res.ok.injEq] at h
      obtain ⟨rfl, -⟩ := h
      exact ⟨_, this.1, .inr this.2⟩
    · rw [if_neg (show ¬ 0 < (t.scope.map (·.length.toNat)).sum + (t.fields.map (·.length.toNat)).sum from h0)] at h
      obtain ⟨l', s1, h1, h⟩ := CParser.bind_eq_ok h
      obtain ⟨_, s2, h2, h⟩ := CParser.bind_eq_ok h
      simp only [CParser.pure_run, Prod.mk.injEq, Res.ok.injEq] at h h1
      obtain ⟨rfl, -⟩ := h
      obtain ⟨rfl, -⟩ := h1
      exact ⟨_, .nil, .inl ⟨by omega, rfl⟩⟩
  shapes id t s := by
    have : KeepsShapes (netflowRecords id t) := by
      unfold netflowRecords
      simp only
      refine Keeps.ite (fun _ => ?_) fun _ => ?_
      · exact keepsShapes_bind (keepsShapes_rows (keepsShapes_bind (keepsShapes_lift _) fun _ =>
          keepsShapes_bind (keepsShapes_count id) fun _ => keepsShapes_pure _)) fun _ =>
            keepsShapes_bind (keepsShapes_lift _) fun _ => keepsShapes_pure _
      · exact keepsShapes_bind (keepsShapes_pure _) fun _ => keepsShapes_bind (keepsShapes_lift _) fun _ => keepsShapes_pure _
    exact this s

/-! ## Sets -/
section
variable {d : Dialect κ φ} {P : List κ × List Spec → DataRecord φ → Bytes → Prop} {size : List κ × List Spec → Nat}

theorem rows_learn {ε α : Type} {k : Nat} (hk : 0 < k) {p : CParser (Templates κ) ε α}
    {f : α → UInt16 × List κ × List Spec} (hp : ∀ {s a s1}, p s = (.ok a, s1) → Learns s.2 [f a] s1.2)
    {s s' : Reader × Templates κ} {l : List α} (h : CParser.rows k p s = (.ok l, s')) : Learns s.2 (l.map f) s'.2 := by
  refine CParser.rows_ok_induction hk (Q := fun s l s' => Learns s.2 (l.map f) s'.2) (fun s _ => Learns.refl _) ?_ h
  intro s a s1 as s2 _ hp1 _ _ ih
  exact Learns.trans (hp hp1) ih

/-- the rows read before a failure have been learnt -/
theorem rows_learn_err {ε α : Type} {k : Nat} (hk : 0 < k) {p : CParser (Templates κ) ε α}
    {f : α → UInt16 × List κ × List Spec} (hp : ∀ {s a s1}, p s = (.ok a, s1) → Learns s.2 [f a] s1.2)
    (he : ∀ {s e s1}, p s = (.err e, s1) → s1.2 = s.2)
    {s s' : Reader × Templates κ} {e : ε} (h : CParser.rows k p s = (.err e, s')) : ∃ l : List α, Learns s.2 (l.map f) s'.2 := by
  refine CParser.rows_err_induction hk (Q := fun s l => Learns s.2 (l.map f) s'.2) (fun s _ hs => ?_) ?_ h
  · rw [he hs]; exact Learns.refl _
  · intro s a s1 l _ hp1 ih
    exact Learns.trans (hp hp1) ih

/-- a set that is read: what it defines is learnt, and data is read with the template known for its id -/
theorem content_ok (hd : d.Lawful P size) {reg : Registry} {off : Nat} {id : UInt16} {s s' : Reader × Templates κ}
    {x : FlowSet κ φ} (h : FlowSet.content reg d off id s = (.ok x, s')) :
    Learns s.2 x.defs s'.2 ∧ (∀ i l, x = .data i l → i = id ∧ ∃ t rest, s.2.shapes id = some t ∧
      Listed (P t) s.1.buf l rest ∧ (size t = 0 ∧ l = [] ∨ rest.length < size t)) := by
  unfold FlowSet.content at h
  by_cases h1 : id = d.templateSet
  · rw [if_pos h1] at h
    obtain ⟨l, s1, hl, h⟩ := CParser.bind_eq_ok h
    simp only [CParser.pure_run, Prod.mk.injEq, Res.ok.injEq] at h
    obtain ⟨rfl, rfl⟩ := h
    refine ⟨rows_learn (by omega) (fun {s a s1} hp => ?_) hl, fun i l hx => nomatch hx⟩
    rw [templateRecord_ok (CParser.mapErr_eq_ok hp)]
    exact Learns.insert _ _ _
  rw [if_neg h1] at h
  by_cases h2 : id = d.optionsSet
  · rw [if_pos h2] at h
    obtain ⟨l, s1, hl, h⟩ := CParser.bind_eq_ok h
    obtain ⟨_, s2, hc, h⟩ := CParser.bind_eq_ok h
    have e2 := (CParser.lift_eq_ok hc).2
    simp only [CParser.pure_run, Prod.mk.injEq, Res.ok.injEq] at h
    obtain ⟨rfl, rfl⟩ := h
    refine ⟨e2 ▸ rows_learn (by omega) (fun {s a s1} hp => ?_) hl, fun i l hx => nomatch hx⟩
    rw [hd.options (CParser.mapErr_eq_ok hp)]
    exact Learns.insert _ _ _
  rw [if_neg h2] at h
  obtain ⟨m, s1, hm, h⟩ := CParser.bind_eq_ok h
  simp only [CParser.getCtx, Prod.mk.injEq, Res.ok.injEq] at hm
  obtain ⟨rfl, rfl⟩ := hm
  cases ht : s.2 id with
  | none => rw [ht] at h; simp at h
  | some t =>
    rw [ht] at h
    obtain ⟨l, s1, hl, h⟩ := CParser.bind_eq_ok h
    simp only [CParser.pure_run, Prod.mk.injEq, Res.ok.injEq] at h
    obtain ⟨rfl, rfl⟩ := h
    constructor
    · have := hd.shapes id t s
      rw [hl] at this
      intro i
      rw [this]; rfl
    · intro i l' hx
      obtain ⟨rfl, rfl⟩ := FlowSet.data.inj hx
      obtain ⟨rest, k1, k2⟩ := hd.records hl
      exact ⟨rfl, t.shape, rest, by unfold Templates.shapes; rw [ht]; rfl, k1, k2⟩

/-- a set that fails: the template records before the one that fails are learnt and nothing else; a data set teaches
nothing -/
theorem content_err (hd : d.Lawful P size) {reg : Registry} {off : Nat} {id : UInt16} {s s' : Reader × Templates κ}
    {e : SetErr} (h : FlowSet.content reg d off id s = (.err e, s')) :
    ∃ l, Learns s.2 l s'.2 ∧ (id ≠ d.templateSet → id ≠ d.optionsSet → l = []) := by
  unfold FlowSet.content at h
  by_cases h1 : id = d.templateSet
  · rw [if_pos h1] at h
    rcases CParser.bind_eq_err h with h | ⟨l, s1, hl, h⟩
    · obtain ⟨l, hl⟩ := rows_learn_err (f := TemplateRecord.defn) (by omega) (fun {s a s1} hp => by
        rw [templateRecord_ok (CParser.mapErr_eq_ok hp)]; exact Learns.insert _ _ _)
        (fun {s e s1} hp => by
          obtain ⟨e', hp, -⟩ := CParser.mapErr_eq_err hp
          exact templateRecord_err hp) h
      exact ⟨_, hl, fun hn => absurd h1 hn⟩
    · simp at h
  rw [if_neg h1] at h
  by_cases h2 : id = d.optionsSet
  · rw [if_pos h2] at h
    have hok : ∀ {s a s1}, CParser.mapErr SetErr.record (d.optionsRecord reg) s = (.ok a, s1) →
        Learns s.2 [OptionsRecord.defn a] s1.2 := fun hp => by
      rw [hd.options (CParser.mapErr_eq_ok hp)]; exact Learns.insert _ _ _
    rcases CParser.bind_eq_err h with h | ⟨l, s1, hl, h⟩
    · obtain ⟨l, hl⟩ := rows_learn_err (f := OptionsRecord.defn) (by omega) hok
        (fun {s e s1} hp => by
          obtain ⟨e', hp, -⟩ := CParser.mapErr_eq_err hp
          exact hd.optionsErr hp) h
      exact ⟨_, hl, fun _ hn => absurd h2 hn⟩
    · rcases CParser.bind_eq_err h with h | ⟨_, s2, hl2, h⟩
      · exact ⟨_, (lift_err_ctx h) ▸ rows_learn (by omega) hok hl, fun _ hn => absurd h2 hn⟩
      · simp at h
  rw [if_neg h2] at h
  refine ⟨[], ?_, fun _ _ => rfl⟩
  rcases CParser.bind_eq_err h with h | ⟨m, s1, hm, h⟩
  · simp [CParser.getCtx] at h
  simp only [CParser.getCtx, Prod.mk.injEq, Res.ok.injEq] at hm
  obtain ⟨rfl, rfl⟩ := hm
  cases ht : s.2 id with
  | none =>
    rw [ht] at h
    have : s'.2 = s.2 := by have := congrArg (·.2.2) h; exact this.symm
    rw [this]; exact Learns.refl _
  | some t =>
    rw [ht] at h
    rcases CParser.bind_eq_err h with h | ⟨l, s1, hl, h⟩
    · have := hd.shapes id t s
      rw [h] at this
      intro i; rw [this]; rfl
    · simp at h

theorem set_ok (hd : d.Lawful P size) {reg : Registry} {s s' : Reader × Templates κ} {x : FlowSet κ φ}
    (h : FlowSet.parse reg d s = (.ok x, s')) : Learns s.2 x.defs s'.2 ∧ (∀ i l, x = .data i l →
      ∃ len body t rest, s.1.buf = u16be i ++ (u16be len ++ (body ++ s'.1.buf)) ∧ s.2.shapes i = some t ∧
        Listed (P t) body l rest ∧ (size t = 0 ∧ l = [] ∨ rest.length < size t)) := by
  obtain ⟨r, m⟩ := s
  obtain ⟨r', m'⟩ := s'
  obtain ⟨id, len, body, e, hl, ho, hid, sub, hc⟩ := set_frame h
  obtain ⟨k1, k2⟩ := content_ok hd hc
  refine ⟨k1, fun i l hx => ?_⟩
  obtain ⟨rfl, t, rest, h1, h2, h3⟩ := k2 i l hx
  exact ⟨len, body, t, rest, e, h1, h2, h3⟩

theorem set_err (hd : d.Lawful P size) {reg : Registry} {s s' : Reader × Templates κ} {e : SetErr}
    (h : FlowSet.parse reg d s = (.err e, s')) : ∃ l, Learns s.2 l s'.2 := by
  unfold FlowSet.parse at h
  rcases CParser.bind_eq_err h with h | ⟨_, s1, h1, h⟩
  · exact ⟨[], (lift_err_ctx h) ▸ Learns.refl _⟩
  rw [← (CParser.lift_eq_ok h1).2]
  rcases CParser.bind_eq_err h with h | ⟨id, s2, h2, h⟩
  · exact ⟨[], (lift_err_ctx h) ▸ Learns.refl _⟩
  rw [← (CParser.lift_eq_ok h2).2]
  by_cases hid : d.badId id
  · rw [if_pos (c := id ≠ d.templateSet ∧ id ≠ d.optionsSet ∧ id < 256) hid] at h
    have : s'.2 = s2.2 := by have := congrArg (·.2.2) h; exact this.symm
    exact ⟨[], this ▸ Learns.refl _⟩
  rw [if_neg (c := id ≠ d.templateSet ∧ id ≠ d.optionsSet ∧ id < 256) hid] at h
  rcases CParser.bind_eq_err h with h | ⟨_, s3, h3, h⟩
  · exact ⟨[], (lift_err_ctx h) ▸ Learns.refl _⟩
  rw [← (CParser.lift_eq_ok h3).2]
  rcases CParser.bind_eq_err h with h | ⟨_, s4, h4, h⟩
  · exact ⟨[], (lift_err_ctx h) ▸ Learns.refl _⟩
  rw [← (CParser.lift_eq_ok h4).2]
  rcases CParser.bind_eq_err h with h | ⟨len, s5, h5, h⟩
  · exact ⟨[], (lift_err_ctx h) ▸ Learns.refl _⟩
  rw [← (CParser.lift_eq_ok h5).2]
  by_cases hl : len < 4
  · rw [if_pos hl] at h
    have : s'.2 = s5.2 := by have := congrArg (·.2.2) h; exact this.symm
    exact ⟨[], this ▸ Learns.refl _⟩
  rw [if_neg hl] at h
  rcases CParser.bind_eq_err h with h | ⟨_, s6, h6, h⟩
  · exact ⟨[], (lift_err_ctx h) ▸ Learns.refl _⟩
  rw [← (CParser.lift_eq_ok h6).2]
  rcases CParser.bind_eq_err h with h | ⟨sub, s7, h7, h⟩
  · exact ⟨[], (lift_err_ctx h) ▸ Learns.refl _⟩
  rw [← (CParser.lift_eq_ok h7).2]
  rcases CParser.bind_eq_err h with h | ⟨⟨x, _⟩, s8, h8, h⟩
  · have h9 := CParser.onSub_eq_err h
    obtain ⟨q, hq⟩ := h9
    obtain ⟨l, hl, -⟩ := content_err hd hq.1
    exact ⟨l, hl⟩
  · simp at h

/-! ## The sets of a packet -/

/-- sets read one after the other: the state before each of them and after the last -/
inductive SetsRead (reg : Registry) (d : Dialect κ φ) :
    Reader × Templates κ → List (FlowSet κ φ) → Reader × Templates κ → Prop where
  | nil {s} : SetsRead reg d s [] s
  | cons {s x s1 l s2} (h : FlowSet.parse reg d s = (.ok x, s1)) (t : SetsRead reg d s1 l s2) : SetsRead reg d s (x :: l) s2

theorem SetsRead.learns (hd : d.Lawful P size) {reg : Registry} {s s' : Reader × Templates κ} {l : List (FlowSet κ φ)}
    (h : SetsRead reg d s l s') : Learns s.2 (l.flatMap FlowSet.defs) s'.2 := by
  induction h with
  | nil => exact Learns.refl _
  | cons h _ ih =>
    rw [List.flatMap_cons]
    exact Learns.trans (set_ok hd h).1 ih

/-- the data set at position `l1.length` is read with the templates known before it -/
theorem SetsRead.data (hd : d.Lawful P size) {reg : Registry} {s s' : Reader × Templates κ}
    {l1 l2 : List (FlowSet κ φ)} {i : UInt16} {l : List (DataRecord φ)} (h : SetsRead reg d s (l1 ++ .data i l :: l2) s') :
    ∃ t body rest, (lastDef (l1.flatMap FlowSet.defs) i).or (s.2.shapes i) = some t ∧
      (∃ pre len post, s.1.buf = pre ++ (u16be i ++ (u16be len ++ (body ++ post)))) ∧
      Listed (P t) body l rest ∧ (size t = 0 ∧ l = [] ∨ rest.length < size t) := by
  induction l1 generalizing s with
  | nil =>
    cases h with
    | cons h t =>
      obtain ⟨len, body, t, rest, h1, h2, h3, h4⟩ := (set_ok hd h).2 i l rfl
      exact ⟨t, body, rest, h2, ⟨[], len, _, h1⟩, h3, h4⟩
  | cons x l1 ih =>
    cases h with
    | cons h t =>
      obtain ⟨t, body, rest, h1, ⟨pre, len, post, h2⟩, h3, h4⟩ := ih t
      refine ⟨t, body, rest, ?_, ?_, h3, h4⟩
      · rw [List.flatMap_cons, lastDef_append, Option.or_assoc, ← (set_ok hd h).1 i]; exact h1
      · obtain ⟨r, m⟩ := s
        obtain ⟨r1, m1⟩ := ‹Reader × Templates κ›
        obtain ⟨id, len', body', e, -⟩ := set_frame h
        refine ⟨u16be id ++ (u16be len' ++ (body' ++ pre)), len, post, ?_⟩
        show r.buf = _
        rw [e, h2]; simp [List.append_assoc]
end

end Verif.Flow
