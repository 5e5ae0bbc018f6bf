import Verif.Flow.FieldLemmas
import Verif.Core.InvErr
/-!
# Sets: framing and templates
-/
namespace Verif.Flow
open Parser
variable {κ φ : Type}

theorem peekU16_u16be (x : UInt16) (bs : Bytes) (o : Nat) :
    peekU16 ⟨u16be x ++ bs, o⟩ = (.ok x, ⟨u16be x ++ bs, o⟩) := peekU16_eq_ok.mpr ⟨⟨bs, rfl⟩, rfl⟩

theorem lift_mapErr_ok {ε ε' α σ : Type} {p : Parser ε α} {r r' : Reader} {a : α} (h : p r = (.ok a, r')) (f : ε → ε') (m : σ) :
    CParser.lift (mapErr f p) (r, m) = (.ok a, (r', m)) := by
  rw [CParser.lift_run, mapErr_ok h]

/-- ids that are neither of a template set nor of a data set -/
abbrev Dialect.badId (d : Dialect κ φ) (id : UInt16) : Prop := id ≠ d.templateSet ∧ id ≠ d.optionsSet ∧ id < 256

/-- a set that is there in full is read from its own octets, and only these are consumed, whatever becomes of it -/
theorem set_eq (reg : Registry) (d : Dialect κ φ) {id len : UInt16} {body : Bytes} (rest : Bytes) (o : Nat)
    (m : Templates κ) (hid : ¬ d.badId id) (hl : body.length + 4 = len.toNat) :
    FlowSet.parse reg d (⟨u16be id ++ (u16be len ++ (body ++ rest)), o⟩, m) =
      ((FlowSet.content reg d o id (⟨body, o + 4⟩, m)).1,
        (⟨rest, o + len.toNat⟩, (FlowSet.content reg d o id (⟨body, o + 4⟩, m)).2.2)) := by
  unfold FlowSet.parse
  rw [CParser.bind_ok (p := CParser.lift getOffset) (a := o) (s' := (⟨u16be id ++ (u16be len ++ (body ++ rest)), o⟩, m)) rfl,
    CParser.bind_ok (lift_mapErr_ok (peekU16_u16be _ _ _) _ _), if_neg (c := id ≠ d.templateSet ∧ id ≠ d.optionsSet ∧ id < 256) hid,
    CParser.bind_ok (lift_mapErr_ok (readU16_u16be _) _ _),
    CParser.bind_ok (p := CParser.lift getOffset) (a := o + 2) (s' := (⟨u16be len ++ (body ++ rest), o + 2⟩, m)) rfl,
    CParser.bind_ok (lift_mapErr_ok (peekU16_u16be _ _ _) _ _),
    if_neg (by rw [UInt16.lt_iff_toNat_lt]; have : (4 : UInt16).toNat = 4 := rfl; omega),
    CParser.bind_ok (lift_mapErr_ok (readU16_u16be _) _ _),
    CParser.bind_ok (lift_mapErr_ok (takeSlice_append (a := body) (n := len.toNat - 4) (by omega)) _ _)]
  have e : o + 2 + 2 + (len.toNat - 4) = o + len.toNat := by omega
  rw [e]
  rcases hc : FlowSet.content reg d o id (⟨body, o + 2 + 2⟩, m) with ⟨s | e | x, r', m'⟩
  · rw [CParser.bind_ok (a := (s, r')) (s' := (⟨rest, o + len.toNat⟩, m'))]
    · rfl
    · unfold CParser.onSub; simp only [hc]
  · rw [CParser.bind_err (e := e) (s' := (⟨rest, o + len.toNat⟩, m'))]
    unfold CParser.onSub; simp only [hc]
  · rw [CParser.bind_fault (x := x) (s' := (⟨rest, o + len.toNat⟩, m'))]
    unfold CParser.onSub; simp only [hc]

/-- a set is read only if it is there in full -/
theorem set_frame {reg : Registry} {d : Dialect κ φ} {r r' : Reader} {m m' : Templates κ} {s : FlowSet κ φ}
    (h : FlowSet.parse reg d (r, m) = (.ok s, (r', m'))) :
    ∃ id len body, r.buf = u16be id ++ (u16be len ++ (body ++ r'.buf)) ∧ body.length + 4 = len.toNat ∧
      r'.offset = r.offset + len.toNat ∧ ¬ d.badId id ∧
      ∃ sub, FlowSet.content reg d r.offset id (⟨body, r.offset + 4⟩, m) = (.ok s, (sub, m')) := by
  have h0 := h
  obtain ⟨b, o⟩ := r
  unfold FlowSet.parse at h
  obtain ⟨_, ⟨r1, m1⟩, h1, h⟩ := CParser.bind_eq_ok h
  obtain ⟨e1, e2⟩ := CParser.lift_eq_ok h1
  obtain ⟨rfl, rfl⟩ := getOffset_eq_ok.mp e1
  simp only at e2; subst e2
  obtain ⟨id, ⟨r1, m1⟩, h1, h⟩ := CParser.bind_eq_ok h
  obtain ⟨e1, e2⟩ := CParser.lift_eq_ok h1
  obtain ⟨⟨t, ht⟩, rfl⟩ := peekU16_eq_ok.mp (mapErr_eq_ok.mp e1)
  simp only at e2 ht; subst e2
  by_cases hid : d.badId id
  · rw [if_pos (c := id ≠ d.templateSet ∧ id ≠ d.optionsSet ∧ id < 256) hid] at h; simp at h
  rw [if_neg (c := id ≠ d.templateSet ∧ id ≠ d.optionsSet ∧ id < 256) hid] at h
  obtain ⟨id', ⟨r1, m1⟩, h1, h⟩ := CParser.bind_eq_ok h
  obtain ⟨e1, e2⟩ := CParser.lift_eq_ok h1
  obtain ⟨hb, ho⟩ := readU16_eq_ok.mp (mapErr_eq_ok.mp e1)
  simp only at e2 hb ho; subst e2
  obtain ⟨_, ⟨r2, m2⟩, h1, h⟩ := CParser.bind_eq_ok h
  obtain ⟨e1, e2⟩ := CParser.lift_eq_ok h1
  obtain ⟨rfl, rfl⟩ := getOffset_eq_ok.mp e1
  simp only at e2; subst e2
  obtain ⟨len, ⟨r2, m2⟩, h1, h⟩ := CParser.bind_eq_ok h
  obtain ⟨e1, e2⟩ := CParser.lift_eq_ok h1
  obtain ⟨⟨t', ht'⟩, rfl⟩ := peekU16_eq_ok.mp (mapErr_eq_ok.mp e1)
  simp only at e2 ht'; subst e2
  by_cases hl : len < 4
  · rw [if_pos hl] at h; simp at h
  rw [if_neg hl] at h
  obtain ⟨len', ⟨r2, m2⟩, h1, h⟩ := CParser.bind_eq_ok h
  obtain ⟨e1, e2⟩ := CParser.lift_eq_ok h1
  obtain ⟨hb2, ho2⟩ := readU16_eq_ok.mp (mapErr_eq_ok.mp e1)
  simp only at e2 hb2 ho2; subst e2
  obtain ⟨sub, ⟨r3, m3⟩, h1, h⟩ := CParser.bind_eq_ok h
  obtain ⟨e1, e2⟩ := CParser.lift_eq_ok h1
  obtain ⟨hb3, hn3, ho3, ho4⟩ := takeSlice_eq_ok.mp (mapErr_eq_ok.mp e1)
  simp only at e2 hb3 ho3 ho4; subst e2
  have hlen : 4 ≤ len.toNat := by
    have : (4 : UInt16).toNat = 4 := rfl
    rw [UInt16.lt_iff_toNat_lt] at hl; omega
  have hbuf : b = u16be id ++ (u16be len ++ (sub.buf ++ r3.buf)) := by
    have a1 := List.append_inj (ht.symm.trans hb) (by simp)
    have a2 := List.append_inj (ht'.symm.trans hb2) (by simp)
    rw [hb, hb2, hb3, a1.1, a2.1]
  have hbl : sub.buf.length + 4 = len.toNat := by omega
  subst hbuf
  rw [set_eq reg d _ _ _ hid hbl] at h0
  simp only [Prod.mk.injEq] at h0
  obtain ⟨a1, a2, a3⟩ := h0
  refine ⟨id, len, sub.buf, ?_, hbl, ?_, hid, (FlowSet.content reg d o id (⟨sub.buf, o + 4⟩, m3)).2.1, ?_⟩
  · rw [← a2]
  · rw [← a2]
  · exact Prod.ext a1 (Prod.ext rfl a3)

/-! ## Template records -/

/-- what a template says -/
def Template.shape (t : Template κ) : List κ × List Spec := (t.scope, t.fields)
/-- what is known of the templates, without the counters -/
def Templates.shapes (m : Templates κ) (id : UInt16) : Option (List κ × List Spec) := (m id).map Template.shape

theorem shapes_count (m : Templates κ) (id : UInt16) : (m.count id).shapes = m.shapes := by
  funext i
  unfold Templates.count Templates.shapes
  cases h : m id with
  | none => rfl
  | some t =>
    by_cases hi : i = id
    · subst hi; simp [h, Template.shape]
    · simp only; rw [HMap.insert_ne _ _ hi]

theorem shapes_insert (m : Templates κ) (id : UInt16) (t : Template κ) (i : UInt16) :
    Templates.shapes (HMap.insert m id t) i = if i = id then some t.shape else m.shapes i := by
  unfold Templates.shapes
  by_cases hi : i = id
  · subst hi; simp
  · rw [HMap.insert_ne _ _ hi, if_neg hi]

/-- the last definition of an id in a list of definitions -/
def lastDef {S : Type} (l : List (UInt16 × S)) (id : UInt16) : Option S := ((l.filter (·.1 = id)).getLast?).map (·.2)

theorem lastDef_nil {S : Type} (id : UInt16) : lastDef ([] : List (UInt16 × S)) id = none := rfl

theorem lastDef_append {S : Type} (l l' : List (UInt16 × S)) (id : UInt16) :
    lastDef (l ++ l') id = (lastDef l' id).or (lastDef l id) := by
  unfold lastDef
  rw [List.filter_append, List.getLast?_append]
  cases (l'.filter (·.1 = id)).getLast? <;> simp

theorem lastDef_cons {S : Type} (d : UInt16 × S) (l : List (UInt16 × S)) (id : UInt16) :
    lastDef (d :: l) id = (lastDef l id).or (if id = d.1 then some d.2 else none) := by
  rw [show d :: l = [d] ++ l from rfl, lastDef_append]
  congr 1
  by_cases h : id = d.1
  · rw [if_pos h]; subst h; simp [lastDef]
  · rw [if_neg h]; simp [lastDef, Ne.symm h]

/-- the definitions of a template record and of an options template record -/
def TemplateRecord.defn (t : TemplateRecord) : UInt16 × List κ × List Spec := (t.id, [], t.fields)
@[inherit_doc TemplateRecord.defn]
def OptionsRecord.defn (t : OptionsRecord κ) : UInt16 × List κ × List Spec := (t.id, t.scope, t.fields)

/-- the definitions in a set -/
def FlowSet.defs : FlowSet κ φ → List (UInt16 × List κ × List Spec)
  | template l => l.map TemplateRecord.defn
  | options l => l.map OptionsRecord.defn
  | data _ _ => []

/-- `m'` is `m` with the definitions `l` -/
def Learns (m : Templates κ) (l : List (UInt16 × List κ × List Spec)) (m' : Templates κ) : Prop :=
  ∀ id, m'.shapes id = (lastDef l id).or (m.shapes id)

theorem Learns.refl (m : Templates κ) : Learns m [] m := fun _ => rfl
theorem Learns.trans {m m1 m2 : Templates κ} {l l' : List (UInt16 × List κ × List Spec)} (h : Learns m l m1)
    (h' : Learns m1 l' m2) : Learns m (l ++ l') m2 := by
  intro id
  rw [h' id, h id, lastDef_append, Option.or_assoc]
theorem Learns.insert (m : Templates κ) (id : UInt16) (t : Template κ) : Learns m [(id, t.shape)] (HMap.insert m id t) := by
  intro i
  rw [shapes_insert, lastDef_cons, lastDef_nil]
  by_cases h : i = id
  · simp [h]
  · simp [h]
theorem Learns.count (m : Templates κ) (id : UInt16) : Learns m [] (m.count id) := fun i => by
  rw [shapes_count]; rfl

theorem templateRecord_ok {reg : Registry} {s s' : Reader × Templates κ} {t : TemplateRecord}
    (h : TemplateRecord.parse reg s = (.ok t, s')) : s'.2 = HMap.insert s.2 t.id { scope := [], fields := t.fields } := by
  unfold TemplateRecord.parse at h
  obtain ⟨id, s1, h1, h⟩ := CParser.bind_eq_ok h
  have e1 := (CParser.lift_eq_ok h1).2
  obtain ⟨n, s2, h2, h⟩ := CParser.bind_eq_ok h
  have e2 := (CParser.lift_eq_ok h2).2
  obtain ⟨l, s3, h3, h⟩ := CParser.bind_eq_ok h
  have e3 := (CParser.lift_eq_ok h3).2
  obtain ⟨_, s4, h4, h⟩ := CParser.bind_eq_ok h
  have e4 : s4.2 = HMap.insert s3.2 id { scope := [], fields := l } := by
    have := congrArg (·.2.2) h4; exact this.symm
  rw [CParser.pure_run] at h
  simp only [Prod.mk.injEq, Res.ok.injEq] at h
  obtain ⟨rfl, rfl⟩ := h
  rw [e4, e3, e2, e1]

theorem ipfixOptions_ok {reg : Registry} {s s' : Reader × Templates Spec} {t : OptionsRecord Spec}
    (h : ipfixOptions reg s = (.ok t, s')) : s'.2 = HMap.insert s.2 t.id { scope := t.scope, fields := t.fields } := by
  unfold ipfixOptions at h
  obtain ⟨id, s1, h1, h⟩ := CParser.bind_eq_ok h
  have e1 := (CParser.lift_eq_ok h1).2
  obtain ⟨total, s2, h2, h⟩ := CParser.bind_eq_ok h
  have e2 := (CParser.lift_eq_ok h2).2
  obtain ⟨_, s3, h3, h⟩ := CParser.bind_eq_ok h
  have e3 := (CParser.lift_eq_ok h3).2
  obtain ⟨n, s4, h4, h⟩ := CParser.bind_eq_ok h
  have e4 := (CParser.lift_eq_ok h4).2
  by_cases hn : total < n
  · rw [if_pos hn] at h; simp at h
  rw [if_neg hn] at h
  obtain ⟨_, s5, h5, h⟩ := CParser.bind_eq_ok h
  have e5 := (CParser.lift_eq_ok h5).2
  obtain ⟨l, s6, h6, h⟩ := CParser.bind_eq_ok h
  have e6 := (CParser.lift_eq_ok h6).2
  obtain ⟨l', s7, h7, h⟩ := CParser.bind_eq_ok h
  have e7 := (CParser.lift_eq_ok h7).2
  obtain ⟨_, s8, h8, h⟩ := CParser.bind_eq_ok h
  have e8 : s8.2 = HMap.insert s7.2 id { scope := l, fields := l' } := by
    have := congrArg (·.2.2) h8; exact this.symm
  rw [CParser.pure_run] at h
  simp only [Prod.mk.injEq, Res.ok.injEq] at h
  obtain ⟨rfl, rfl⟩ := h
  rw [e8, e7, e6, e5, e4, e3, e2, e1]

theorem netflowOptions_ok {reg : Registry} {s s' : Reader × Templates ScopeSpec} {t : OptionsRecord ScopeSpec}
    (h : netflowOptions reg s = (.ok t, s')) : s'.2 = HMap.insert s.2 t.id { scope := t.scope, fields := t.fields } := by
  unfold netflowOptions at h
  obtain ⟨id, s1, h1, h⟩ := CParser.bind_eq_ok h
  have e1 := (CParser.lift_eq_ok h1).2
  obtain ⟨_, s2, h2, h⟩ := CParser.bind_eq_ok h
  have e2 := (CParser.lift_eq_ok h2).2
  obtain ⟨_, s3, h3, h⟩ := CParser.bind_eq_ok h
  have e3 := (CParser.lift_eq_ok h3).2
  obtain ⟨_, s4, h4, h⟩ := CParser.bind_eq_ok h
  have e4 := (CParser.lift_eq_ok h4).2
  obtain ⟨_, s5, h5, h⟩ := CParser.bind_eq_ok h
  have e5 := (CParser.lift_eq_ok h5).2
  obtain ⟨⟨l, _⟩, s6, h6, h⟩ := CParser.bind_eq_ok h
  have e6 := (CParser.lift_eq_ok h6).2
  obtain ⟨⟨l', _⟩, s7, h7, h⟩ := CParser.bind_eq_ok h
  have e7 := (CParser.lift_eq_ok h7).2
  obtain ⟨_, s8, h8, h⟩ := CParser.bind_eq_ok h
  have e8 : s8.2 = HMap.insert s7.2 id { scope := l, fields := l' } := by
    have := congrArg (·.2.2) h8; exact this.symm
  simp only [CParser.pure_run, Prod.mk.injEq, Res.ok.injEq] at h
  obtain ⟨rfl, rfl⟩ := h
  rw [e8, e7, e6, e5, e4, e3, e2, e1]

end Verif.Flow
