import Verif.Collector.Output
import Verif.Collector.AggLemmas
/-!
# Lemmas about what is published of flow records
-/
namespace Verif.FlowOut
open Verif.Flow
open Verif.Collector (Text FieldRef mapFields put)
open Verif.Collector.Hist (nth)

theorem look_ie {fields : List Field} {r : FieldRef Ie} {f : Field} (h : (mapFields fields).look r = some f) : f ∈ fields ∧ f.ie = r.ie := by
  rw [Verif.Collector.look_nth] at h
  have hm := List.mem_of_getElem? h
  rw [List.mem_filter] at hm
  exact ⟨hm.1, of_decide_eq_true hm.2⟩

/-- what is selected is of elements that are named; a segment is an element of its own -/
theorem select_ie {fields : List Field} {s : Select} {fs : List Field} (h : s.apply (mapFields fields) = some fs) :
    fs ≠ [] ∧ ∀ f ∈ fs, f.ie ∈ s.ies ∨ (∃ r e x, s = .layer2 r e ∧ f = .known 0 351 (.unsigned64 x)) := by
  cases s with
  | single r =>
    simp only [Select.apply, Option.map_eq_some_iff] at h
    obtain ⟨f, hf, rfl⟩ := h
    refine ⟨by simp, fun g hg => Or.inl ?_⟩
    rw [List.mem_singleton] at hg
    subst hg
    exact List.mem_singleton.mpr (look_ie hf).2
  | coalesce l =>
    simp only [Select.apply] at h
    obtain ⟨r, hr, h⟩ := List.exists_of_findSome?_eq_some h
    rw [Option.map_eq_some_iff] at h
    obtain ⟨f, hf, rfl⟩ := h
    refine ⟨by simp, fun g hg => Or.inl ?_⟩
    rw [List.mem_singleton] at hg
    subst hg
    exact List.mem_map.mpr ⟨r, hr, (look_ie hf).2.symm⟩
  | multi l =>
    simp only [Select.apply] at h
    split at h
    · cases h
    · rename_i hne
      cases h
      refine ⟨by simpa using hne, fun g hg => Or.inl ?_⟩
      rw [List.mem_filterMap] at hg
      obtain ⟨r, hr, hf⟩ := hg
      exact List.mem_map.mpr ⟨r, hr, (look_ie hf).2.symm⟩
  | layer2 r e =>
    simp only [Select.apply] at h
    split at h
    · split at h
      · cases h
        refine ⟨by simp, fun g hg => Or.inr ?_⟩
        rw [List.mem_singleton] at hg
        exact ⟨r, e, _, rfl, hg⟩
      · cases h
    · cases h

theorem select_mem {fields : List Field} {s : Select} {fs : List Field} (h : s.apply (mapFields fields) = some fs) :
    ∀ f ∈ fs, f ∈ fields ∨ (∃ r e x, s = .layer2 r e ∧ f = .known 0 351 (.unsigned64 x)) := by
  cases s with
  | single r =>
    simp only [Select.apply, Option.map_eq_some_iff] at h
    obtain ⟨f, hf, rfl⟩ := h
    intro g hg
    rw [List.mem_singleton] at hg
    subst hg
    exact Or.inl (look_ie hf).1
  | coalesce l =>
    simp only [Select.apply] at h
    obtain ⟨r, hr, h⟩ := List.exists_of_findSome?_eq_some h
    rw [Option.map_eq_some_iff] at h
    obtain ⟨f, hf, rfl⟩ := h
    intro g hg
    rw [List.mem_singleton] at hg
    subst hg
    exact Or.inl (look_ie hf).1
  | multi l =>
    simp only [Select.apply] at h
    split at h
    · cases h
    · cases h
      intro g hg
      rw [List.mem_filterMap] at hg
      obtain ⟨r, hr, hf⟩ := hg
      exact Or.inl (look_ie hf).1
  | layer2 r e =>
    obtain ⟨_, h2⟩ := select_ie h
    intro f hf
    rcases h2 f hf with h3 | h3
    · simp only [Select.apply] at h
      split at h
      · split at h
        · cases h
          rw [List.mem_singleton] at hf
          exact Or.inr ⟨r, e, _, rfl, hf⟩
        · cases h
      · cases h
    · exact Or.inr h3

theorem validateIes_mem {t : Transform} : ∀ {l : List Ie}, validateIes t l = .ok () → ∀ ie ∈ l, validateIe t ie = .ok ()
  | [], _, _, h => by cases h
  | a :: l, hv, ie, h => by
    rw [validateIes] at hv
    split at hv
    · cases hv
    · rename_i ha
      rcases List.mem_cons.mp h with h | h
      · subst h; exact ha
      · exact validateIes_mem hv ie h

theorem validate_parts {c : FieldConfig} (h : c.validate = .ok ()) :
    c.select ≠ .coalesce [] ∧ c.select ≠ .multi [] ∧ validateSelect c = .ok () ∧ (∀ ie ∈ c.select.ies, validateIe c.transform ie = .ok ()) ∧
      ∀ d, c.default = some d → d.avroType = c.avroType := by
  unfold FieldConfig.validate at h
  split at h
  · cases h
  · cases h
  · rename_i h1 h2
    split at h
    · cases h
    · rename_i hs
      split at h
      · cases h
      · rename_i hi
        refine ⟨h1, h2, hs, validateIes_mem hi, ?_⟩
        intro d hd
        rw [hd] at h
        simp only at h
        split at h
        · cases h
        · rename_i hk
          exact (Decidable.not_not.mp hk).symm

theorem mem_put {κ α : Type} [DecidableEq κ] {k : κ} {v : α} : ∀ {m : List (κ × α)} {x : κ × α}, x ∈ put m k v → x ∈ m ∨ x = (k, v)
  | [], x, h => by rw [put, List.mem_singleton] at h; exact Or.inr h
  | (k', v') :: m, x, h => by
    rw [put] at h
    split at h
    · rcases List.mem_cons.mp h with h | h
      · exact Or.inr h
      · exact Or.inl (List.mem_cons_of_mem _ h)
    · rcases List.mem_cons.mp h with h | h
      · exact Or.inl (h ▸ List.mem_cons_self ..)
      · rcases mem_put h with h | h
        · exact Or.inl (List.mem_cons_of_mem _ h)
        · exact Or.inr h

theorem all_ok {ε α : Type} : ∀ {l : List (Res ε α)} {r : List α}, Res.all l = .ok r → l = r.map .ok
  | [], r, h => by cases h; rfl
  | .ok a :: l, r, h => by
    rw [Res.all] at h
    cases hl : Res.all l with
    | ok x => rw [hl] at h; cases h; rw [all_ok hl]; rfl
    | err _ => rw [hl] at h; cases h
    | fault _ => rw [hl] at h; cases h
  | .err _ :: _, _, h => by cases h
  | .fault _ :: _, _, h => by cases h

theorem all_map_ok {ε α : Type} : ∀ (r : List α), Res.all (r.map (.ok : α → Res ε α)) = .ok r
  | [] => rfl
  | a :: r => by rw [List.map_cons, Res.all, all_map_ok r]; rfl

theorem all_exists {ε α β : Type} {f : α → Res ε β} : ∀ {l : List α}, (∀ a ∈ l, ∃ b, f a = .ok b) → ∃ r, Res.all (l.map f) = .ok r
  | [], _ => ⟨[], rfl⟩
  | a :: l, h => by
    obtain ⟨b, hb⟩ := h a (List.mem_cons_self ..)
    obtain ⟨r, hr⟩ := all_exists (l := l) fun x hx => h x (List.mem_cons_of_mem _ hx)
    exact ⟨b :: r, by rw [List.map_cons, hb, Res.all, hr]; rfl⟩

/-- the value of the element is of the type that stands for its data type -/
def plainIe (el : Elements) : Ie → Bool
  | .known p i k =>
    match k with
    | .mpls | .tcpControlBits | .seconds | .millis | .micros | .nanos => false
    | .macAddress | .string | .ipv4 | .ipv6 => true
    | k => !el.sub (.known p i k)
  | .vendorUnknown _ _ | .unknown _ _ => false

theorem toRaw_plain {el : Elements} {f : Field} (h : plainIe el f.ie = true) : ∃ r, toRaw el f = .ok r ∧ r.avroType = ieAvroType f.ie := by
  cases f with
  | known p i v => cases v <;> simp_all [Field.ie, plainIe, toRaw, native, Value.kind, RawValue.avroType, ieAvroType]
  | vendorUnknown p i v => simp [Field.ie, plainIe] at h
  | unknown p i v => simp [Field.ie, plainIe] at h

/-- fields whose octets are a route distinguisher have eight of them -/
def RdSized (f : Field) : Prop := ∀ b, f = .known 0 90 (.octetArray b) → b.length = 8

theorem rdText_eight {b : Bytes} (h : b.length = 8) : ∃ t, rdText b = some t := by
  match b, h with
  | [a, b, c, d, e, f, g, i], _ => exact ⟨_, rfl⟩

theorem toText_exists {el : Elements} {f : Field} (hrd : el.rdNamed routeDistinguisher = true) (h : ¬(ieAvroType f.ie = .bytes ∧ f.ie ≠ routeDistinguisher)) (h8 : RdSized f) :
    ∃ t, toText el f = some t := by
  cases f with
  | known p i v =>
    cases v with
    | octetArray b =>
      have hr : (Field.known p i (.octetArray b)).ie = routeDistinguisher := Decidable.not_not.mp fun hn => h ⟨rfl, hn⟩
      simp only [Field.ie, Value.kind, routeDistinguisher, Ie.known.injEq, and_true] at hr
      obtain ⟨rfl, rfl⟩ := hr
      obtain ⟨t, ht⟩ := rdText_eight (h8 b rfl)
      refine ⟨t, ?_⟩
      rw [toText]
      exact (if_pos hrd).trans ht
    | _ => simp_all [Field.ie, Value.kind, ieAvroType, routeDistinguisher, toText]
  | vendorUnknown p i v => simp [Field.ie, ieAvroType, routeDistinguisher] at h
  | unknown p i v => simp [Field.ie, ieAvroType, routeDistinguisher] at h

/-- elements whose values are published as they are -/
def PlainIdentity (el : Elements) (c : FieldConfig) : Prop := c.transform = .identity → ∀ ie ∈ c.select.ies, plainIe el ie = true

theorem map_some {ε α β : Type} {m : Res ε α} {f : α → β} {b : β} (h : m.map f = .ok b) : ∃ a, m = .ok a ∧ f a = b := by
  cases m with
  | ok a => cases h; exact ⟨a, rfl, rfl⟩
  | err _ => cases h
  | fault _ => cases h

/-- the element of what is selected, for segments too -/
theorem select_named {fields : List Field} {c : FieldConfig} (hv : c.validate = .ok ()) {fs : List Field} (h : c.select.apply (mapFields fields) = some fs) :
    ∀ f ∈ fs, f.ie ∈ c.select.ies := by
  intro f hf
  rcases (select_ie h).2 f hf with h1 | ⟨r, e, x, hs, rfl⟩
  · exact h1
  · obtain ⟨_, _, hvs, _, _⟩ := validate_parts hv
    have hr : r.ie = layer2SegmentId := by
      unfold validateSelect at hvs
      rw [hs] at hvs
      cases ht : c.transform <;> rw [ht] at hvs <;> simp only at hvs <;> first | (cases hvs; done) | (by_cases hn : r.ie = layer2SegmentId <;> first | exact hn | (rw [if_pos hn] at hvs; cases hvs))
    rw [hs, Select.ies, hr]
    exact List.mem_singleton.mpr rfl

/-- with identity, all that is selected has the type of the selection -/
theorem identity_kind {c : FieldConfig} (hv : c.validate = .ok ()) (ht : c.transform = .identity) : ∀ ie ∈ c.select.ies, ieAvroType ie = c.select.avroType := by
  obtain ⟨_, _, hvs, _, _⟩ := validate_parts hv
  unfold validateSelect at hvs
  rw [ht] at hvs
  intro ie hie
  cases hs : c.select with
  | single r => rw [hs, Select.ies, List.mem_singleton] at hie; rw [hie]; rfl
  | multi l => rw [hs] at hvs; cases hvs
  | layer2 r e =>
    rw [hs, Select.ies, List.mem_singleton] at hie
    rw [hs] at hvs
    simp only at hvs
    split at hvs
    · cases hvs
    · rename_i hn
      rw [hie, Decidable.not_not.mp hn]
      rfl
  | coalesce l =>
    rw [hs] at hvs hie
    simp only at hvs
    split at hvs
    · cases hvs
    · rename_i hn
      cases l with
      | nil => cases hie
      | cons r l =>
        simp only [List.any_cons, List.head?_cons, Option.map_some, Bool.or_eq_true, not_or, decide_eq_true_eq, ne_eq, Option.some.injEq, List.any_eq_true, not_exists, not_and, Decidable.not_not] at hn
        have ha : (l.any fun x => ieAvroType x.ie ≠ ieAvroType r.ie) = false := by
          rw [List.any_eq_false]
          intro x hx
          simpa using hn.2 x hx
        rw [Select.avroType, ha]
        simp only [Select.ies, List.map_cons, List.mem_cons, List.mem_map] at hie
        rcases hie with h | ⟨x, hx, h⟩
        · rw [h]; rfl
        · rw [← h]; exact hn.2 x hx

theorem apply_kind {el : Elements} {c : FieldConfig} {fields : List Field} {v : RawValue} (hv : c.validate = .ok ()) (hp : PlainIdentity el c)
    (h : c.transform.apply el (c.select.apply (mapFields fields)) = .ok (some v)) : v.avroType = c.avroType := by
  unfold FieldConfig.avroType
  cases hsel : c.select.apply (mapFields fields) with
  | none => rw [hsel] at h; cases h
  | some fs =>
    rw [hsel] at h
    have hn := select_named hv hsel
    cases ht : c.transform with
    | identity =>
      rw [ht] at h
      unfold Transform.apply at h
      simp only at h
      cases hl : fs.getLast? with
      | none => rw [hl] at h; cases h
      | some f =>
        rw [hl] at h
        simp only at h
        obtain ⟨r, hr, he⟩ := map_some h
        cases he
        have hf := hn f (List.mem_of_getLast? hl)
        obtain ⟨r', hr', hk⟩ := toRaw_plain (hp ht _ hf)
        rw [hr] at hr'
        cases hr'
        rw [hk, Transform.avroType]
        exact identity_kind hv ht _ hf
    | mplsIndex =>
      rw [ht] at h
      unfold Transform.apply at h
      simp only at h
      split at h
      · cases h
      · obtain ⟨r, hr, he⟩ := map_some h; cases he; rfl
    | arrayAgg =>
      rw [ht] at h
      unfold Transform.apply at h
      simp only at h
      split at h
      · cases h
      · obtain ⟨r, hr, he⟩ := map_some h; cases he; rfl
    | mapAgg m =>
      rw [ht] at h
      unfold Transform.apply at h
      simp only at h
      split at h
      · cases h
      · obtain ⟨r, hr, he⟩ := map_some h; cases he; rfl
    | stringArray =>
      rw [ht] at h
      unfold Transform.apply at h
      simp only at h
      cases hl : fs.getLast? with
      | none => rw [hl] at h; cases h
      | some f =>
        rw [hl] at h
        simp only at h
        split at h
        · cases h; rfl
        · cases h
    | _ =>
      rw [ht] at h
      unfold Transform.apply at h
      simp only at h
      cases hl : fs.getLast? with
      | none => rw [hl] at h; cases h
      | some f =>
        rw [hl] at h
        simp only at h
        obtain ⟨r, hr, he⟩ := map_some h
        cases he
        rfl

theorem textOf_exists {el : Elements} {f : Field} (hrd : el.rdNamed routeDistinguisher = true) (h8 : RdSized f)
    (hv : (if ieAvroType f.ie = .bytes ∧ f.ie ≠ routeDistinguisher then (.error .transform : Except ConfigErr Unit) else .ok ()) = .ok ()) :
    ∃ x, textOf el f = .ok x := by
  split at hv
  · cases hv
  · rename_i h
    obtain ⟨x, hx⟩ := toText_exists hrd h h8
    exact ⟨x, by rw [textOf, hx]⟩

theorem apply_ok {el : Elements} {c : FieldConfig} {fields : List Field} (hrd : el.rdNamed routeDistinguisher = true) (hv : c.validate = .ok ()) (hp : PlainIdentity el c)
    (h8 : ∀ f ∈ fields, RdSized f) : ∃ v, c.transform.apply el (c.select.apply (mapFields fields)) = .ok v := by
  cases hsel : c.select.apply (mapFields fields) with
  | none => exact ⟨none, rfl⟩
  | some fs =>
    have hn := select_named hv hsel
    have hie : ∀ f ∈ fs, validateIe c.transform f.ie = .ok () := fun f hf => (validate_parts hv).2.2.2.1 _ (hn f hf)
    have h8' : ∀ f ∈ fs, RdSized f := by
      intro f hf
      rcases select_mem hsel f hf with h | ⟨_, _, x, _, rfl⟩
      · exact h8 f h
      · intro b hb; cases hb
    cases ht : c.transform with
    | mplsIndex =>
      rw [ht] at hie
      have : ∀ f ∈ fs, ∃ x, mplsText f = .ok x := by
        intro f hf
        have h := hie f hf
        simp only [validateIe] at h
        split at h
        · rename_i p i he
          split at h
          · rename_i hm
            cases f with
            | known q j v =>
              cases v <;> simp only [Field.ie, Value.kind, Ie.known.injEq, reduceCtorEq, and_false] at he
              obtain ⟨rfl, rfl, _⟩ := he
              rw [Option.isSome_iff_exists] at hm
              obtain ⟨n, hm⟩ := hm
              exact ⟨_, by rw [mplsText, hm]⟩
            | vendorUnknown => simp [Field.ie] at he
            | unknown => simp [Field.ie] at he
          · cases h
        · cases h
      obtain ⟨r, hr⟩ := all_exists this
      unfold Transform.apply
      simp only
      rw [if_neg (by simpa using (select_ie hsel).1), hr]
      exact ⟨_, rfl⟩
    | arrayAgg =>
      rw [ht] at hie
      obtain ⟨r, hr⟩ := all_exists fun f hf => textOf_exists (el := el) hrd (h8' f hf) (hie f hf)
      unfold Transform.apply
      simp only
      rw [if_neg (by simpa using (select_ie hsel).1), hr]
      exact ⟨_, rfl⟩
    | mapAgg m =>
      rw [ht] at hie
      have : ∀ f ∈ fs, ∃ x, mapEntry el m f = .ok x := by
        intro f hf
        obtain ⟨x, hx⟩ := textOf_exists (el := el) hrd (h8' f hf) (hie f hf)
        exact ⟨_, by rw [mapEntry, hx]; rfl⟩
      obtain ⟨r, hr⟩ := all_exists this
      unfold Transform.apply
      simp only
      rw [if_neg (by simpa using (select_ie hsel).1), hr]
      exact ⟨_, rfl⟩
    | identity =>
      unfold Transform.apply
      simp only
      cases hl : fs.getLast? with
      | none => exact ⟨none, rfl⟩
      | some f =>
        obtain ⟨r, hr, _⟩ := toRaw_plain (hp ht _ (hn f (List.mem_of_getLast? hl)))
        exact ⟨some r, by simp only; rw [hr]; rfl⟩
    | timestampMillis =>
      rw [ht] at hie
      unfold Transform.apply
      simp only
      cases hl : fs.getLast? with
      | none => exact ⟨none, rfl⟩
      | some f =>
        have h := hie f (List.mem_of_getLast? hl)
        cases f with
        | known p i v => cases v <;> first | exact ⟨_, rfl⟩ | cases h
        | vendorUnknown => cases h
        | unknown => cases h
    | stringArray =>
      rw [ht] at hie
      unfold Transform.apply
      simp only
      cases hl : fs.getLast? with
      | none => exact ⟨none, rfl⟩
      | some f =>
        have h := hie f (List.mem_of_getLast? hl)
        simp only [validateIe] at h
        split at h
        · cases h
        · rename_i he
          have he := Decidable.not_not.mp he
          cases f with
          | known p i v => cases v <;> first | exact ⟨_, rfl⟩ | simp [Field.ie, Value.kind, tcpControlBits] at he
          | vendorUnknown => simp [Field.ie, tcpControlBits] at he
          | unknown => simp [Field.ie, tcpControlBits] at he
    | _ =>
      rw [ht] at hie
      unfold Transform.apply
      simp only
      cases hl : fs.getLast? with
      | none => exact ⟨none, rfl⟩
      | some f =>
        have hf := List.mem_of_getLast? hl
        obtain ⟨x, hx⟩ := textOf_exists (el := el) hrd (h8' f hf) (hie f hf)
        exact ⟨_, by simp only; rw [hx]; rfl⟩

/-! ## Records -/

/-- the field of a record for what is configured -/
def cellFor (el : Elements) (flow : List (FieldRef Ie × Field)) (c : FieldConfig) : Cell :=
  match c.value el flow with
  | .ok (some v) => if c.default.isNone then .branch v else .plain v
  | _ => .null

/-- not a custom primitive -/
def isField (x : Text × FieldConfig) : Bool := (stripPrefix primPrefix x.1).isNone

theorem value_default {el : Elements} {c : FieldConfig} {flow : List (FieldRef Ie × Field)} {d : RawValue} (hd : c.default = some d) {v : Option Scalar} (h : c.value el flow = .ok v) : v ≠ none := by
  unfold FieldConfig.value at h
  obtain ⟨a, _, rfl⟩ := map_some h
  rw [hd]
  cases a <;> simp

theorem cells_ok {el : Elements} {flow : List (FieldRef Ie × Field)} : ∀ {cfg : OutputConfig} {F F' : List (Text × Cell)} {P P' : List (Text × Scalar)},
    cellsFrom el flow cfg F P = .ok (F', P') →
      F' = F ++ (cfg.filter isField).map (fun x => (x.1, cellFor el flow x.2)) ∧ (∀ x ∈ cfg, ∃ v, x.2.value el flow = .ok v) ∧
        (∀ x ∈ P', x ∈ P ∨ ∃ y ∈ cfg, isField y = false ∧ y.2.value el flow = .ok (some x.2)) ∧
        ((P ≠ [] ∨ ∃ y ∈ cfg, isField y = false ∧ ∃ v, y.2.value el flow = .ok (some v)) → P' ≠ [])
  | [], F, F', P, P', h => by cases h; simp
  | (name, c) :: l, F, F', P, P', h => by
    rw [cellsFrom] at h
    cases hval : c.value el flow with
    | err e => rw [hval] at h; cases h
    | fault e => rw [hval] at h; cases h
    | ok value =>
      rw [hval] at h
      simp only at h
      cases hs : stripPrefix primPrefix name with
      | some st =>
        have hf : isField (name, c) = false := by simp [isField, hs]
        rw [hs] at h
        cases value with
        | some v =>
          simp only at h
          obtain ⟨h1, h2, h3, h4⟩ := cells_ok h
          have hput : put P st v ≠ [] := by
            cases P with
            | nil => simp [put]
            | cons a P => obtain ⟨k, w⟩ := a; rw [put]; split <;> simp
          refine ⟨by rw [h1, List.filter_cons, hf]; rfl, ?_, ?_, fun _ => h4 (Or.inl hput)⟩
          · intro x hx
            rcases List.mem_cons.mp hx with hx | hx
            · subst hx; exact ⟨_, hval⟩
            · exact h2 x hx
          · intro x hx
            rcases h3 x hx with hx | ⟨y, hy, hy2⟩
            · rcases mem_put hx with hx | hx
              · exact Or.inl hx
              · right; exact ⟨_, List.mem_cons_self .., hf, by rw [hx]; exact hval⟩
            · exact Or.inr ⟨y, List.mem_cons_of_mem _ hy, hy2⟩
        | none =>
          simp only at h
          obtain ⟨h1, h2, h3, h4⟩ := cells_ok h
          refine ⟨by rw [h1, List.filter_cons, hf]; rfl, ?_, ?_, ?_⟩
          · intro x hx
            rcases List.mem_cons.mp hx with hx | hx
            · subst hx; exact ⟨_, hval⟩
            · exact h2 x hx
          · intro x hx
            rcases h3 x hx with hx | ⟨y, hy, hy2⟩
            · exact Or.inl hx
            · exact Or.inr ⟨y, List.mem_cons_of_mem _ hy, hy2⟩
          · rintro (hp | ⟨y, hy, hyf, v, hv⟩)
            · exact h4 (Or.inl hp)
            · rcases List.mem_cons.mp hy with hy | hy
              · subst hy; rw [hval] at hv; cases hv
              · exact h4 (Or.inr ⟨y, hy, hyf, v, hv⟩)
      | none =>
        have hf : isField (name, c) = true := by simp [isField, hs]
        rw [hs] at h
        simp only at h
        have key : cellsFrom el flow l (F ++ [(name, cellFor el flow c)]) P = .ok (F', P') := by
          rw [cellFor, hval]
          split at h
          · rename_i hn
            have hn : c.default.isNone = true := hn
            cases value with
            | some v => simp only [hn]; exact h
            | none => exact h
          · rename_i hn
            have hn : ¬ c.default.isNone = true := hn
            cases value with
            | some v => simp only [hn]; exact h
            | none => cases h
        obtain ⟨h1, h2, h3, h4⟩ := cells_ok key
        refine ⟨?_, ?_, ?_, ?_⟩
        · rw [h1, List.filter_cons, if_pos hf, List.append_assoc]; rfl
        · intro x hx
          rcases List.mem_cons.mp hx with hx | hx
          · subst hx; exact ⟨_, hval⟩
          · exact h2 x hx
        · intro x hx
          rcases h3 x hx with hx | ⟨y, hy, hy2⟩
          · exact Or.inl hx
          · exact Or.inr ⟨y, List.mem_cons_of_mem _ hy, hy2⟩
        · rintro (hp | ⟨y, hy, hyf, v, hv⟩)
          · exact h4 (Or.inl hp)
          · rcases List.mem_cons.mp hy with hy | hy
            · subst hy; rw [hf] at hyf; cases hyf
            · exact h4 (Or.inr ⟨y, hy, hyf, v, hv⟩)

/-- if all values are there, the record is there -/
theorem cells_exist {el : Elements} {flow : List (FieldRef Ie × Field)} : ∀ {cfg : OutputConfig} (F : List (Text × Cell)) (P : List (Text × Scalar)),
    (∀ x ∈ cfg, ∃ v, x.2.value el flow = .ok v) → ∃ r, cellsFrom el flow cfg F P = .ok r
  | [], F, P, _ => ⟨_, rfl⟩
  | (name, c) :: l, F, P, h => by
    obtain ⟨value, hval⟩ := h _ (List.mem_cons_self ..)
    have hval : c.value el flow = .ok value := hval
    have ih := fun F P => cells_exist (cfg := l) F P fun x hx => h x (List.mem_cons_of_mem _ hx)
    rw [cellsFrom, hval]
    simp only
    cases stripPrefix primPrefix name with
    | some st => cases value <;> exact ih _ _
    | none =>
      simp only
      split
      · exact ih _ _
      · rename_i hn
        cases value with
        | some v => exact ih _ _
        | none =>
          have hn : ¬ c.default.isNone = true := hn
          cases hd : c.default with
          | none => rw [hd] at hn; exact absurd rfl hn
          | some d => exact absurd rfl (value_default hd hval)

theorem validate_mem : ∀ {cfg : OutputConfig}, cfg.validate = .ok () → ∀ x ∈ cfg, x.2.validate = .ok ()
  | [], _, _, h => by cases h
  | (n, c) :: l, hv, x, h => by
    rw [OutputConfig.validate] at hv
    split at hv
    · cases hv
    · rename_i hc
      rcases List.mem_cons.mp h with h | h
      · subst h; exact hc
      · exact validate_mem hv x h

theorem value_kind {el : Elements} {c : FieldConfig} {fields : List Field} {s : Scalar} (hv : c.validate = .ok ()) (hp : PlainIdentity el c)
    (h : c.value el (mapFields fields) = .ok (some s)) : ∃ r : RawValue, r.avroType = c.avroType ∧ s = r.toAvro := by
  unfold FieldConfig.value at h
  obtain ⟨a, ha, he⟩ := map_some h
  cases a with
  | some r =>
    rw [Option.some_or, Option.map_some, Option.some.injEq] at he
    exact ⟨r, apply_kind hv hp ha, he.symm⟩
  | none =>
    rw [Option.none_or, Option.map_eq_some_iff] at he
    obtain ⟨d, hd, he⟩ := he
    exact ⟨d, (validate_parts hv).2.2.2.2 d hd, he.symm⟩

end Verif.FlowOut
