import Verif.Collector.FlowOptions
import Verif.Collector.OptionsSpec
import Verif.Collector.Lemmas
/-!
# The normalization of option records, on lists of fields
-/
namespace Verif.Collector
open Flow (Field Value Ie Kind DataRecord FlowSet ScopeField)
open Announce

theorem look_first (fs : List Field) (i : Ie) : (mapFields fs).look ⟨i, 0⟩ = first fs i := by
  rw [mapFields_lookup]
  show (fs.filter _)[0]? = fs.find? _
  rw [← List.head?_eq_getElem?, List.head?_filter]
  rfl

theorem first_none {fs : List Field} {i : Ie} : first fs i = none ↔ ¬ Has fs i := by
  simp [first, Has]

theorem first_ie {fs : List Field} {i : Ie} {f : Field} (h : first fs i = some f) : Field.ie f = i := by
  simpa using List.find?_some h

theorem first_append (a b : List Field) (i : Ie) : first (a ++ b) i = (first a i).or (first b i) := by
  unfold first; rw [List.find?_append]

theorem has_append {a b : List Field} {i : Ie} : Has (a ++ b) i ↔ Has a i ∨ Has b i := by
  simp [Has, or_and_right, exists_or]

theorem containsIe_iff (fs : List Field) (i : Ie) : IndexedFields.containsIe (mapFields fs) i = true ↔ Has fs i := by
  unfold IndexedFields.containsIe
  rw [look_first]
  cases h : first fs i with
  | some f =>
    simp only [Option.isSome_some, Bool.true_or, true_iff]
    exact ⟨f, List.mem_of_find?_eq_some h, first_ie h⟩
  | none =>
    have hn := first_none.mp h
    constructor
    · intro hc
      simp only [Option.isSome_none, Bool.false_or, List.any_eq_true, decide_eq_true_eq] at hc
      obtain ⟨x, hx, hi⟩ := hc
      have h2 : x.2 ∈ fs := by
        have := List.mem_map_of_mem (f := (·.2)) hx
        rwa [mapFields, mapFieldsFrom_snd] at this
      exact ⟨x.2, h2, by rw [← hi, mapFields_mem hx]; rfl⟩
    · exact fun hc => absurd hc hn

theorem getByIe_eq (ord : MapOrder) (fs : List Field) (i : Ie) : IndexedFields.getByIe ord (mapFields fs) i = first fs i := by
  unfold IndexedFields.getByIe
  rw [look_first]
  cases h : first fs i with
  | some f => rfl
  | none =>
    simp only [Option.map_eq_none_iff, List.find?_eq_none, decide_eq_true_eq]
    intro x hx hi
    have hx' := (ord.perm _).mem_iff.mp hx
    have h2 : x.2 ∈ fs := by
      have := List.mem_map_of_mem (f := (·.2)) hx'
      rwa [mapFields, mapFieldsFrom_snd] at this
    exact first_none.mp h ⟨x.2, h2, by rw [← hi, mapFields_mem hx']; rfl⟩

theorem record_containsIe (s f : List Field) (i : Ie) : (IndexedRecord.new s f).containsIe i = true ↔ Has (s ++ f) i := by
  unfold IndexedRecord.containsIe IndexedRecord.new
  rw [Bool.or_eq_true, containsIe_iff, containsIe_iff, has_append]

theorem record_getByIe (ord : MapOrder) (s f : List Field) (i : Ie) : (IndexedRecord.new s f).getByIe ord i = first (s ++ f) i := by
  unfold IndexedRecord.getByIe IndexedRecord.new
  rw [getByIe_eq, getByIe_eq, first_append]

theorem values_perm (ord : MapOrder) (fs : List Field) : (ord.values (mapFields fs)).Perm fs := by
  have := (ord.perm (mapFields fs)).map (·.2)
  rwa [mapFields, mapFieldsFrom_snd] at this

theorem isSampling_iff (s f : List Field) : isSampling (.new s f) = true ↔ Samples (s ++ f) := by
  unfold isSampling Samples iana
  simp only [Bool.or_eq_true, Bool.and_eq_true, record_containsIe, or_assoc]

theorem isInterface_iff (s f : List Field) : isInterface (.new s f) = true ↔ interfaces.Described (s ++ f) := by
  unfold isInterface Thing.Described
  simp only [Bool.or_eq_true, Bool.and_eq_true, record_containsIe]
  constructor
  · rintro ⟨h1, h2⟩
    refine ⟨?_, ?_⟩
    · rcases h1 with h | h
      · exact ⟨.ingress, h⟩
      · exact ⟨.egress, h⟩
    · rcases h2 with h | h
      · exact ⟨_, List.mem_cons_self .., h⟩
      · exact ⟨_, List.mem_cons_of_mem _ (List.mem_cons_self ..), h⟩
  · rintro ⟨⟨way, h1⟩, a, ha, h2⟩
    refine ⟨by cases way; exact .inl h1; exact .inr h1, ?_⟩
    simp only [interfaces, List.mem_cons, List.not_mem_nil, or_false] at ha
    rcases ha with rfl | rfl
    · exact .inl h2
    · exact .inr h2

theorem isVrf_iff (s f : List Field) : isVrf (.new s f) = true ↔ vrfs.Described (s ++ f) := by
  unfold isVrf Thing.Described
  simp only [Bool.or_eq_true, Bool.and_eq_true, record_containsIe]
  constructor
  · rintro ⟨h1, h2⟩
    refine ⟨?_, ?_⟩
    · rcases h1 with h | h
      · exact ⟨.ingress, h⟩
      · exact ⟨.egress, h⟩
    · rcases h2 with h | h
      · exact ⟨_, List.mem_cons_self .., h⟩
      · exact ⟨_, List.mem_cons_of_mem _ (List.mem_cons_self ..), h⟩
  · rintro ⟨⟨way, h1⟩, a, ha, h2⟩
    refine ⟨by cases way; exact .inl h1; exact .inr h1, ?_⟩
    simp only [vrfs, List.mem_cons, List.not_mem_nil, or_false] at ha
    rcases ha with rfl | rfl
    · exact .inl h2
    · exact .inr h2

/-! ## Patterns and elements -/

theorem ie_unsigned32 {f : Field} {i : UInt16} (h : Field.ie f = iana i .unsigned32) : ∃ n, f = .known 0 i (.unsigned32 n) := by
  unfold iana at h
  cases f with
  | known p j v =>
    simp only [Field.ie, Ie.known.injEq] at h
    obtain ⟨rfl, rfl, h⟩ := h
    cases v <;> simp [Value.kind] at h
    exact ⟨_, rfl⟩
  | vendorUnknown => simp [Field.ie] at h
  | unknown => simp [Field.ie] at h

theorem ie_string {f : Field} {i : UInt16} (h : Field.ie f = iana i .string) : ∃ n, f = .known 0 i (.string n) := by
  unfold iana at h
  cases f with
  | known p j v =>
    simp only [Field.ie, Ie.known.injEq] at h
    obtain ⟨rfl, rfl, h⟩ := h
    cases v <;> simp [Value.kind] at h
    exact ⟨_, rfl⟩
  | vendorUnknown => simp [Field.ie] at h
  | unknown => simp [Field.ie] at h

theorem ie_octetArray {f : Field} {i : UInt16} (h : Field.ie f = iana i .octetArray) : ∃ n, f = .known 0 i (.octetArray n) := by
  unfold iana at h
  cases f with
  | known p j v =>
    simp only [Field.ie, Ie.known.injEq] at h
    obtain ⟨rfl, rfl, h⟩ := h
    cases v <;> simp [Value.kind] at h
    exact ⟨_, rfl⟩
  | vendorUnknown => simp [Field.ie] at h
  | unknown => simp [Field.ie] at h

theorem isPadding_iff (f : Field) : isPadding f = true ↔ Field.ie f = padding := by
  constructor
  · unfold isPadding; split <;> simp_all [Field.ie, padding, iana, Value.kind]
  · intro h; obtain ⟨n, rfl⟩ := ie_octetArray h; rfl

theorem isIgnored_iff (f : Field) : isIgnored f = true ↔ Field.ie f = padding ∨ Field.ie f = process := by
  constructor
  · unfold isIgnored; split <;> simp_all [Field.ie, padding, process, iana, Value.kind]
  · rintro (h | h)
    · obtain ⟨n, rfl⟩ := ie_octetArray h; rfl
    · obtain ⟨n, rfl⟩ := ie_unsigned32 h; rfl

theorem isInterfaceId_iff (f : Field) : isInterfaceId f = true ↔ Field.ie f = iana 10 .unsigned32 ∨ Field.ie f = iana 14 .unsigned32 := by
  constructor
  · unfold isInterfaceId; split <;> simp_all [Field.ie, iana, Value.kind]
  · rintro (h | h) <;> (obtain ⟨n, rfl⟩ := ie_unsigned32 h; rfl)

theorem isVrfId_iff (f : Field) : isVrfId f = true ↔ Field.ie f = iana 234 .unsigned32 ∨ Field.ie f = iana 235 .unsigned32 := by
  constructor
  · unfold isVrfId; split <;> simp_all [Field.ie, iana, Value.kind]
  · rintro (h | h) <;> (obtain ⟨n, rfl⟩ := ie_unsigned32 h; rfl)

theorem filter_padding (fs : List Field) : (fs.filter fun f => !isPadding f) = without [padding] fs := by
  unfold without
  refine List.filter_congr fun f _ => ?_
  rw [Bool.eq_iff_iff]; simp [isPadding_iff, ← Bool.not_eq_true]

theorem filter_ignored (fs : List Field) : (fs.filter fun f => !isIgnored f) = without [padding, process] fs := by
  unfold without
  refine List.filter_congr fun f _ => ?_
  rw [Bool.eq_iff_iff]; simp [isIgnored_iff, ← Bool.not_eq_true]

theorem filter_interface (fs : List Field) : (fs.filter fun f => !(isInterfaceId f || isIgnored f)) =
    without [iana (interfaces.number .ingress) .unsigned32, iana (interfaces.number .egress) .unsigned32, padding, process] fs := by
  unfold without
  refine List.filter_congr fun f _ => ?_
  rw [Bool.eq_iff_iff]; simp [isIgnored_iff, isInterfaceId_iff, interfaces, Way.pick, ← Bool.not_eq_true, and_assoc]

theorem filter_vrf (fs : List Field) : (fs.filter fun f => !(isVrfId f || isIgnored f)) =
    without [iana (vrfs.number .ingress) .unsigned32, iana (vrfs.number .egress) .unsigned32, padding, process] fs := by
  unfold without
  refine List.filter_congr fun f _ => ?_
  rw [Bool.eq_iff_iff]; simp [isIgnored_iff, isVrfId_iff, vrfs, Way.pick, ← Bool.not_eq_true, and_assoc]

theorem without_perm {ies : List Ie} {a b : List Field} (h : a.Perm b) : (without ies a).Perm (without ies b) := h.filter _

/-- a number of a thing in a record -/
def numbered (t : Thing) (way : Way) (n : UInt32) : Field := .known 0 (t.number way) (.unsigned32 n)

theorem interfaceFields_eq (way : Way) (n : UInt32) (fields : List Field) :
    interfaceFields (numbered interfaces way n) (first fields (.known 0 82 .string)) (first fields (.known 0 83 .string)) =
      some (interfaces.attributesFor way fields) := by
  cases way <;>
  · simp only [numbered, interfaces, Way.pick, interfaceFields, Thing.attributesFor, List.filterMap_cons, List.filterMap_nil, iana]
    cases h1 : first fields (.known 0 82 .string) with
    | none =>
      cases h2 : first fields (.known 0 83 .string) with
      | none => rfl
      | some g => obtain ⟨m, rfl⟩ := ie_string (first_ie h2); rfl
    | some f =>
      obtain ⟨m, rfl⟩ := ie_string (first_ie h1)
      cases h2 : first fields (.known 0 83 .string) with
      | none => rfl
      | some g => obtain ⟨m, rfl⟩ := ie_string (first_ie h2); rfl

theorem vrfFields_eq (way : Way) (n : UInt32) (fields : List Field) :
    vrfFields (numbered vrfs way n) (first fields (.known 0 236 .string)) (first fields (.known 0 90 .octetArray)) =
      some (vrfs.attributesFor way fields) := by
  cases way <;>
  · simp only [numbered, vrfs, Way.pick, vrfFields, Thing.attributesFor, List.filterMap_cons, List.filterMap_nil, iana]
    cases h1 : first fields (.known 0 236 .string) with
    | none =>
      cases h2 : first fields (.known 0 90 .octetArray) with
      | none => rfl
      | some g => obtain ⟨m, rfl⟩ := ie_octetArray (first_ie h2); rfl
    | some f =>
      obtain ⟨m, rfl⟩ := ie_string (first_ie h1)
      cases h2 : first fields (.known 0 90 .octetArray) with
      | none => rfl
      | some g => obtain ⟨m, rfl⟩ := ie_octetArray (first_ie h2); rfl

/-- what is left of a normalization -/
def normalizedOr : Except OptionsError (List IndexedRecord) → List IndexedRecord
  | .ok l => l
  | .error _ => []

theorem orMissing_or (l : List IndexedRecord) : normalizedOr (orMissing l) = l := by
  unfold orMissing
  split
  · rename_i h; simpa [normalizedOr] using h.symm
  · rfl

/-- this way, and this number for both ways -/
def Agreed (t : Thing) (all : List Field) (n : UInt32) (way : Way) : Prop :=
  first all (iana (t.number way) .unsigned32) = some (numbered t way n) ∧
    ∀ way' m, first all (iana (t.number way') .unsigned32) = some (numbered t way' m) → m = n

/-- the records for a thing -/
def thingRecords (t : Thing) (n : UInt32) (add fields : List Field) (ways : List Way) : List IndexedRecord :=
  ways.flatMap fun way => if t.attributesFor way fields ≠ [] then [.new (numbered t way n :: add) (t.attributesFor way fields)] else []

theorem agreed_cases (t : Thing) (all : List Field) (i o : Option UInt32)
    (hi : first all (iana (t.number .ingress) .unsigned32) = i.map (numbered t .ingress)) (ho : first all (iana (t.number .egress) .unsigned32) = o.map (numbered t .egress)) :
    ∃ n ways, ways.Nodup ∧ (∀ way, way ∈ ways ↔ Agreed t all n way) ∧ (∀ m way, Agreed t all m way → m = n) ∧
      (match i, o with
        | some i, some o => if i = o then n = i ∧ ways = [.ingress, .egress] else ways = []
        | some i, none => n = i ∧ ways = [.ingress]
        | none, some o => n = o ∧ ways = [.egress]
        | none, none => ways = []) := by
  have inj : ∀ way a b, numbered t way a = numbered t way b → a = b := by intro way a b h; simpa [numbered] using h
  have key : ∀ m way, Agreed t all m way ↔ (match way with | .ingress => i | .egress => o) = some m ∧ (∀ x, i = some x → x = m) ∧ (∀ x, o = some x → x = m) := by
    intro m way
    unfold Agreed
    constructor
    · rintro ⟨h1, h2⟩
      refine ⟨?_, fun x hx => ?_, fun x hx => ?_⟩
      · cases way
        · rw [hi] at h1; cases i with
          | none => simp at h1
          | some x => simp only [Option.map_some, Option.some.injEq] at h1; rw [inj _ _ _ h1]
        · rw [ho] at h1; cases o with
          | none => simp at h1
          | some x => simp only [Option.map_some, Option.some.injEq] at h1; rw [inj _ _ _ h1]
      · exact h2 .ingress x (by rw [hi, hx]; rfl)
      · exact h2 .egress x (by rw [ho, hx]; rfl)
    · rintro ⟨h1, h2, h3⟩
      refine ⟨?_, fun way' x hx => ?_⟩
      · cases way
        · have h1 : i = some m := h1
          rw [hi, h1]; rfl
        · have h1 : o = some m := h1
          rw [ho, h1]; rfl
      · cases way'
        · rw [hi] at hx; cases i with
          | none => simp at hx
          | some y => simp only [Option.map_some, Option.some.injEq] at hx; rw [← inj _ _ _ hx]; exact h2 y rfl
        · rw [ho] at hx; cases o with
          | none => simp at hx
          | some y => simp only [Option.map_some, Option.some.injEq] at hx; rw [← inj _ _ _ hx]; exact h3 y rfl
  cases i with
  | none =>
    cases o with
    | none => exact ⟨0, [], by simp, by intro way; rw [key]; cases way <;> simp, by intro m way; rw [key]; cases way <;> simp, rfl⟩
    | some o => exact ⟨o, [.egress], by simp, by intro way; rw [key]; cases way <;> simp, by intro m way; rw [key]; cases way <;> simp <;> intros <;> simp_all, rfl, rfl⟩
  | some i =>
    cases o with
    | none => exact ⟨i, [.ingress], by simp, by intro way; rw [key]; cases way <;> simp, by intro m way; rw [key]; cases way <;> simp <;> intros <;> simp_all, rfl, rfl⟩
    | some o =>
      by_cases h : i = o
      · subst h
        exact ⟨i, [.ingress, .egress], by simp, by intro way; rw [key]; cases way <;> simp, by intro m way; rw [key]; cases way <;> simp <;> intros <;> simp_all, by simp⟩
      · refine ⟨0, [], by simp, ?_, ?_, by simp [h]⟩
        · intro way; rw [key]
          simp only [List.not_mem_nil, Option.some.injEq, forall_eq', false_iff, not_and]
          exact fun _ h1 h2 => h (h1.trans h2.symm)
        · intro m way; rw [key]
          simp only [Option.some.injEq, forall_eq', and_imp]
          exact fun _ h1 h2 => absurd (h1.trans h2.symm) h

theorem first_number (t : Thing) (all : List Field) (way : Way) : ∃ i : Option UInt32, first all (iana (t.number way) .unsigned32) = i.map (numbered t way) := by
  cases h : first all (iana (t.number way) .unsigned32) with
  | none => exact ⟨none, rfl⟩
  | some f => obtain ⟨n, rfl⟩ := ie_unsigned32 (first_ie h); exact ⟨some n, rfl⟩

theorem createInterface_eq (way : Way) (n : UInt32) (add fields : List Field) :
    createInterface (numbered interfaces way n) add (first fields (.known 0 82 .string)) (first fields (.known 0 83 .string)) =
      if interfaces.attributesFor way fields ≠ [] then [.new (numbered interfaces way n :: add) (interfaces.attributesFor way fields)] else [] := by
  unfold createInterface; rw [interfaceFields_eq]

theorem createVrf_eq (way : Way) (n : UInt32) (add fields : List Field) :
    createVrf (numbered vrfs way n) add (first fields (.known 0 236 .string)) (first fields (.known 0 90 .octetArray)) =
      if vrfs.attributesFor way fields ≠ [] then [.new (numbered vrfs way n :: add) (vrfs.attributesFor way fields)] else [] := by
  unfold createVrf; rw [vrfFields_eq]

theorem normalizeInterface_eq (ord : MapOrder) (scope fields : List Field) :
    ∃ n ways, ways.Nodup ∧ (∀ way, way ∈ ways ↔ Agreed interfaces (scope ++ fields) n way) ∧ (∀ m way, Agreed interfaces (scope ++ fields) m way → m = n) ∧
      normalizedOr (normalizeInterface ord (.new scope fields)) = thingRecords interfaces n
        (without [iana (interfaces.number .ingress) .unsigned32, iana (interfaces.number .egress) .unsigned32, padding, process] (ord.values (mapFields scope))) fields ways := by
  obtain ⟨i, hi⟩ := first_number interfaces (scope ++ fields) .ingress
  obtain ⟨o, ho⟩ := first_number interfaces (scope ++ fields) .egress
  obtain ⟨n, ways, h1, h2, h3, h4⟩ := agreed_cases _ _ _ _ hi ho
  refine ⟨n, ways, h1, h2, h3, ?_⟩
  unfold normalizeInterface
  simp only [record_getByIe, filter_interface]
  simp only [IndexedRecord.new, getByIe_eq]
  rw [show (Ie.known 0 10 .unsigned32) = iana (interfaces.number .ingress) .unsigned32 from rfl, hi,
    show (Ie.known 0 14 .unsigned32) = iana (interfaces.number .egress) .unsigned32 from rfl, ho]
  cases i with
  | none =>
    cases o with
    | none => simp only at h4; subst h4; rfl
    | some o =>
      obtain ⟨rfl, rfl⟩ := h4
      refine (orMissing_or _).trans ?_
      exact (createInterface_eq .egress _ _ _).trans (by simp [thingRecords])
  | some i =>
    cases o with
    | none =>
      obtain ⟨rfl, rfl⟩ := h4
      refine (orMissing_or _).trans ?_
      exact (createInterface_eq .ingress _ _ _).trans (by simp [thingRecords])
    | some o =>
      simp only at h4
      show normalizedOr (if i = o then _ else _) = _
      split at h4
      · rename_i hio
        obtain ⟨rfl, rfl⟩ := h4
        subst hio
        rw [if_pos rfl]
        refine (orMissing_or _).trans ?_
        refine (congr (congrArg (· ++ ·) (createInterface_eq .ingress n _ _)) (createInterface_eq .egress n _ _)).trans ?_
        simp [thingRecords]
      · rename_i hio
        subst h4
        rw [if_neg hio]; rfl

theorem normalizeVrf_eq (ord : MapOrder) (scope fields : List Field) :
    ∃ n ways, ways.Nodup ∧ (∀ way, way ∈ ways ↔ Agreed vrfs (scope ++ fields) n way) ∧ (∀ m way, Agreed vrfs (scope ++ fields) m way → m = n) ∧
      normalizedOr (normalizeVrf ord (.new scope fields)) = thingRecords vrfs n
        (without [iana (vrfs.number .ingress) .unsigned32, iana (vrfs.number .egress) .unsigned32, padding, process] (ord.values (mapFields scope))) fields ways := by
  obtain ⟨i, hi⟩ := first_number vrfs (scope ++ fields) .ingress
  obtain ⟨o, ho⟩ := first_number vrfs (scope ++ fields) .egress
  obtain ⟨n, ways, h1, h2, h3, h4⟩ := agreed_cases _ _ _ _ hi ho
  refine ⟨n, ways, h1, h2, h3, ?_⟩
  unfold normalizeVrf
  simp only [record_getByIe, filter_vrf]
  simp only [IndexedRecord.new, getByIe_eq]
  rw [show (Ie.known 0 234 .unsigned32) = iana (vrfs.number .ingress) .unsigned32 from rfl, hi,
    show (Ie.known 0 235 .unsigned32) = iana (vrfs.number .egress) .unsigned32 from rfl, ho]
  cases i with
  | none =>
    cases o with
    | none => simp only at h4; subst h4; rfl
    | some o =>
      obtain ⟨rfl, rfl⟩ := h4
      refine (orMissing_or _).trans ?_
      exact (createVrf_eq .egress _ _ _).trans (by simp [thingRecords])
  | some i =>
    cases o with
    | none =>
      obtain ⟨rfl, rfl⟩ := h4
      refine (orMissing_or _).trans ?_
      exact (createVrf_eq .ingress _ _ _).trans (by simp [thingRecords])
    | some o =>
      simp only at h4
      show normalizedOr (if i = o then _ else _) = _
      split at h4
      · rename_i hio
        obtain ⟨rfl, rfl⟩ := h4
        subst hio
        rw [if_pos rfl]
        refine (orMissing_or _).trans ?_
        refine (congr (congrArg (· ++ ·) (createVrf_eq .ingress n _ _)) (createVrf_eq .egress n _ _)).trans ?_
        simp [thingRecords]
      · rename_i hio
        subst h4
        rw [if_neg hio]; rfl

/-! ## From records to operations -/

variable {A : Type}

/-- what a record leads to -/
def recordOps (ord : MapOrder) (weight : UInt8) (ip : A) (dom : UInt32) (o : OptionsRecord) : List (Op A Field Ie) :=
  match handleOption ord weight o ip dom with
  | .error _ => []
  | .ok ops => ops

theorem recordOps_eq (ord : MapOrder) (weight : UInt8) (ip : A) (dom : UInt32) (o : OptionsRecord) :
    recordOps ord weight ip dom o = ((normalizedOr (o.normalized ord)).map (upsertFromRec ord ip dom weight)).filter Op.valid := by
  unfold recordOps handleOption
  cases o.normalized ord <;> rfl

theorem upsertFromRec_updates (ord : MapOrder) (weight : UInt8) (ip : A) (dom : UInt32) (s f s' f' : List Field) (hs : s'.Perm s) (hf : f'.Perm f) :
    Updates ip dom weight s f (upsertFromRec ord ip dom weight (.new s' f')) :=
  ⟨_, _, rfl, (values_perm ord s').trans hs, (values_perm ord f').trans hf⟩

theorem upsertFromRec_valid (ord : MapOrder) (weight : UInt8) (ip : A) (dom : UInt32) (s f : List Field) :
    Op.valid (upsertFromRec ord ip dom weight (.new s f)) = !f.isEmpty := by
  show (!(List.isEmpty (ord.values (mapFields f)))) = _
  have := (values_perm ord f).length_eq
  cases h1 : ord.values (mapFields f) <;> cases f <;> simp_all

/-- the operations for one option record -/
def RecordTold (ip : A) (dom : UInt32) (weight : UInt8) (scope fields : List Field) (ops : List (Op A Field Ie)) : Prop :=
  ∃ (l : List (List Field × List Field)) (g : List Field × List Field → Op A Field Ie), l.Nodup ∧
    (∀ s f, (s, f) ∈ l ↔ Tells scope fields s f) ∧ (∀ u ∈ l, Updates ip dom weight u.1 u.2 (g u)) ∧ ops = l.map g

theorem about_unique {all : List Field} {a b : Option Thing} (h1 : About all a) (h2 : About all b) : a = b := by
  cases h1 <;> cases h2 <;> first | rfl | contradiction

theorem plain_told (ord : MapOrder) (weight : UInt8) (ip : A) (dom : UInt32) (scope fields : List Field) (ha : About (scope ++ fields) none) :
    RecordTold ip dom weight scope fields (([normalizePlain ord (.new scope fields)].map (upsertFromRec ord ip dom weight)).filter Op.valid) := by
  have hT : ∀ s f, Tells scope fields s f ↔ without [padding] fields ≠ [] ∧ (s, f) = (without [padding, process] scope, without [padding] fields) := by
    intro s f
    constructor
    · rintro (⟨-, h⟩ | ⟨h, -⟩)
      · exact ⟨h, rfl⟩
      · exact absurd (about_unique ha h) (by simp)
    · rintro ⟨h, he⟩
      obtain ⟨rfl, rfl⟩ := Prod.mk.injEq .. ▸ he
      exact .plain ha h
  have hs : ((ord.values (mapFields scope)).filter fun f => !isIgnored f).Perm (without [padding, process] scope) := by
    rw [filter_ignored]; exact without_perm (values_perm ord scope)
  have hf : ((ord.values (mapFields fields)).filter fun f => !isPadding f).Perm (without [padding] fields) := by
    rw [filter_padding]; exact without_perm (values_perm ord fields)
  have hv := upsertFromRec_valid ord weight ip dom ((ord.values (mapFields scope)).filter fun f => !isIgnored f) ((ord.values (mapFields fields)).filter fun f => !isPadding f)
  by_cases hne : without [padding] fields = []
  · refine ⟨[], fun _ => upsertFromRec ord ip dom weight (normalizePlain ord (.new scope fields)), by simp, ?_, by simp, ?_⟩
    · intro s f; rw [hT]; simp [hne]
    · rw [hne] at hf
      rw [List.Perm.eq_nil hf] at hv
      simp only [List.map_cons, List.map_nil]
      rw [List.filter_cons_of_neg]
      · rfl
      · show ¬ Op.valid (upsertFromRec ord ip dom weight (IndexedRecord.new ((ord.values (mapFields scope)).filter fun f => !isIgnored f) ((ord.values (mapFields fields)).filter fun f => !isPadding f))) = true
        rw [List.Perm.eq_nil hf, hv]; simp
  · refine ⟨[(without [padding, process] scope, without [padding] fields)], fun _ => upsertFromRec ord ip dom weight (normalizePlain ord (.new scope fields)), by simp, ?_, ?_, ?_⟩
    · intro s f; rw [hT]; simp [hne]
    · intro u hu
      obtain rfl := List.mem_singleton.mp hu
      exact upsertFromRec_updates ord weight ip dom _ _ _ _ hs hf
    · simp only [List.map_cons, List.map_nil]
      rw [List.filter_cons_of_pos]
      · rfl
      · show Op.valid (upsertFromRec ord ip dom weight (IndexedRecord.new ((ord.values (mapFields scope)).filter fun f => !isIgnored f) ((ord.values (mapFields fields)).filter fun f => !isPadding f))) = true
        rw [hv]
        have := hf.length_eq
        cases h : (ord.values (mapFields fields)).filter fun f => !isPadding f with
        | nil => rw [h] at this; exact absurd (List.eq_nil_of_length_eq_zero this.symm) hne
        | cons a l => rfl

theorem thing_told (ord : MapOrder) (weight : UInt8) (ip : A) (dom : UInt32) (scope fields add : List Field) (t : Thing) (ha : About (scope ++ fields) (some t))
    (hw : t.number .ingress ≠ t.number .egress)
    (hadd : add.Perm (without [iana (t.number .ingress) .unsigned32, iana (t.number .egress) .unsigned32, padding, process] scope))
    (n : UInt32) (ways : List Way) (h1 : ways.Nodup) (h2 : ∀ way, way ∈ ways ↔ Agreed t (scope ++ fields) n way)
    (h3 : ∀ m way, Agreed t (scope ++ fields) m way → m = n) :
    RecordTold ip dom weight scope fields (((thingRecords t n add fields ways).map (upsertFromRec ord ip dom weight)).filter Op.valid) := by
  let ways' := ways.filter fun way => t.attributesFor way fields ≠ []
  let rest := without [iana (t.number .ingress) .unsigned32, iana (t.number .egress) .unsigned32, padding, process] scope
  have hrec : thingRecords t n add fields ways = ways'.map fun way => IndexedRecord.new (numbered t way n :: add) (t.attributesFor way fields) := by
    unfold thingRecords
    show _ = (ways.filter _).map _
    clear h1 h2
    induction ways with
    | nil => rfl
    | cons w ws ih =>
      rw [List.flatMap_cons, ih]
      by_cases h : t.attributesFor w fields = []
      · rw [List.filter_cons_of_neg (by simp [h])]; simp [h]
      · rw [List.filter_cons_of_pos (by simp [h])]; simp [h]
  have hval : (((thingRecords t n add fields ways).map (upsertFromRec ord ip dom weight)).filter Op.valid) =
      (ways'.map fun way => upsertFromRec ord ip dom weight (IndexedRecord.new (numbered t way n :: add) (t.attributesFor way fields))) := by
    rw [hrec, List.map_map, List.filter_eq_self.mpr]
    · rfl
    · intro o ho
      obtain ⟨way, hway, rfl⟩ := List.mem_map.mp ho
      show Op.valid (upsertFromRec ord ip dom weight (IndexedRecord.new (numbered t way n :: add) (t.attributesFor way fields))) = true
      rw [upsertFromRec_valid]
      have := (List.mem_filter.mp hway).2
      simpa using this
  -- the way can be read off the first field
  let wayOf : List Field × List Field → Way := fun u => if u.1.head? = some (numbered t .ingress n) then .ingress else .egress
  have hwo : ∀ way, wayOf (numbered t way n :: rest, t.attributesFor way fields) = way := by
    intro way
    cases way
    · simp [wayOf]
    · simp only [wayOf, List.head?_cons, Option.some.injEq]
      rw [if_neg]
      intro h
      simp [numbered] at h
      exact hw h.symm
  refine ⟨ways'.map fun way => (numbered t way n :: rest, t.attributesFor way fields),
    fun u => upsertFromRec ord ip dom weight (IndexedRecord.new (numbered t (wayOf u) n :: add) (t.attributesFor (wayOf u) fields)), ?_, ?_, ?_, ?_⟩
  · refine List.Pairwise.map _ ?_ (h1.filter _)
    intro a b hab he
    apply hab
    rw [← hwo a, ← hwo b, he]
  · intro s f
    rw [List.mem_map]
    constructor
    · rintro ⟨way, hway, he⟩
      obtain ⟨rfl, rfl⟩ := Prod.mk.injEq .. ▸ he
      obtain ⟨hm, hne⟩ := List.mem_filter.mp hway
      obtain ⟨ha1, ha2⟩ := (h2 way).mp hm
      exact .thing ha ha1 ha2 (by simpa using hne)
    · rintro (⟨h, -⟩ | @⟨t', way, m, h, hf, hag, hne⟩)
      · exact absurd (about_unique ha h) (by simp)
      · obtain rfl : t = t' := by simpa using about_unique ha h
        have hA : Agreed t (scope ++ fields) m way := ⟨hf, hag⟩
        obtain rfl := h3 m way hA
        exact ⟨way, List.mem_filter.mpr ⟨(h2 way).mpr hA, by simpa using hne⟩, rfl⟩
  · intro u hu
    obtain ⟨way, hway, rfl⟩ := List.mem_map.mp hu
    simp only [hwo]
    exact upsertFromRec_updates ord weight ip dom _ _ _ _ (hadd.cons _) (.refl _)
  · rw [hval, List.map_map]
    refine List.map_congr_left fun way _ => ?_
    simp only [Function.comp]
    rw [hwo]

theorem record_told (ord : MapOrder) (weight : UInt8) (ip : A) (dom : UInt32) (scope fields : List Field) :
    RecordTold ip dom weight scope fields (recordOps ord weight ip dom (classify (.new scope fields))) := by
  rw [recordOps_eq]
  unfold classify
  by_cases hS : Samples (scope ++ fields)
  · rw [if_pos ((isSampling_iff _ _).mpr hS)]
    exact plain_told ord weight ip dom scope fields (.sampling hS)
  rw [if_neg (fun h => hS ((isSampling_iff _ _).mp h))]
  by_cases hI : interfaces.Described (scope ++ fields)
  · rw [if_pos ((isInterface_iff _ _).mpr hI)]
    obtain ⟨n, ways, h1, h2, h3, h4⟩ := normalizeInterface_eq ord scope fields
    show RecordTold _ _ _ _ _ (((normalizedOr (normalizeInterface ord (.new scope fields))).map _).filter _)
    rw [h4]
    exact thing_told ord weight ip dom scope fields _ interfaces (.interface hS hI) (by decide) (without_perm (values_perm ord scope)) n ways h1 h2 h3
  rw [if_neg (fun h => hI ((isInterface_iff _ _).mp h))]
  by_cases hV : vrfs.Described (scope ++ fields)
  · rw [if_pos ((isVrf_iff _ _).mpr hV)]
    obtain ⟨n, ways, h1, h2, h3, h4⟩ := normalizeVrf_eq ord scope fields
    show RecordTold _ _ _ _ _ (((normalizedOr (normalizeVrf ord (.new scope fields))).map _).filter _)
    rw [h4]
    exact thing_told ord weight ip dom scope fields _ vrfs (.vrf hS hI hV) (by decide) (without_perm (values_perm ord scope)) n ways h1 h2 h3
  rw [if_neg (fun h => hV ((isVrf_iff _ _).mp h))]
  exact plain_told ord weight ip dom scope fields (.other hS hI hV)

theorem told_append {ip : A} {dom : UInt32} {weight : UInt8} {rs rs' : List (List Field × List Field)} {ops ops' : List (Op A Field Ie)}
    (h : Told ip dom weight rs ops) (h' : Told ip dom weight rs' ops') : Told ip dom weight (rs ++ rs') (ops ++ ops') := by
  induction h with
  | nil => exact h'
  | cons l g h1 h2 h3 _ ih => rw [List.cons_append, List.append_assoc]; exact .cons l g h1 h2 h3 ih

theorem told_flatMap (ord : MapOrder) (weight : UInt8) (ip : A) (dom : UInt32) (rs : List (List Field × List Field)) :
    Told ip dom weight rs (rs.flatMap fun r => recordOps ord weight ip dom (classify (.new r.1 r.2))) := by
  induction rs with
  | nil => exact .nil
  | cons r rs ih =>
    obtain ⟨l, g, h1, h2, h3, h4⟩ := record_told ord weight ip dom r.1 r.2
    rw [List.flatMap_cons, h4]
    exact .cons l g h1 h2 h3 ih

theorem convertScope_eq (s : List ScopeField) : (match convertScope s with | .ok l => some l | .error _ => none) = translateAll s := by
  induction s with
  | nil => rfl
  | cons f fs ih =>
    have hc : ∀ l, translate f = some l → translateAll (f :: fs) = (translateAll fs).map (l ++ ·) := by
      intro l hl
      unfold translateAll
      rw [List.all_cons, List.flatMap_cons, hl]
      simp only [Option.isSome_some, Bool.true_and, Option.getD_some]
      split <;> rfl
    have hn : translate f = none → translateAll (f :: fs) = none := by
      intro hl
      unfold translateAll
      rw [List.all_cons, hl]; rfl
    cases f with
    | system v => rw [hc [] rfl, ← ih]; simp only [convertScope]; cases convertScope fs <;> rfl
    | interface v => rw [hc _ rfl, ← ih]; simp only [convertScope]; cases convertScope fs <;> rfl
    | lineCard v => rw [hc _ rfl, ← ih]; simp only [convertScope]; cases convertScope fs <;> rfl
    | cache v => rw [hn rfl]; rfl
    | template v => rw [hn rfl]; rfl
    | unknown a b c => rw [hn rfl]; rfl

theorem setsOps_eq {κ φ : Type} (ord : MapOrder) (conv : DataRecord φ → Except OptionsError OptionsRecord) (weight : UInt8) (ip : A) (dom : UInt32)
    (sets : List (FlowSet κ φ)) : setsOps ord conv weight ip dom sets =
      (options sets).flatMap fun r => match conv r with | .error _ => [] | .ok o => recordOps ord weight ip dom o := by
  unfold setsOps options
  rw [List.flatMap_assoc]
  congr 1
  funext s
  cases s with
  | data id records =>
    simp only
    have : (records.filter fun r => !r.scope.isEmpty) = records.filter fun r => r.scope ≠ [] := by
      refine List.filter_congr fun r _ => ?_
      cases r.scope <;> simp
    rw [this]
    congr 1
  | template t => rfl
  | options t => rfl

theorem options_scope {κ φ : Type} {sets : List (FlowSet κ φ)} {r : DataRecord φ} (h : r ∈ options sets) : r.scope ≠ [] := by
  unfold options at h
  obtain ⟨s, -, hr⟩ := List.mem_flatMap.mp h
  cases s with
  | data id records => simpa using (List.mem_filter.mp hr).2
  | template t => simp at hr
  | options t => simp at hr

theorem flatMap_congr' {α β : Type} {l : List α} {f g : α → List β} (h : ∀ a ∈ l, f a = g a) : l.flatMap f = l.flatMap g := by
  induction l with
  | nil => rfl
  | cons a l ih => rw [List.flatMap_cons, List.flatMap_cons, h a (List.mem_cons_self ..), ih fun b hb => h b (List.mem_cons_of_mem _ hb)]

theorem packetOps_eq (ord : MapOrder) (weight : UInt8) (ip : A) (p : Info) :
    packetOps ord weight ip p = (announcements p).flatMap fun r => recordOps ord weight ip (domainOf p) (classify (.new r.1 r.2)) := by
  cases p with
  | ipfix p =>
    show setsOps _ _ _ _ _ _ = (((options p.sets).map _).flatMap _)
    rw [setsOps_eq, List.flatMap_map]
    refine flatMap_congr' fun r hr => ?_
    have := options_scope hr
    unfold fromIpfix
    rw [if_neg (by simpa using this)]
    rfl
  | netflow p =>
    show setsOps _ _ _ _ _ _ = (((options p.sets).filterMap _).flatMap _)
    rw [setsOps_eq]
    have hs : ∀ r ∈ options p.sets, r.scope ≠ [] := fun r hr => options_scope hr
    generalize options p.sets = rs at hs
    induction rs with
    | nil => rfl
    | cons r rs ih =>
      rw [List.flatMap_cons, ih fun x hx => hs x (List.mem_cons_of_mem _ hx), List.filterMap_cons]
      have hr := hs r (List.mem_cons_self ..)
      have hc := convertScope_eq r.scope
      unfold fromNetflow
      rw [if_neg (by simpa using hr)]
      cases h : convertScope r.scope with
      | error e => rw [h] at hc; rw [← hc]; rfl
      | ok s => rw [h] at hc; rw [← hc]; rfl

theorem packet_told (ord : MapOrder) (weight : UInt8) (ip : A) (p : Info) :
    Told ip (domainOf p) weight (announcements p) (packetOps ord weight ip p) := by
  rw [packetOps_eq]; exact told_flatMap ord weight ip _ _

end Verif.Collector
