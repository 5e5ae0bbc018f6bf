import Verif.Collector.OutputLemmas
/-!
# What is published of flow records

What is expected of records is said with the types of Avro, and of selections with occurrences of elements; neither refers to how the output is put together.
-/
namespace Verif.Props
open Verif.Flow
open Verif.FlowOut
open Verif.Collector (Text FieldRef mapFields)
open Verif.Collector.Hist (nth)

/-! ## Types of Avro -/

/-- a value is of the primitive type that has this name in a schema -/
def ScalarOf (n : String) : Scalar → Bool
  | .bytes _ => n == "bytes"
  | .int v => n == "int" && decide (-2 ^ 31 ≤ v ∧ v < 2 ^ 31)
  | .long v => n == "long" && decide (-2 ^ 63 ≤ v ∧ v < 2 ^ 63)
  | .float _ => n == "float"
  | .double _ => n == "double"
  | .boolean _ => n == "boolean"
  | .string _ => n == "string"
  | .timestampMillis _ | .array _ | .map _ => false

/-- the names of primitive types -/
def avroNames : List String := ["boolean", "int", "long", "float", "double", "bytes", "string"]

/-- a field of a record is of a type of the schema -/
def CellOf : SchemaType → Cell → Bool
  | .simple true n, .null => avroNames.contains n
  | .simple true n, .branch v => ScalarOf n v
  | .simple false n, .plain v => ScalarOf n v
  | .array true i, .null | .map true i, .null => i == "string"
  | .array true i, .branch (.array _) | .array false i, .plain (.array _) => i == "string"
  | .map true i, .branch (.map _) | .map false i, .plain (.map _) => i == "string"
  | .map false i, .prims l => i == "string" && l.all fun x => ScalarOf "string" x.2
  | _, _ => false

/-- a record has the fields of the schema, in their order and of their types -/
def RecordOf : List (Text × SchemaType) → List (Text × Cell) → Bool
  | [], [] => true
  | (n, t) :: s, (m, c) :: r => n == m && CellOf t c && RecordOf s r
  | _, _ => false

theorem recordOf_append : ∀ {s s' : List (Text × SchemaType)} {r r' : List (Text × Cell)}, RecordOf s r = true → RecordOf s' r' = true → RecordOf (s ++ s') (r ++ r') = true
  | [], _, [], _, _, h => h
  | [], _, _ :: _, _, h, _ => by cases h
  | _ :: _, _, [], _, h, _ => by cases h
  | (n, t) :: s, s', (m, c) :: r, r', h, h' => by
    simp only [RecordOf, Bool.and_eq_true] at h
    simp only [List.cons_append, RecordOf, Bool.and_eq_true]
    exact ⟨h.1, recordOf_append h.2 h'⟩

theorem recordOf_map {α : Type} {n : α → Text} {t : α → SchemaType} {c : α → Cell} : ∀ {l : List α}, (∀ x ∈ l, CellOf (t x) (c x) = true) →
    RecordOf (l.map fun x => (n x, t x)) (l.map fun x => (n x, c x)) = true
  | [], _ => rfl
  | x :: l, h => by
    simp only [List.map_cons, RecordOf, Bool.and_eq_true, beq_self_eq_true, true_and]
    exact ⟨h x (List.mem_cons_self ..), recordOf_map fun y hy => h y (List.mem_cons_of_mem _ hy)⟩

/-- the kinds of which a value is no primitive -/
def primitiveKind : AvroKind → Bool
  | .timestampMillis | .timestampMicros | .timestampNanos | .array | .map => false
  | _ => true

theorem scalar_of_raw {r : RawValue} (h : primitiveKind r.avroType = true) : ScalarOf r.avroType.text r.toAvro = true := by
  have b8 (x : UInt8) : x.toNat < 256 := x.toNat_lt
  have b16 (x : UInt16) : x.toNat < 65536 := x.toNat_lt
  have b32 (x : UInt32) : x.toNat < 4294967296 := x.toNat_lt
  have i8 (x : Int8) : -128 ≤ x.toInt ∧ x.toInt < 128 := ⟨x.le_toInt, x.toInt_lt⟩
  have i16 (x : Int16) : -32768 ≤ x.toInt ∧ x.toInt < 32768 := ⟨x.le_toInt, x.toInt_lt⟩
  have i32 (x : Int32) : -2147483648 ≤ x.toInt ∧ x.toInt < 2147483648 := ⟨x.le_toInt, x.toInt_lt⟩
  have i64 (x : Int64) : -9223372036854775808 ≤ x.toInt ∧ x.toInt < 9223372036854775808 := ⟨x.le_toInt, x.toInt_lt⟩
  cases r with
  | u8 v => have := b8 v; simp [ScalarOf, RawValue.avroType, AvroKind.text, RawValue.toAvro]; omega
  | u16 v => have := b16 v; simp [ScalarOf, RawValue.avroType, AvroKind.text, RawValue.toAvro]; omega
  | u32 v => have := b32 v; simp [ScalarOf, RawValue.avroType, AvroKind.text, RawValue.toAvro]; omega
  | u64 v => have := i64 v.toInt64; simp only [ScalarOf, RawValue.avroType, AvroKind.text, RawValue.toAvro, beq_self_eq_true, Bool.true_and, decide_eq_true_eq]; omega
  | i8 v => have := i8 v; simp only [ScalarOf, RawValue.avroType, AvroKind.text, RawValue.toAvro, beq_self_eq_true, Bool.true_and, decide_eq_true_eq]; omega
  | i16 v => have := i16 v; simp only [ScalarOf, RawValue.avroType, AvroKind.text, RawValue.toAvro, beq_self_eq_true, Bool.true_and, decide_eq_true_eq]; omega
  | i32 v => have := i32 v; simp only [ScalarOf, RawValue.avroType, AvroKind.text, RawValue.toAvro, beq_self_eq_true, Bool.true_and, decide_eq_true_eq]; omega
  | i64 v => have := i64 v; simp only [ScalarOf, RawValue.avroType, AvroKind.text, RawValue.toAvro, beq_self_eq_true, Bool.true_and, decide_eq_true_eq]; omega
  | timestampMillis v => cases h
  | stringArray v => cases h
  | stringMap v => cases h
  | _ => rfl

/-- nothing that is published as it is has the type of a time -/
theorem plain_kind {el : Elements} {ie : Ie} (h : plainIe el ie = true) : primitiveKind (ieAvroType ie) = true := by
  cases ie with
  | known p i k => cases k <;> first | rfl | cases h
  | vendorUnknown => cases h
  | unknown => cases h

theorem config_kind {el : Elements} {c : FieldConfig} (hv : c.validate = .ok ()) (hp : PlainIdentity el c) :
    primitiveKind c.avroType = true ∨ (c.avroType = .array ∧ c.transform.inner = some "string") ∨ (c.avroType = .map ∧ c.transform.inner = some "string") := by
  unfold FieldConfig.avroType
  cases ht : c.transform with
  | identity =>
    refine Or.inl ?_
    have hk := identity_kind hv ht
    have hpl := hp ht
    have hne : c.select.ies ≠ [] := by
      obtain ⟨h1, h2, _⟩ := validate_parts hv
      cases hs : c.select with
      | single r => simp [Select.ies]
      | layer2 r e => simp [Select.ies]
      | coalesce l => cases l with
        | nil => exact absurd hs h1
        | cons => simp [Select.ies]
      | multi l => cases l with
        | nil => exact absurd hs h2
        | cons => simp [Select.ies]
    obtain ⟨ie, hie⟩ := List.exists_mem_of_ne_nil _ hne
    rw [Transform.avroType, ← hk ie hie]
    exact plain_kind (hpl ie hie)
  | stringArray => exact Or.inr (Or.inl ⟨rfl, rfl⟩)
  | mplsIndex => exact Or.inr (Or.inl ⟨rfl, rfl⟩)
  | arrayAgg => exact Or.inr (Or.inl ⟨rfl, rfl⟩)
  | mapAgg m => exact Or.inr (Or.inr ⟨rfl, rfl⟩)
  | _ => exact Or.inl rfl

theorem schema_primitive {c : FieldConfig} (h : primitiveKind c.avroType = true) : c.schema = .simple c.nullable c.avroType.text := by
  unfold FieldConfig.schema
  cases hk : c.avroType <;> first | rfl | (rw [hk] at h; cases h)

theorem cell_conforms {el : Elements} {c : FieldConfig} {fields : List Field} (hv : c.validate = .ok ()) (hp : PlainIdentity el c)
    (h : ∃ v, c.value el (mapFields fields) = .ok v) : CellOf c.schema (cellFor el (mapFields fields) c) = true := by
  obtain ⟨v, h⟩ := h
  have hnull : c.nullable = c.default.isNone := rfl
  rcases config_kind hv hp with hk | ⟨hk, hi⟩ | ⟨hk, hi⟩
  · rw [schema_primitive hk, cellFor, h, hnull]
    cases v with
    | none =>
      cases hd : c.default with
      | none =>
        have hh : ∀ k : AvroKind, primitiveKind k = true → avroNames.contains k.text = true := by intro k hk; cases k <;> first | rfl | cases hk
        exact hh _ hk
      | some d => exact absurd rfl (value_default hd h)
    | some s =>
      obtain ⟨r, hr, rfl⟩ := value_kind hv hp h
      rw [← hr] at hk ⊢
      have := scalar_of_raw hk
      cases c.default with
      | none => exact this
      | some d => exact this
  · have hs : c.schema = .array c.nullable "string" := by unfold FieldConfig.schema; rw [hk]; simp only; rw [hi]
    rw [hs, cellFor, h, hnull]
    cases v with
    | none =>
      cases hd : c.default with
      | none => rfl
      | some d => exact absurd rfl (value_default hd h)
    | some s =>
      obtain ⟨r, hr, rfl⟩ := value_kind hv hp h
      rw [hk] at hr
      cases r <;> first | (cases hr; done) | (cases c.default <;> rfl)
  · have hs : c.schema = .map c.nullable "string" := by unfold FieldConfig.schema; rw [hk]; simp only; rw [hi]
    rw [hs, cellFor, h, hnull]
    cases v with
    | none =>
      cases hd : c.default with
      | none => rfl
      | some d => exact absurd rfl (value_default hd h)
    | some s =>
      obtain ⟨r, hr, rfl⟩ := value_kind hv hp h
      rw [hk] at hr
      cases r <;> first | (cases hr; done) | (cases c.default <;> rfl)

/-- what is needed of custom primitives: names with `custom_primitives.` start with it, all of them are text, and one of them has a default if there are any -/
structure PrimsFit (cfg : OutputConfig) : Prop where
  starts : ∀ x ∈ cfg, containsText primPrefix x.1 = true → primPrefix <+: x.1
  text : ∀ x ∈ cfg, primPrefix <+: x.1 → x.2.avroType = .string
  one : (∃ x ∈ cfg, primPrefix <+: x.1) → ∃ x ∈ cfg, primPrefix <+: x.1 ∧ x.2.default ≠ none

theorem strip_iff {n : Text} : (stripPrefix primPrefix n).isNone = false ↔ primPrefix <+: n := by
  unfold stripPrefix
  rw [← List.isPrefixOf_iff_prefix]
  split <;> simp_all

theorem contains_of_prefix {p n : Text} (h : p <+: n) : containsText p n = true := by
  cases n with
  | nil => rw [List.prefix_nil] at h; subst h; rfl
  | cons c n => rw [containsText, List.isPrefixOf_iff_prefix.mpr h]; rfl

/-- C235: what is published of a record is of the schema that is published for the configuration, where elements that are published as they are have values of their data types, and custom primitives are fit. -/
theorem c235_conforms_partial {el : Elements} {cfg : OutputConfig} {fields : List Field} {rec : List (Text × Cell)} (hv : cfg.validate = .ok ())
    (hp : ∀ x ∈ cfg, PlainIdentity el x.2) (hc : PrimsFit cfg) (h : recordOf el cfg fields = .ok rec) : RecordOf (schemaOf cfg) rec = true := by
  unfold recordOf at h
  obtain ⟨⟨F, P⟩, hcell, he⟩ := map_some h
  obtain ⟨h1, h2, h3, h4⟩ := cells_ok hcell
  have hfield : ∀ x ∈ cfg, (!containsText primPrefix x.1) = isField x := by
    intro x hx
    cases hf : isField x with
    | false => rw [contains_of_prefix (strip_iff.mp hf)]; rfl
    | true =>
      cases hct : containsText primPrefix x.1 with
      | false => rfl
      | true => have := strip_iff.mpr (hc.starts x hx hct); rw [isField, this] at hf; cases hf
  have hfil : (cfg.filter fun x => !containsText primPrefix x.1) = cfg.filter isField := List.filter_congr hfield
  have hmain : RecordOf ((cfg.filter isField).map fun x => (x.1, x.2.schema)) F = true := by
    rw [h1, List.nil_append]
    refine recordOf_map fun x hx => ?_
    have hx := (List.mem_filter.mp hx).1
    exact cell_conforms (validate_mem hv x hx) (hp x hx) (h2 x hx)
  unfold schemaOf
  rw [hfil]
  by_cases hany : ∃ x ∈ cfg, primPrefix <+: x.1
  · have ha : (cfg.any fun x => containsText primPrefix x.1) = true := by
      obtain ⟨x, hx, hp⟩ := hany
      exact List.any_eq_true.mpr ⟨x, hx, contains_of_prefix hp⟩
    rw [if_pos ha]
    have hne : P ≠ [] := by
      obtain ⟨x, hx, hpre, hd⟩ := hc.one hany
      obtain ⟨d, hd⟩ := Option.ne_none_iff_exists'.mp hd
      obtain ⟨v, hval⟩ := h2 x hx
      obtain ⟨v, rfl⟩ := Option.ne_none_iff_exists'.mp (value_default hd hval)
      exact h4 (Or.inr ⟨x, hx, strip_iff.mpr hpre, v, hval⟩)
    have hemp : P.isEmpty = false := by cases P with
      | nil => exact absurd rfl hne
      | cons => rfl
    simp only [hemp] at he
    rw [← he]
    refine recordOf_append hmain ?_
    simp only [RecordOf, CellOf, beq_self_eq_true, Bool.true_and, Bool.and_true]
    rw [List.all_eq_true]
    intro x hx
    rcases h3 x hx with hx | ⟨y, hy, hyf, hyv⟩
    · cases hx
    · obtain ⟨r, hr, hs⟩ := value_kind (validate_mem hv y hy) (hp y hy) hyv
      rw [hs]
      rw [hc.text y hy (strip_iff.mp hyf)] at hr
      have := scalar_of_raw (r := r) (by rw [hr]; rfl)
      rw [hr] at this
      exact this
  · have ha : ¬ (cfg.any fun x => containsText primPrefix x.1) = true := by
      rw [List.any_eq_true]
      rintro ⟨x, hx, hct⟩
      exact hany ⟨x, hx, hc.starts x hx hct⟩
    have hemp : P = [] := by
      cases P with
      | nil => rfl
      | cons x P =>
        rcases h3 x (List.mem_cons_self ..) with hx | ⟨y, hy, hyf, _⟩
        · cases hx
        · exact absurd ⟨y, hy, strip_iff.mp hyf⟩ hany
    rw [if_neg ha, List.append_nil, ← he]
    simp only [hemp, List.isEmpty_nil]
    exact hmain

/-- elements for examples -/
def demoElements : Elements where
  sub := fun ie => ie == .known 0 4 .unsigned8
  shown := fun p i v => match v with
    | .unsigned8 x => if p = 0 ∧ i = 4 ∧ x = 6 then "TCP".toList else number x.toNat
    | .unsigned64 x => number x.toNat
    | .string s => s.toList
    | _ => "?".toList
  name := fun ie => match ie with
    | .known 0 82 .string => "interfaceName".toList
    | .known 0 1 .unsigned64 => "octetDeltaCount".toList
    | _ => "?".toList
  rdNamed := fun ie => ie == routeDistinguisher
  flags := fun b => if b = 2 then ["SYN".toList] else []
  lower := fun t => t.map Char.toLower

def demoConfig : OutputConfig := [
  ("bytes".toList, ⟨.single ⟨.known 0 1 .unsigned64, 0⟩, some (.u64 0), .identity⟩),
  ("interface".toList, ⟨.coalesce [⟨.known 0 83 .string, 0⟩, ⟨.known 0 82 .string, 0⟩], none, .lowercase⟩),
  ("protocol".toList, ⟨.single ⟨.known 0 4 .unsigned8, 0⟩, none, .string⟩),
  ("flags".toList, ⟨.single ⟨tcpControlBits, 0⟩, none, .stringArray⟩),
  ("custom_primitives.rd".toList, ⟨.single ⟨routeDistinguisher, 0⟩, some (.string "none".toList), .string⟩)]

def demoFields : List Field := [.known 0 82 (.string "ETH0"), .known 0 1 (.unsigned64 1500), .known 0 4 (.unsigned8 6), .known 0 90 (.octetArray [0, 0, 0, 100, 0, 0, 0, 7])]

theorem demo_plain : ∀ x ∈ demoConfig, PlainIdentity demoElements x.2 := by
  intro x hx
  simp only [demoConfig, List.mem_cons, List.not_mem_nil, or_false] at hx
  rcases hx with rfl | rfl | rfl | rfl | rfl <;> intro ht <;> first | (cases ht; done) | (intro ie hie; rw [Select.ies, List.mem_singleton] at hie; subst hie; decide)

theorem demo_prims : PrimsFit demoConfig := by
  refine ⟨?_, ?_, fun _ => ⟨_, List.mem_of_getElem? (i := 4) rfl, by decide, by decide⟩⟩ <;>
    · intro x hx
      simp only [demoConfig, List.mem_cons, List.not_mem_nil, or_false] at hx
      rcases hx with rfl | rfl | rfl | rfl | rfl <;> decide

example : demoConfig.validate = .ok () := rfl
example : recordOf demoElements demoConfig demoFields = .ok [("bytes".toList, .plain (.long 1500)), ("interface".toList, .branch (.string "eth0".toList)), ("protocol".toList, .branch (.string "TCP".toList)),
    ("flags".toList, .null), ("custom_primitives".toList, .prims [("rd".toList, .string "0:100:7".toList)])] := by decide +kernel
example : RecordOf (schemaOf demoConfig) [("bytes".toList, .plain (.long 1500)), ("interface".toList, .branch (.string "eth0".toList)), ("protocol".toList, .branch (.string "TCP".toList)),
    ("flags".toList, .null), ("custom_primitives".toList, .prims [("rd".toList, .string "0:100:7".toList)])] = true :=
  c235_conforms_partial (el := demoElements) (fields := demoFields) rfl demo_plain demo_prims (by decide +kernel)

/-- Beyond that, C235 is false: an element with names for its values is accepted as it is and said to be a number in the schema, but published as text. -/
theorem c235_named_values_disproved (el : Elements) (h : el.sub (.known 0 4 .unsigned8) = true) :
    ∃ (cfg : OutputConfig) (fields : List Field) (rec : List (Text × Cell)), cfg.validate = .ok () ∧ recordOf el cfg fields = .ok rec ∧
      schemaOf cfg = [("protocol".toList, .simple true "int")] ∧ rec = [("protocol".toList, .branch (.string (el.shown 0 4 (.unsigned8 6))))] ∧ RecordOf (schemaOf cfg) rec = false := by
  refine ⟨[("protocol".toList, ⟨.single ⟨.known 0 4 .unsigned8, 0⟩, none, .identity⟩)], [.known 0 4 (.unsigned8 6)], _, rfl, ?_, by decide, rfl, rfl⟩
  have hr : toRaw el (.known 0 4 (.unsigned8 6)) = .ok (.string (el.shown 0 4 (.unsigned8 6))) := by
    have hn : native el (.known 0 4 (.unsigned8 6)) = none := if_pos h
    rw [toRaw, hn]
    rfl
  have hval : FieldConfig.value el ⟨.single ⟨.known 0 4 .unsigned8, 0⟩, none, .identity⟩ (mapFields [.known 0 4 (.unsigned8 6)]) = .ok (some (.string (el.shown 0 4 (.unsigned8 6)))) := by
    have : FieldConfig.value el ⟨.single ⟨.known 0 4 .unsigned8, 0⟩, none, .identity⟩ (mapFields [.known 0 4 (.unsigned8 6)]) =
        ((toRaw el (.known 0 4 (.unsigned8 6))).map some).map fun v => (v.or none).map RawValue.toAvro := rfl
    rw [this, hr]
    rfl
  have : recordOf el [("protocol".toList, ⟨.single ⟨.known 0 4 .unsigned8, 0⟩, none, .identity⟩)] [.known 0 4 (.unsigned8 6)] =
    (match FieldConfig.value el ⟨.single ⟨.known 0 4 .unsigned8, 0⟩, none, .identity⟩ (mapFields [.known 0 4 (.unsigned8 6)]) with
      | .ok v => (.ok [("protocol".toList, match v with | some v => Cell.branch v | none => Cell.null)] : Res ConvErr (List (Text × Cell)))
      | .err e => .err e
      | .fault f => .fault f) := by
    rw [hval, recordOf, cellsFrom, hval]
    rfl
  rw [this, hval]

/-- times that are published as they are have a type in the schema that Avro does not know -/
theorem c235_times_disproved (rec : List (Text × Cell)) :
    OutputConfig.validate [("start".toList, ⟨.single ⟨.known 0 152 .millis, 0⟩, none, .identity⟩)] = .ok () ∧
      schemaOf [("start".toList, ⟨.single ⟨.known 0 152 .millis, 0⟩, none, .identity⟩)] = [("start".toList, .simple true "timestampmillis")] ∧ "timestampmillis" ∉ avroNames ∧
      RecordOf (schemaOf [("start".toList, ⟨.single ⟨.known 0 152 .millis, 0⟩, none, .identity⟩)]) rec = false := by
  refine ⟨rfl, by decide, by decide, ?_⟩
  have hs : schemaOf [("start".toList, ⟨.single ⟨.known 0 152 .millis, 0⟩, none, .identity⟩)] = [("start".toList, .simple true "timestampmillis")] := by decide
  rw [hs]
  cases rec with
  | nil => rfl
  | cons x l =>
    obtain ⟨n, c⟩ := x
    rw [RecordOf]
    have : CellOf (.simple true "timestampmillis") c = false := by
      cases c with
      | null => decide
      | branch v => cases v <;> simp [CellOf, ScalarOf]
      | plain v => rfl
      | prims l => rfl
    rw [this, Bool.and_false, Bool.false_and]

/-- custom primitives are in the schema, but not in a record that has none of them -/
theorem c235_primitives_disproved (el : Elements) :
    OutputConfig.validate [("custom_primitives.as".toList, ⟨.single ⟨.known 0 16 .unsigned32, 0⟩, none, .string⟩)] = .ok () ∧
      recordOf el [("custom_primitives.as".toList, ⟨.single ⟨.known 0 16 .unsigned32, 0⟩, none, .string⟩)] [] = .ok [] ∧
      RecordOf (schemaOf [("custom_primitives.as".toList, ⟨.single ⟨.known 0 16 .unsigned32, 0⟩, none, .string⟩)]) [] = false := ⟨rfl, by rfl, by decide⟩

/-- custom primitives that are no text are accepted, though the schema says text -/
theorem c235_primitive_numbers_disproved (el : Elements) (h : el.sub (.known 0 16 .unsigned32) = false) :
    OutputConfig.validate [("custom_primitives.as".toList, ⟨.single ⟨.known 0 16 .unsigned32, 0⟩, none, .identity⟩)] = .ok () ∧
      recordOf el [("custom_primitives.as".toList, ⟨.single ⟨.known 0 16 .unsigned32, 0⟩, none, .identity⟩)] [.known 0 16 (.unsigned32 65000)] =
        .ok [("custom_primitives".toList, .prims [("as".toList, .long 65000)])] ∧
      RecordOf (schemaOf [("custom_primitives.as".toList, ⟨.single ⟨.known 0 16 .unsigned32, 0⟩, none, .identity⟩)])
        [("custom_primitives".toList, .prims [("as".toList, .long 65000)])] = false := by
  refine ⟨rfl, ?_, by decide⟩
  have hval : FieldConfig.value el ⟨.single ⟨.known 0 16 .unsigned32, 0⟩, none, .identity⟩ (mapFields [.known 0 16 (.unsigned32 65000)]) = .ok (some (.long 65000)) := by
    have hn : native el (.known 0 16 (.unsigned32 65000)) = some (.u32 65000) := if_neg (by rw [show (Value.unsigned32 65000).kind = .unsigned32 from rfl, h]; decide)
    have hr : toRaw el (.known 0 16 (.unsigned32 65000)) = .ok (.u32 65000) := by rw [toRaw, hn]
    have : FieldConfig.value el ⟨.single ⟨.known 0 16 .unsigned32, 0⟩, none, .identity⟩ (mapFields [.known 0 16 (.unsigned32 65000)]) =
        ((toRaw el (.known 0 16 (.unsigned32 65000))).map some).map fun v => (v.or none).map RawValue.toAvro := rfl
    rw [this, hr]
    rfl
  rw [recordOf, cellsFrom, hval]
  rfl

/-! ## Accepted configurations -/

/-- C236: with an accepted configuration every record is converted, where elements that are published as they are have values of their data types, and route distinguishers have eight octets. -/
theorem c236_accepted_partial {el : Elements} {cfg : OutputConfig} {fields : List Field} (hrd : el.rdNamed routeDistinguisher = true) (hv : cfg.validate = .ok ())
    (hp : ∀ x ∈ cfg, PlainIdentity el x.2) (h8 : ∀ f ∈ fields, RdSized f) : ∃ rec, recordOf el cfg fields = .ok rec := by
  have : ∀ x ∈ cfg, ∃ v, x.2.value el (mapFields fields) = .ok v := by
    intro x hx
    obtain ⟨v, hval⟩ := apply_ok hrd (validate_mem hv x hx) (hp x hx) h8
    exact ⟨_, by rw [FieldConfig.value, hval]; rfl⟩
  obtain ⟨r, hr⟩ := cells_exist [] [] this
  exact ⟨_, by rw [recordOf, hr]; rfl⟩

example : ∃ rec, recordOf demoElements demoConfig demoFields = .ok rec :=
  c236_accepted_partial rfl rfl demo_plain (by intro f hf b hb; subst hb; simp only [demoFields, List.mem_cons, Field.known.injEq, reduceCtorEq, and_false, false_or, Value.octetArray.injEq, List.not_mem_nil, or_false] at hf; rw [hf.2.2]; rfl)

/-- an element that is not known is accepted to be published as it is, and the first record that has it is a panic -/
theorem c236_unknown_disproved (el : Elements) (p : UInt32) (i : UInt16) (v : Bytes) (name : Text) :
    OutputConfig.validate [(name, ⟨.single ⟨.unknown p i, 0⟩, none, .identity⟩)] = .ok () ∧
      recordOf el [(name, ⟨.single ⟨.unknown p i, 0⟩, none, .identity⟩)] [.unknown p i v] = .fault .panic := by
  refine ⟨rfl, ?_⟩
  have hl : (mapFields [Field.unknown p i v]).look ⟨.unknown p i, 0⟩ = some (.unknown p i v) := by
    rw [Verif.Collector.look_nth]
    simp [nth, Verif.Collector.HasIe.ie, Field.ie]
  have hval : FieldConfig.value el ⟨.single ⟨.unknown p i, 0⟩, none, .identity⟩ (mapFields [.unknown p i v]) = .fault .panic := by
    unfold FieldConfig.value Select.apply
    simp only
    rw [hl]
    rfl
  rw [recordOf, cellsFrom, hval]
  rfl

/-- the packet with these data records -/
def packetWith (records : List (DataRecord Field)) : FlowInfo := .ipfix ⟨⟨0, 0⟩, 0, 0, [.data 300 records]⟩

def rdConfig : OutputConfig := [("rd".toList, ⟨.single ⟨routeDistinguisher, 0⟩, none, .string⟩)]

/-- a route distinguisher that is not of eight octets is an error, and all records of the packet are lost with it -/
theorem c236_distinguisher_disproved (el : Elements) (h : el.rdNamed routeDistinguisher = true) (before after : List (DataRecord Field)) (b : Bytes) (hb : b.length ≠ 8)
    (hok : ∀ r ∈ before, ∃ rec, recordOf el rdConfig r.fields = .ok rec) :
    rdConfig.validate = .ok () ∧ valuesOf el rdConfig (packetWith (before ++ ⟨[], [.known 0 90 (.octetArray b)]⟩ :: after)) = .err .conversion := by
  refine ⟨rfl, ?_⟩
  have hnone : rdText b = none := by
    unfold rdText
    split
    · exact absurd rfl hb
    · rfl
  have htext : textOf el (.known 0 90 (.octetArray b)) = .err .conversion := by
    have : toText el (.known 0 90 (.octetArray b)) = none := by rw [toText]; exact (if_pos h).trans hnone
    rw [textOf, this]
  have hl : (mapFields [Field.known 0 90 (.octetArray b)]).look ⟨routeDistinguisher, 0⟩ = some (.known 0 90 (.octetArray b)) := by
    rw [Verif.Collector.look_nth]
    rfl
  have hbad : recordOf el rdConfig [.known 0 90 (.octetArray b)] = .err .conversion := by
    have hval : FieldConfig.value el ⟨.single ⟨routeDistinguisher, 0⟩, none, .string⟩ (mapFields [.known 0 90 (.octetArray b)]) = .err .conversion := by
      unfold FieldConfig.value Select.apply
      simp only
      rw [hl]
      simp only [Option.map_some, Transform.apply, List.getLast?_singleton]
      rw [htext]
      rfl
    rw [recordOf, rdConfig, cellsFrom, hval]
    rfl
  have hall : ∀ l : List (DataRecord Field), (∀ r ∈ l, ∃ rec, recordOf el rdConfig r.fields = .ok rec) →
      Res.all ((l ++ ⟨[], [.known 0 90 (.octetArray b)]⟩ :: after).map fun r => recordOf el rdConfig r.fields) = .err .conversion := by
    intro l
    induction l with
    | nil => intro _; rw [List.nil_append, List.map_cons, hbad, Res.all]
    | cons r l ih =>
      intro hl
      obtain ⟨rec, hr⟩ := hl r (List.mem_cons_self ..)
      rw [List.cons_append, List.map_cons, hr, Res.all, ih fun x hx => hl x (List.mem_cons_of_mem _ hx)]
      rfl
  have hrecs : valuesOf el rdConfig (packetWith (before ++ ⟨[], [.known 0 90 (.octetArray b)]⟩ :: after)) =
      Res.all ((before ++ ⟨[], [.known 0 90 (.octetArray b)]⟩ :: after).map fun r => recordOf el rdConfig r.fields) := by
    simp only [valuesOf, packetWith, recordsOf, List.flatMap_cons, List.flatMap_nil, List.append_nil]
  rw [hrecs]
  exact hall before hok

example : valuesOf demoElements rdConfig (packetWith [⟨[], []⟩, ⟨[], [.known 0 90 (.octetArray [1])]⟩, ⟨[], []⟩]) = .err .conversion :=
  (c236_distinguisher_disproved demoElements rfl [⟨[], []⟩] [⟨[], []⟩] [1] (by decide) (by intro r hr; rw [List.mem_singleton] at hr; subst hr; exact ⟨_, rfl⟩)).2

/-! ## Selections -/

/-- C237: a single selection is the occurrence of the element with the number that is configured -/
theorem c237_single (fields : List Field) (r : FieldRef Ie) : (Select.single r).apply (mapFields fields) = (nth fields r.ie r.index).map fun f => [f] := by
  rw [Select.apply, Verif.Collector.look_nth]

/-- of a list of elements the first that the record has -/
theorem c237_coalesce (fields : List Field) (l : List (FieldRef Ie)) (f : Field) :
    (Select.coalesce l).apply (mapFields fields) = some [f] ↔
      ∃ pre r post, l = pre ++ r :: post ∧ (∀ x ∈ pre, nth fields x.ie x.index = none) ∧ nth fields r.ie r.index = some f := by
  rw [Select.apply]
  simp only [Verif.Collector.look_nth]
  induction l with
  | nil => simp
  | cons r l ih =>
    rw [List.findSome?_cons]
    cases hr : nth fields r.ie r.index with
    | some g =>
      simp only [Option.map_some, Option.some.injEq, List.cons.injEq, and_true]
      constructor
      · rintro rfl; exact ⟨[], r, l, rfl, by simp, hr⟩
      · rintro ⟨pre, r', post, he, hpre, hf⟩
        cases pre with
        | nil => cases he; rw [hr] at hf; cases hf; rfl
        | cons a pre => cases he; have := hpre _ (List.mem_cons_self ..); rw [hr] at this; cases this
    | none =>
      simp only [Option.map_none]
      rw [ih]
      constructor
      · rintro ⟨pre, r', post, rfl, hpre, hf⟩
        refine ⟨r :: pre, r', post, rfl, ?_, hf⟩
        intro x hx
        rcases List.mem_cons.mp hx with hx | hx
        · subst hx; exact hr
        · exact hpre x hx
      · rintro ⟨pre, r', post, he, hpre, hf⟩
        cases pre with
        | nil => cases he; rw [hr] at hf; cases hf
        | cons a pre => cases he; exact ⟨pre, r', post, rfl, fun x hx => hpre x (List.mem_cons_of_mem _ hx), hf⟩

theorem c237_coalesce_none (fields : List Field) (l : List (FieldRef Ie)) :
    (Select.coalesce l).apply (mapFields fields) = none ↔ ∀ r ∈ l, nth fields r.ie r.index = none := by
  rw [Select.apply, List.findSome?_eq_none_iff]
  simp only [Verif.Collector.look_nth, Option.map_eq_none_iff]

/-- of many elements all that the record has, in the order of the configuration -/
theorem c237_multi (fields : List Field) (l : List (FieldRef Ie)) (fs : List Field) :
    (Select.multi l).apply (mapFields fields) = some fs ↔ (l.filterMap fun r => nth fields r.ie r.index) = fs ∧ fs ≠ [] := by
  have hl : (mapFields fields).look = fun r : FieldRef Ie => nth fields r.ie r.index := funext (Verif.Collector.look_nth _)
  rw [Select.apply, hl]
  split
  · rename_i h
    rw [List.isEmpty_iff] at h
    rw [h]
    constructor
    · intro h; cases h
    · rintro ⟨rfl, h⟩; exact absurd rfl h
  · rename_i h
    rw [List.isEmpty_iff] at h
    constructor
    · intro hs; cases hs; exact ⟨rfl, h⟩
    · rintro ⟨rfl, _⟩; rfl

/-- the bits of a segment: 24 for VXLAN and NVGRE, 40 for others -/
def segmentBits : Encap → Nat
  | .vxlan | .nvgre => 24
  | .unassigned _ => 40

/-- the number of an encapsulation -/
def encapNumber : Encap → Nat
  | .vxlan => 1
  | .nvgre => 2
  | .unassigned v => v.toNat

/-- a segment of layer 2 is selected if its first octet is the encapsulation, and then without what is not its number -/
theorem c237_segment (fields : List Field) (r : FieldRef Ie) (e : Encap) (id : UInt64) (h : nth fields r.ie r.index = some (.known 0 351 (.unsigned64 id))) :
    (id.toNat / 2 ^ 56 = encapNumber e → ∃ x : UInt64, (Select.layer2 r e).apply (mapFields fields) = some [.known 0 351 (.unsigned64 x)] ∧ x.toNat = id.toNat % 2 ^ segmentBits e) ∧
      (id.toNat / 2 ^ 56 ≠ encapNumber e → (Select.layer2 r e).apply (mapFields fields) = none) := by
  have happ : (Select.layer2 r e).apply (mapFields fields) = if (id >>> 56).toUInt8 = e.code then some [.known 0 351 (.unsigned64 (id &&& e.mask))] else none := by
    rw [Select.apply, Verif.Collector.look_nth, h]
    rfl
  have hid := id.toNat_lt
  have htop : (id >>> 56).toUInt8.toNat = id.toNat / 2 ^ 56 := by
    rw [UInt64.toNat_toUInt8, UInt64.toNat_shiftRight]
    simp only [UInt64.reduceToNat, Nat.reduceMod, Nat.shiftRight_eq_div_pow]
    exact Nat.mod_eq_of_lt (by omega)
  have hcode : e.code.toNat = encapNumber e := by cases e <;> rfl
  have hiff : (id >>> 56).toUInt8 = e.code ↔ id.toNat / 2 ^ 56 = encapNumber e := by
    rw [← htop, ← hcode]
    exact UInt8.toNat_inj.symm
  refine ⟨fun h1 => ⟨id &&& e.mask, by rw [happ, if_pos (hiff.mpr h1)], ?_⟩, fun h1 => by rw [happ, if_neg fun h2 => h1 (hiff.mp h2)]⟩
  rw [UInt64.toNat_and]
  have hm : e.mask.toNat = 2 ^ segmentBits e - 1 := by cases e <;> rfl
  rw [hm, Nat.and_two_pow_sub_one_eq_mod]

example : (Select.layer2 ⟨layer2SegmentId, 0⟩ .vxlan).apply (mapFields [.known 0 351 (.unsigned64 0x0100000012345678)]) = some [.known 0 351 (.unsigned64 0x345678)] := by decide +kernel
example : (Select.coalesce [⟨.known 0 83 .string, 0⟩, ⟨.known 0 82 .string, 0⟩]).apply (mapFields demoFields) = some [.known 0 82 (.string "ETH0")] :=
  (c237_coalesce _ _ _).mpr ⟨[⟨.known 0 83 .string, 0⟩], ⟨.known 0 82 .string, 0⟩, [], rfl, by decide, by decide⟩

/-! ## Numbers -/

/-- the number that a value of a record is -/
def numberOf : Value → Option Int
  | .unsigned8 x => some x.toNat
  | .unsigned16 x => some x.toNat
  | .unsigned32 x => some x.toNat
  | .unsigned64 x => some x.toNat
  | .signed32 x => some x.toInt
  | _ => none

/-- the number that is published -/
def publishedNumber : Cell → Option Int
  | .plain (.int v) | .plain (.long v) | .branch (.int v) | .branch (.long v) => some v
  | _ => none

/-- a record has a field for every name, with what is configured for it -/
theorem record_mem {el : Elements} {cfg : OutputConfig} {fields : List Field} {rec : List (Text × Cell)} (h : recordOf el cfg fields = .ok rec) {n : Text} {c : FieldConfig}
    (hm : (n, c) ∈ cfg) (hn : ¬ primPrefix <+: n) : (n, cellFor el (mapFields fields) c) ∈ rec := by
  unfold recordOf at h
  obtain ⟨⟨F, P⟩, hcell, he⟩ := map_some h
  obtain ⟨h1, _, _, _⟩ := cells_ok hcell
  have hf : isField (n, c) = true := by
    cases hc : isField (n, c) with
    | true => rfl
    | false => exact absurd (strip_iff.mp hc) hn
  have hF : (n, cellFor el (mapFields fields) c) ∈ F := by
    rw [h1, List.nil_append]
    exact List.mem_map.mpr ⟨(n, c), List.mem_filter.mpr ⟨hm, hf⟩, rfl⟩
  simp only at he
  split at he
  · rw [← he]; exact hF
  · rw [← he]; exact List.mem_append_left _ hF

theorem plain_number {el : Elements} {f : Field} {r : RawValue} (h : native el f = some r) : toRaw el f = .ok r := by rw [toRaw, h]

/-- C238: the number of an element that is published as it is is the number of the record, where it is less than 2^63 and the element has no names for its values -/
theorem c238_numbers_partial {el : Elements} {cfg : OutputConfig} {fields : List Field} {rec : List (Text × Cell)} (h : recordOf el cfg fields = .ok rec) {n : Text} {r : FieldRef Ie}
    {d : Option RawValue} (hm : (n, ⟨.single r, d, .identity⟩) ∈ cfg) (hn : ¬ primPrefix <+: n) {p : UInt32} {i : UInt16} {v : Value} {k : Int}
    (hf : nth fields r.ie r.index = some (.known p i v)) (hs : el.sub (.known p i v.kind) = false) (hk : numberOf v = some k) (hlt : k < 2 ^ 63) :
    ∃ c, (n, c) ∈ rec ∧ publishedNumber c = some k := by
  refine ⟨_, record_mem h hm hn, ?_⟩
  have hraw : ∃ raw, toRaw el (.known p i v) = .ok raw ∧ (raw.toAvro = .int k ∨ raw.toAvro = .long k) := by
    cases v <;> simp only [numberOf, Option.some.injEq, reduceCtorEq] at hk
    · exact ⟨.u8 _, plain_number (if_neg (by rw [hs]; decide)), Or.inl (by rw [← hk]; rfl)⟩
    · exact ⟨.u16 _, plain_number (if_neg (by rw [hs]; decide)), Or.inl (by rw [← hk]; rfl)⟩
    · exact ⟨.u32 _, plain_number (if_neg (by rw [hs]; decide)), Or.inr (by rw [← hk]; rfl)⟩
    · rename_i x
      refine ⟨.u64 x, plain_number (if_neg (by rw [hs]; decide)), Or.inr ?_⟩
      rw [RawValue.toAvro, ← hk]
      congr 1
      rw [← hk] at hlt
      have : x.toInt64.toInt = (x.toBitVec).toInt := rfl
      rw [this, BitVec.toInt_eq_toNat_of_lt]
      · rfl
      · have : x.toBitVec.toNat = x.toNat := rfl
        omega
    · exact ⟨.i32 _, plain_number (if_neg (by rw [hs]; decide)), Or.inl (by rw [← hk]; rfl)⟩
  obtain ⟨raw, hraw, hav⟩ := hraw
  have hval : FieldConfig.value el ⟨.single r, d, .identity⟩ (mapFields fields) = .ok (some raw.toAvro) := by
    unfold FieldConfig.value
    simp only
    rw [c237_single, hf]
    simp only [Option.map_some, Transform.apply, List.getLast?_singleton]
    rw [hraw]
    rfl
  rw [cellFor, hval]
  simp only
  rcases hav with hav | hav <;> rw [hav] <;> cases d <;> rfl

example : ∃ c, ("bytes".toList, c) ∈ [("bytes".toList, Cell.plain (.long 1500)), ("interface".toList, .branch (.string "eth0".toList)), ("protocol".toList, .branch (.string "TCP".toList)),
    ("flags".toList, .null), ("custom_primitives".toList, .prims [("rd".toList, .string "0:100:7".toList)])] ∧ publishedNumber c = some 1500 :=
  c238_numbers_partial (el := demoElements) (cfg := demoConfig) (fields := demoFields) (by decide +kernel) (List.mem_of_getElem? (i := 0) rfl) (by decide) (p := 0) (i := 1) (v := .unsigned64 1500) (by decide) (by decide) rfl (by decide)

/-- an element that a record does not have is null, or the default -/
theorem c238_missing {el : Elements} {cfg : OutputConfig} {fields : List Field} {rec : List (Text × Cell)} (h : recordOf el cfg fields = .ok rec) {n : Text} {r : FieldRef Ie}
    {d : Option RawValue} {t : Transform} (hm : (n, ⟨.single r, d, t⟩) ∈ cfg) (hn : ¬ primPrefix <+: n) (hf : nth fields r.ie r.index = none) :
    (n, match d with | none => Cell.null | some d => .plain d.toAvro) ∈ rec := by
  have hval : FieldConfig.value el ⟨.single r, d, t⟩ (mapFields fields) = .ok (d.map RawValue.toAvro) := by
    unfold FieldConfig.value
    simp only
    rw [c237_single, hf]
    rfl
  have := record_mem h hm hn
  rw [cellFor, hval] at this
  cases d <;> exact this

example : ("flags".toList, Cell.null) ∈ [("bytes".toList, Cell.plain (.long 1500)), ("interface".toList, .branch (.string "eth0".toList)), ("protocol".toList, .branch (.string "TCP".toList)),
    ("flags".toList, .null), ("custom_primitives".toList, .prims [("rd".toList, .string "0:100:7".toList)])] :=
  c238_missing (el := demoElements) (cfg := demoConfig) (fields := demoFields) (by decide +kernel) (List.mem_of_getElem? (i := 3) rfl) (by decide) (by decide)

/-- counters from 2^63 are published as negative numbers -/
theorem c238_large_disproved (el : Elements) (hs : el.sub (.known 0 1 .unsigned64) = false) (x : UInt64) (hx : 2 ^ 63 ≤ x.toNat) :
    ∃ k : Int, k < 0 ∧ recordOf el [("bytes".toList, ⟨.single ⟨.known 0 1 .unsigned64, 0⟩, none, .identity⟩)] [.known 0 1 (.unsigned64 x)] = .ok [("bytes".toList, .branch (.long k))] := by
  refine ⟨x.toInt64.toInt, ?_, ?_⟩
  · have h1 : x.toInt64.toInt = (x.toBitVec).toInt := rfl
    have h2 : x.toBitVec.toNat = x.toNat := rfl
    have h3 := x.toNat_lt
    rw [h1, BitVec.toInt_eq_toNat_cond]
    split <;> omega
  · have hraw : toRaw el (.known 0 1 (.unsigned64 x)) = .ok (.u64 x) := by
      have hn : native el (.known 0 1 (.unsigned64 x)) = some (.u64 x) := if_neg (by rw [show (Value.unsigned64 x).kind = .unsigned64 from rfl, hs]; decide)
      rw [toRaw, hn]
    have hval : FieldConfig.value el ⟨.single ⟨.known 0 1 .unsigned64, 0⟩, none, .identity⟩ (mapFields [.known 0 1 (.unsigned64 x)]) = .ok (some (.long x.toInt64.toInt)) := by
      unfold FieldConfig.value
      simp only
      have : nth [Field.known 0 1 (.unsigned64 x)] (.known 0 1 .unsigned64) 0 = some (.known 0 1 (.unsigned64 x)) := rfl
      rw [c237_single, this]
      simp only [Option.map_some, Transform.apply, List.getLast?_singleton]
      rw [hraw]
      rfl
    rw [recordOf, cellsFrom, hval]
    rfl

/-! ## Times -/

/-- milliseconds since 1970 -/
def millisOf (t : Time) : Int := t.secs * 1000 + (t.nanos / 1000000 : Nat)

/-- the time of a field -/
def timeOf : Field → Option Time
  | .known _ _ (.seconds t) | .known _ _ (.millis t) | .known _ _ (.micros t) | .known _ _ (.nanos t) => some t
  | _ => none

/-- the text that is published -/
def publishedText : Cell → Option Text
  | .plain (.string v) | .branch (.string v) => some v
  | _ => none

/-- C239: a time that is to be published as milliseconds in text is published as its whole seconds -/
theorem c239_seconds_partial {el : Elements} {cfg : OutputConfig} {fields : List Field} {rec : List (Text × Cell)} (h : recordOf el cfg fields = .ok rec) {n : Text} {r : FieldRef Ie}
    {d : Option RawValue} (hm : (n, ⟨.single r, d, .timestampMillis⟩) ∈ cfg) (hn : ¬ primPrefix <+: n) {f : Field} {t : Time}
    (hf : nth fields r.ie r.index = some f) (ht : timeOf f = some t) : ∃ c, (n, c) ∈ rec ∧ publishedText c = some (toString t.secs).toList := by
  refine ⟨_, record_mem h hm hn, ?_⟩
  have htext : timeText f = .ok (secondsText t) := by
    cases f with
    | known p i v => cases v <;> simp only [timeOf, Option.some.injEq, reduceCtorEq] at ht <;> (subst ht; rfl)
    | vendorUnknown => cases ht
    | unknown => cases ht
  have hval : FieldConfig.value el ⟨.single r, d, .timestampMillis⟩ (mapFields fields) = .ok (some (.string (secondsText t))) := by
    unfold FieldConfig.value
    simp only
    rw [c237_single, hf]
    simp only [Option.map_some, Transform.apply, List.getLast?_singleton]
    rw [htext]
    rfl
  rw [cellFor, hval]
  cases d <;> rfl

def timeConfig : OutputConfig := [("start".toList, ⟨.single ⟨.known 0 152 .millis, 0⟩, none, .timestampMillis⟩)]

example : ∃ c, ("start".toList, c) ∈ [("start".toList, Cell.branch (.string "1700000000".toList))] ∧ publishedText c = some (toString (1700000000 : Int)).toList :=
  c239_seconds_partial (el := demoElements) (cfg := timeConfig) (fields := [.known 0 152 (.millis ⟨1700000000, 123000000⟩)]) (by decide +kernel) (List.mem_of_getElem? (i := 0) rfl) (by decide) (f := .known 0 152 (.millis ⟨1700000000, 123000000⟩)) (by decide) (t := ⟨1700000000, 123000000⟩) rfl

/-- the milliseconds are lost -/
theorem c239_millis_disproved (el : Elements) : timeConfig.validate = .ok () ∧
    ∃ (t t' : Time) (rec : List (Text × Cell)), millisOf t ≠ millisOf t' ∧ recordOf el timeConfig [.known 0 152 (.millis t)] = .ok rec ∧ recordOf el timeConfig [.known 0 152 (.millis t')] = .ok rec ∧
      rec ≠ [("start".toList, .branch (.string (toString (millisOf t)).toList))] ∧ rec ≠ [("start".toList, .branch (.string (toString (millisOf t')).toList))] :=
  ⟨rfl, ⟨1700000000, 123000000⟩, ⟨1700000000, 456000000⟩, [("start".toList, .branch (.string "1700000000".toList))], by decide, by rfl, by rfl, by decide +kernel, by decide +kernel⟩

/-! ## Records of packets -/

/-- the data records of the sets of a packet, in their order -/
inductive RecordsOfSets {κ φ : Type} : List (FlowSet κ φ) → List (DataRecord φ) → Prop where
  | nil : RecordsOfSets [] []
  | data {id l sets rs} : RecordsOfSets sets rs → RecordsOfSets (.data id l :: sets) (l ++ rs)
  | other {s sets rs} : (∀ id l, s ≠ .data id l) → RecordsOfSets sets rs → RecordsOfSets (s :: sets) rs

theorem recordsOf_sets {κ φ : Type} {sets : List (FlowSet κ φ)} {rs : List (DataRecord φ)} (h : RecordsOfSets sets rs) : recordsOf sets = rs := by
  induction h with
  | nil => rfl
  | data _ ih => rw [← ih]; rfl
  | @other s sets rs hs _ ih =>
    rw [← ih]
    cases s with
    | data id l => exact absurd rfl (hs id l)
    | template => rfl
    | options => rfl

theorem records_all {φ : Type} {el : Elements} {cfg : OutputConfig} {rs : List (DataRecord φ)} {recs : List (List (Text × Cell))} :
    Res.all (rs.map fun r => recordOf el cfg r.fields) = .ok recs ↔ recs.length = rs.length ∧ ∀ (k : Nat) (r : DataRecord φ), rs[k]? = some r → ∃ rec, recs[k]? = some rec ∧ recordOf el cfg r.fields = .ok rec := by
  constructor
  · intro h
    have h := all_ok h
    have hlen := congrArg List.length h
    rw [List.length_map, List.length_map] at hlen
    refine ⟨hlen.symm, fun k r hk => ?_⟩
    have hk2 := congrArg (·[k]?) h
    simp only [List.getElem?_map, hk, Option.map_some] at hk2
    cases hrec : recs[k]? with
    | none => rw [hrec] at hk2; cases hk2
    | some rec => rw [hrec] at hk2; exact ⟨rec, rfl, Option.some.inj hk2⟩
  · rintro ⟨hlen, h⟩
    have : (rs.map fun r => recordOf el cfg r.fields) = recs.map .ok := by
      apply List.ext_getElem?
      intro k
      rw [List.getElem?_map, List.getElem?_map]
      cases hk : rs[k]? with
      | none =>
        have : recs[k]? = none := List.getElem?_eq_none (by rw [hlen]; exact List.getElem?_eq_none_iff.mp hk)
        rw [this]
        rfl
      | some r =>
        obtain ⟨rec, h1, h2⟩ := h k r hk
        rw [h1, Option.map_some, Option.map_some, h2]
    rw [this]
    exact all_map_ok recs

/-- C240: if a packet is published, then each of its data records is, in their order, with what is published of the fields of the record and nothing of its scope -/
theorem c240_records_partial {el : Elements} {cfg : OutputConfig} {p : IpfixPacket} {rs : List (DataRecord Field)} {recs : List (List (Text × Cell))} (hr : RecordsOfSets p.sets rs) :
    valuesOf el cfg (.ipfix p) = .ok recs ↔ recs.length = rs.length ∧ ∀ (k : Nat) (r : DataRecord Field), rs[k]? = some r → ∃ rec, recs[k]? = some rec ∧ recordOf el cfg r.fields = .ok rec := by
  rw [valuesOf, recordsOf_sets hr]
  exact records_all

/-- the same of packets of NetFlow -/
theorem c240_netflow_partial {el : Elements} {cfg : OutputConfig} {p : NetflowPacket} {rs : List (DataRecord ScopeField)} {recs : List (List (Text × Cell))} (hr : RecordsOfSets p.sets rs) :
    valuesOf el cfg (.netflow p) = .ok recs ↔ recs.length = rs.length ∧ ∀ (k : Nat) (r : DataRecord ScopeField), rs[k]? = some r → ∃ rec, recs[k]? = some rec ∧ recordOf el cfg r.fields = .ok rec := by
  rw [valuesOf, recordsOf_sets hr]
  exact records_all

example : RecordsOfSets (κ := Spec) (φ := Field) [.template [], .data 300 [⟨[], demoFields⟩], .data 301 [⟨[.known 0 1 (.unsigned64 1)], []⟩]] [⟨[], demoFields⟩, ⟨[.known 0 1 (.unsigned64 1)], []⟩] :=
  .other (by intro _ _ h; cases h) (.data (.data .nil))

/-- records that would be published are lost with one that is not -/
theorem c240_alone_disproved (el : Elements) (h : el.rdNamed routeDistinguisher = true) : ∃ (good bad : DataRecord Field) (rec : List (Text × Cell)),
    valuesOf el rdConfig (packetWith [good]) = .ok [rec] ∧ publishedText ((rec.head?.map (·.2)).getD .null) = some "0:100:7".toList ∧ ∀ recs, valuesOf el rdConfig (packetWith [good, bad]) ≠ .ok recs := by
  let g : Field := .known 0 90 (.octetArray [0, 0, 0, 100, 0, 0, 0, 7])
  have ht : textOf el g = .ok "0:100:7".toList := by
    have : toText el g = some "0:100:7".toList := (if_pos h).trans (by decide +kernel)
    rw [textOf, this]
  have hval : FieldConfig.value el ⟨.single ⟨routeDistinguisher, 0⟩, none, .string⟩ (mapFields [g]) = .ok (some (.string "0:100:7".toList)) := by
    unfold FieldConfig.value
    simp only
    have : nth [g] routeDistinguisher 0 = some g := rfl
    rw [c237_single, this]
    simp only [Option.map_some, Transform.apply, List.getLast?_singleton]
    rw [ht]
    rfl
  have hrec : recordOf el rdConfig [g] = .ok [("rd".toList, .branch (.string "0:100:7".toList))] := by
    rw [recordOf, rdConfig, cellsFrom, hval]
    rfl
  refine ⟨⟨[], [g]⟩, ⟨[], [.known 0 90 (.octetArray [1])]⟩, [("rd".toList, .branch (.string "0:100:7".toList))], ?_, rfl, ?_⟩
  · have : valuesOf el rdConfig (packetWith [⟨[], [g]⟩]) = Res.all [recordOf el rdConfig [g]] := rfl
    rw [this, hrec]
    rfl
  · intro recs hr
    have := (c236_distinguisher_disproved el h [⟨[], [g]⟩] [] [1] (by decide) (by intro r hr; rw [List.mem_singleton] at hr; subst hr; exact ⟨_, hrec⟩)).2
    rw [List.singleton_append] at this
    rw [this] at hr
    cases hr

/-! ## Maps -/

/-- the key that a field should have in a map: its new name if there is one that is not empty, or the name of its element -/
def expectedKey (el : Elements) (rn : Option (List (Ie × KeyRename))) (f : Field) : Text :=
  match rn.bind (·.look f.ie) with
  | some r => if r.key = [] then el.name f.ie else r.key
  | none => el.name f.ie

/-- the value that it should have: its text, or what stands for it -/
def expectedValue (rn : Option (List (Ie × KeyRename))) (f : Field) (t : Text) : Text :=
  match rn.bind (·.look f.ie) with
  | some r => match r.vals.bind (·.look t) with
    | some v => v
    | none => t
  | none => t

theorem mapEntry_expected {el : Elements} {rn : Option (List (Ie × KeyRename))} {f : Field} {x : Text × Text} (h : mapEntry el rn f = .ok x) :
    ∃ t, toText el f = some t ∧ x = (expectedKey el rn f, expectedValue rn f t) := by
  unfold mapEntry at h
  obtain ⟨t, ht, he⟩ := map_some h
  refine ⟨t, ?_, ?_⟩
  · unfold textOf at ht
    split at ht
    · rename_i hs; cases ht; exact hs
    · cases ht
  · rw [← he]
    unfold expectedKey expectedValue
    cases rn.bind (·.look f.ie) with
    | none => rfl
    | some r =>
      simp only [List.isEmpty_iff]
      congr 1
      cases r.vals.bind (·.look t) <;> rfl

theorem fold_put {k v : Text} : ∀ (l m : List (Text × Text)), (∀ x ∈ l, x.1 = k → x.2 = v) → (m.look k = some v ∨ ∃ x ∈ l, x.1 = k) →
    (l.foldl (fun m x => Verif.Collector.put m x.1 x.2) m).look k = some v
  | [], m, _, h => by
    rcases h with h | ⟨_, h, _⟩
    · exact h
    · cases h
  | x :: l, m, hv, h => by
    rw [List.foldl_cons]
    refine fold_put l _ (fun y hy => hv y (List.mem_cons_of_mem _ hy)) ?_
    by_cases hk : x.1 = k
    · left
      rw [Verif.Collector.lookup_put, if_pos hk, hv x (List.mem_cons_self ..) hk]
    · rcases h with h | ⟨y, hy, hyk⟩
      · left; rw [Verif.Collector.lookup_put, if_neg hk]; exact h
      · rcases List.mem_cons.mp hy with hy | hy
        · subst hy; exact absurd hyk hk
        · exact Or.inr ⟨y, hy, hyk⟩

/-- the map that is published -/
def publishedMap : Cell → Option (List (Text × Text))
  | .plain (.map v) | .branch (.map v) => some v
  | _ => none

/-- C241: a map of many elements has each of those that the record has under its key, where no other one has the same key -/
theorem c241_map_partial {el : Elements} {cfg : OutputConfig} {fields : List Field} {rec : List (Text × Cell)} (h : recordOf el cfg fields = .ok rec) {n : Text} {l : List (FieldRef Ie)}
    {d : Option RawValue} {rn : Option (List (Ie × KeyRename))} (hm : (n, ⟨.multi l, d, .mapAgg rn⟩) ∈ cfg) (hn : ¬ primPrefix <+: n) {r : FieldRef Ie} (hr : r ∈ l) {f : Field}
    (hf : nth fields r.ie r.index = some f) (hd : ∀ r' ∈ l, ∀ f', nth fields r'.ie r'.index = some f' → expectedKey el rn f' = expectedKey el rn f → f' = f) :
    ∃ c m t, (n, c) ∈ rec ∧ publishedMap c = some m ∧ toText el f = some t ∧ m.look (expectedKey el rn f) = some (expectedValue rn f t) := by
  have hok : ∃ v, FieldConfig.value el ⟨.multi l, d, .mapAgg rn⟩ (mapFields fields) = .ok v := by
    unfold recordOf at h
    obtain ⟨⟨F, P⟩, hcell, _⟩ := map_some h
    exact (cells_ok hcell).2.1 _ hm
  obtain ⟨v, hok⟩ := hok
  have hfm : f ∈ l.filterMap fun r => nth fields r.ie r.index := List.mem_filterMap.mpr ⟨r, hr, hf⟩
  have hsel : (Select.multi l).apply (mapFields fields) = some (l.filterMap fun r => nth fields r.ie r.index) := (c237_multi ..).mpr ⟨rfl, List.ne_nil_of_mem hfm⟩
  have hne : (l.filterMap fun r => nth fields r.ie r.index).isEmpty = false := by
    cases hh : (l.filterMap fun r => nth fields r.ie r.index) with
    | nil => rw [hh] at hfm; cases hfm
    | cons => rfl
  have hval : FieldConfig.value el ⟨.multi l, d, .mapAgg rn⟩ (mapFields fields) =
      ((Res.all ((l.filterMap fun r => nth fields r.ie r.index).map (mapEntry el rn))).map fun l => some (RawValue.stringMap (l.foldl (fun m x => Verif.Collector.put m x.1 x.2) []))).map
        fun v => (v.or d).map RawValue.toAvro := by
    unfold FieldConfig.value
    simp only
    rw [hsel, Transform.apply]
    simp only [hne]
    rfl
  have hok2 := hok
  rw [hval] at hok2
  obtain ⟨a, ha, _⟩ := map_some hok2
  obtain ⟨ents, hents, _⟩ := map_some ha
  have hall := all_ok hents
  have hentry : ∀ g ∈ (l.filterMap fun r => nth fields r.ie r.index), ∃ x ∈ ents, mapEntry el rn g = .ok x := by
    intro g hg
    have : mapEntry el rn g ∈ ents.map (.ok : _ → Res ConvErr _) := by rw [← hall]; exact List.mem_map.mpr ⟨g, hg, rfl⟩
    obtain ⟨x, hx, he⟩ := List.mem_map.mp this
    exact ⟨x, hx, he.symm⟩
  have hback : ∀ x ∈ ents, ∃ g ∈ (l.filterMap fun r => nth fields r.ie r.index), mapEntry el rn g = .ok x := by
    intro x hx
    have : (.ok x : Res ConvErr _) ∈ (l.filterMap fun r => nth fields r.ie r.index).map (mapEntry el rn) := by rw [hall]; exact List.mem_map.mpr ⟨x, hx, rfl⟩
    obtain ⟨g, hg, he⟩ := List.mem_map.mp this
    exact ⟨g, hg, he⟩
  obtain ⟨x, hx, hfx⟩ := hentry f hfm
  obtain ⟨t, ht, hxe⟩ := mapEntry_expected hfx
  rw [hents] at hval
  refine ⟨_, _, t, record_mem h hm hn, ?_, ht, fold_put ents [] ?_ (Or.inr ⟨x, hx, by rw [hxe]⟩)⟩
  · rw [cellFor, hval]
    cases d <;> rfl
  · intro y hy hk
    obtain ⟨g, hg, hgy⟩ := hback y hy
    obtain ⟨t', ht', hye⟩ := mapEntry_expected hgy
    obtain ⟨r', hr', hg'⟩ := List.mem_filterMap.mp hg
    rw [hye] at hk
    have := hd r' hr' g hg' hk
    subst this
    rw [ht] at ht'
    cases ht'
    rw [hye]

def mapConfig (l : List (FieldRef Ie)) : OutputConfig := [("counters".toList, ⟨.multi l, none, .mapAgg none⟩)]

example : ∃ c m t, ("counters".toList, c) ∈ [("counters".toList, Cell.branch (.map [("interfaceName".toList, "ETH0".toList), ("octetDeltaCount".toList, "1500".toList)]))] ∧ publishedMap c = some m ∧
    toText demoElements (.known 0 1 (.unsigned64 1500)) = some t ∧ m.look (expectedKey demoElements none (.known 0 1 (.unsigned64 1500))) = some (expectedValue none (.known 0 1 (.unsigned64 1500)) t) :=
  c241_map_partial (el := demoElements) (cfg := mapConfig [⟨.known 0 82 .string, 0⟩, ⟨.known 0 1 .unsigned64, 0⟩]) (fields := demoFields) (by decide +kernel) (List.mem_of_getElem? (i := 0) rfl) (by decide)
    (r := ⟨.known 0 1 .unsigned64, 0⟩) (by decide) (by decide) (by
      intro r hr f hf hk
      rcases List.mem_cons.mp hr with rfl | hr
      · have : f = .known 0 82 (.string "ETH0") := by
          have h2 : nth demoFields (.known 0 82 .string) 0 = some (.known 0 82 (.string "ETH0")) := by decide
          rw [h2] at hf; exact (Option.some.inj hf).symm
        subst this
        revert hk
        decide
      · rw [List.mem_singleton] at hr
        subst hr
        have h2 : nth demoFields (.known 0 1 .unsigned64) 0 = some (.known 0 1 (.unsigned64 1500)) := by decide
        rw [h2] at hf; exact (Option.some.inj hf).symm)

/-- two occurrences of an element have one key, and the map keeps the last only -/
theorem c241_occurrences_disproved (el : Elements) (i : UInt16) (a b : UInt64) :
    (mapConfig [⟨.known 0 i .unsigned64, 0⟩, ⟨.known 0 i .unsigned64, 1⟩]).validate = .ok () ∧
      recordOf el (mapConfig [⟨.known 0 i .unsigned64, 0⟩, ⟨.known 0 i .unsigned64, 1⟩]) [.known 0 i (.unsigned64 a), .known 0 i (.unsigned64 b)] =
        .ok [("counters".toList, .branch (.map [(el.name (.known 0 i .unsigned64), el.shown 0 i (.unsigned64 b))]))] := by
  have h0 : nth [Field.known 0 i (.unsigned64 a), .known 0 i (.unsigned64 b)] (.known 0 i .unsigned64) 0 = some (.known 0 i (.unsigned64 a)) := by
    simp [nth, Verif.Collector.HasIe.ie, Field.ie, Value.kind]
  have h1 : nth [Field.known 0 i (.unsigned64 a), .known 0 i (.unsigned64 b)] (.known 0 i .unsigned64) 1 = some (.known 0 i (.unsigned64 b)) := by
    simp [nth, Verif.Collector.HasIe.ie, Field.ie, Value.kind]
  refine ⟨?_, ?_⟩
  · have hv : validateIe (.mapAgg none) (.known 0 i .unsigned64) = .ok () := by
      rw [validateIe]
      exact if_neg fun h => nomatch h.1
    simp only [mapConfig, OutputConfig.validate, FieldConfig.validate, validateSelect, Select.ies, List.map_cons, List.map_nil, validateIes, hv]
  · have hsel : (Select.multi [⟨.known 0 i .unsigned64, 0⟩, ⟨.known 0 i .unsigned64, 1⟩]).apply (mapFields [Field.known 0 i (.unsigned64 a), .known 0 i (.unsigned64 b)]) =
        some [.known 0 i (.unsigned64 a), .known 0 i (.unsigned64 b)] := (c237_multi ..).mpr ⟨by simp [h0, h1], by simp⟩
    have hval : FieldConfig.value el ⟨.multi [⟨.known 0 i .unsigned64, 0⟩, ⟨.known 0 i .unsigned64, 1⟩], none, .mapAgg none⟩ (mapFields [Field.known 0 i (.unsigned64 a), .known 0 i (.unsigned64 b)]) =
        .ok (some (.map [(el.name (.known 0 i .unsigned64), el.shown 0 i (.unsigned64 b))])) := by
      unfold FieldConfig.value
      simp only
      rw [hsel]
      simp [Transform.apply, mapEntry, textOf, toText, Res.all, Field.ie, Value.kind, Verif.Collector.put, RawValue.toAvro]
    rw [mapConfig, recordOf, cellsFrom, hval]
    rfl

/-! ## Labels -/

/-- the texts that are published -/
def publishedTexts : Cell → Option (List Text)
  | .plain (.array v) | .branch (.array v) => some v
  | _ => none

/-- entry of a stack of labels with its place, as it is published: the place, and all 24 bits of the entry -/
def entryText (place : Nat) (entry : BitVec 24) : Text := (toString place).toList ++ '-' :: (toString entry.toNat).toList

/-- C242: entries of a stack of labels are published in the order of the configuration with their places, for `mplsLabelStackSection` and those of places 2 to 10 -/
theorem c242_labels_partial {el : Elements} {cfg : OutputConfig} {fields : List Field} {rec : List (Text × Cell)} (h : recordOf el cfg fields = .ok rec) {n : Text} {l : List (FieldRef Ie)}
    {d : Option RawValue} (hm : (n, ⟨.multi l, d, .mplsIndex⟩) ∈ cfg) (hn : ¬ primPrefix <+: n) {entries : List (Nat × BitVec 24)} (hne : entries ≠ [])
    (hp : ∀ x ∈ entries, 1 ≤ x.1 ∧ x.1 ≤ 10)
    (he : (l.filterMap fun r => nth fields r.ie r.index) = entries.map fun x => .known 0 (if x.1 = 1 then 316 else UInt16.ofNat (69 + x.1)) (.mpls x.2)) :
    ∃ c, (n, c) ∈ rec ∧ publishedTexts c = some (entries.map fun x => entryText x.1 x.2) := by
  refine ⟨_, record_mem h hm hn, ?_⟩
  have hsel : (Select.multi l).apply (mapFields fields) = some (entries.map fun x => .known 0 (if x.1 = 1 then 316 else UInt16.ofNat (69 + x.1)) (.mpls x.2)) :=
    (c237_multi ..).mpr ⟨he, by simpa using hne⟩
  have htext : ∀ x ∈ entries, mplsText (.known 0 (if x.1 = 1 then 316 else UInt16.ofNat (69 + x.1)) (.mpls x.2)) = .ok (entryText x.1 x.2) := by
    rintro ⟨k, v⟩ hx
    obtain ⟨h1, h2⟩ := hp _ hx
    simp only at h1 h2 ⊢
    have hpos : mplsPosition 0 (if k = 1 then 316 else UInt16.ofNat (69 + k)) = some k := by
      have : ∀ k : Fin 11, 1 ≤ k.val → mplsPosition 0 (if k.val = 1 then 316 else UInt16.ofNat (69 + k.val)) = some k.val := by decide
      exact this ⟨k, by omega⟩ h1
    rw [mplsText, hpos]
    rfl
  have hall : Res.all ((entries.map fun x => Field.known 0 (if x.1 = 1 then 316 else UInt16.ofNat (69 + x.1)) (.mpls x.2)).map mplsText) = .ok (entries.map fun x => entryText x.1 x.2) := by
    rw [List.map_map]
    have : entries.map (mplsText ∘ fun x => Field.known 0 (if x.1 = 1 then 316 else UInt16.ofNat (69 + x.1)) (.mpls x.2)) = (entries.map fun x => entryText x.1 x.2).map .ok := by
      rw [List.map_map]
      exact List.map_congr_left htext
    rw [this]
    exact all_map_ok _
  have hval : FieldConfig.value el ⟨.multi l, d, .mplsIndex⟩ (mapFields fields) = .ok (some (.array (entries.map fun x => entryText x.1 x.2))) := by
    unfold FieldConfig.value
    simp only
    rw [hsel]
    unfold Transform.apply
    simp only
    rw [if_neg (by simpa using hne), hall]
    rfl
  rw [cellFor, hval]
  cases d <;> rfl

def labelConfig (l : List (FieldRef Ie)) : OutputConfig := [("labels".toList, ⟨.multi l, none, .mplsIndex⟩)]

example : ∃ c, ("labels".toList, c) ∈ [("labels".toList, Cell.branch (.array ["1-256".toList, "2-785".toList]))] ∧ publishedTexts c = some (([(1, 256), (2, 785)] : List (Nat × BitVec 24)).map fun x => entryText x.1 x.2) :=
  c242_labels_partial (el := demoElements) (cfg := labelConfig [⟨.known 0 316 .mpls, 0⟩, ⟨.known 0 73 .mpls, 0⟩, ⟨.known 0 71 .mpls, 0⟩]) (fields := [.known 0 71 (.mpls 785), .known 0 316 (.mpls 256)])
    (by decide +kernel) (List.mem_of_getElem? (i := 0) rfl) (by decide) (by decide) (by decide) (by decide)

/-- the label of an entry: its first 20 bits -/
def labelOf (entry : BitVec 24) : Nat := entry.toNat / 16

/-- the number that is published is that of the entry, with traffic class and end of stack, and not the label -/
theorem c242_number_disproved (el : Elements) : (labelConfig [⟨.known 0 71 .mpls, 0⟩]).validate = .ok () ∧ labelOf 0x000311 = 49 ∧
    recordOf el (labelConfig [⟨.known 0 71 .mpls, 0⟩]) [.known 0 71 (.mpls 0x000311)] = .ok [("labels".toList, .branch (.array ["2-785".toList]))] := ⟨by rfl, by decide, by rfl⟩

/-- the entry on top of the stack, `mplsTopLabelStackSection`, is refused -/
theorem c242_top_disproved (i : Nat) (l : List (FieldRef Ie)) (d : Option RawValue) (n : Text) (rest : OutputConfig) :
    OutputConfig.validate ((n, ⟨.multi (⟨.known 0 70 .mpls, i⟩ :: l), d, .mplsIndex⟩) :: rest) = .error .transform := by
  have hv : validateIe .mplsIndex (.known 0 70 .mpls) = .error .transform := by rfl
  simp only [OutputConfig.validate, FieldConfig.validate, validateSelect, Select.ies, List.map_cons, validateIes, hv]

end Verif.Props
