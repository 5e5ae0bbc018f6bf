import Verif.Collector.MapText
import Verif.Collector.Lemmas
import Verif.Collector.Spec
import Verif.Collector.Actor
import Verif.Flow.Codec
/-!
# What is published of flow records

`C` stands for `crates/collector/src/flow/config.rs`, `M` for `crates/collector/src/flow/mod.rs` and `G` for `crates/ipfix-code-generator/src/generator.rs`.

Which elements have a sub-registry, how elements and values are shown as text and how text is put to lower case are parameters. Avro schemas are kept as lists of names and types, in which a type is the text
that stands for it in the schema; text of errors and of the log is left out. The values `I8`, `I16`, `I64` and `F32` occur as defaults only, as no element has them.
-/
namespace Verif.FlowOut
open Verif.Flow
open Verif.Collector (Text FieldRef mapFields put)

/-- what is taken from registries and from the standard library -/
structure Elements where
  /-- the element has an enum of its own for its values, `subregistry.is_some()` -/
  sub : Ie → Bool
  /-- a value that is not a list of octets as text, `G:2630-2641` -/
  shown : UInt32 → UInt16 → Value → Text
  /-- an element as text -/
  name : Ie → Text
  /-- the name of the element ends with `VpnRouteDistinguisher`, `G:2757-2759` -/
  rdNamed : Ie → Bool
  /-- `TCPHeaderFlags::to_vec` -/
  flags : UInt8 → List Text
  /-- `str::to_lowercase` -/
  lower : Text → Text

/-- `to_string` of a number -/
def number (n : Nat) : Text := (toString n).toList

/-- `{:02x}` -/
def hexByte (b : UInt8) : Text := [Nat.digitChar (b.toNat / 16), Nat.digitChar (b.toNat % 16)]

/-- `Ipv4Addr` as text -/
def dotted (a b c d : UInt8) : Text := number a.toNat ++ '.' :: (number b.toNat ++ '.' :: (number c.toNat ++ '.' :: number d.toNat))

/-- `u16::from_be_bytes`, `u32::from_be_bytes` -/
def be (l : List UInt8) : Nat := l.foldl (fun n b => n * 256 + b.toNat) 0

/-- a route distinguisher as text, `G:2649-2693` -/
def rdText : Bytes → Option Text
  | [t0, t1, a, b, c, d, e, f] =>
    let ty := be [t0, t1]
    some (if ty = 0 then "0:".toList ++ (number (be [a, b]) ++ ':' :: number (be [c, d, e, f]))
      else if ty = 1 then "1:".toList ++ (dotted a b c d ++ ':' :: number (be [e, f]))
      else if ty = 2 then "2:".toList ++ (number (be [a, b, c, d]) ++ ':' :: number (be [e, f]))
      else number ty ++ ':' :: (hexByte a ++ hexByte b ++ hexByte c ++ hexByte d ++ ':' :: (hexByte e ++ hexByte f)))
  | _ => none

/-- `TryInto<String> for Field`, `G:2613-2697` -/
def toText (el : Elements) : Field → Option Text
  | .known p i (.octetArray b) => if el.rdNamed (.known p i .octetArray) then rdText b else none
  | .known _ _ (.basicList _) | .known _ _ (.subTemplateList _) | .known _ _ (.subTemplateMultiList _) | .known _ _ (.unsigned256 _) => none
  | .known _ _ (.mpls v) => some (number v.toNat)
  | .known p i v => some (el.shown p i v)
  | .vendorUnknown _ _ _ | .unknown _ _ _ => none

/-- `RawValue`, `M:37-54` -/
inductive RawValue where
  | bytes (v : Bytes)
  | u8 (v : UInt8)
  | u16 (v : UInt16)
  | u32 (v : UInt32)
  | u64 (v : UInt64)
  | i8 (v : Int8)
  | i16 (v : Int16)
  | i32 (v : Int32)
  | i64 (v : Int64)
  | f32 (bits : UInt32)
  | f64 (bits : UInt64)
  | boolean (v : Bool)
  | string (v : Text)
  | timestampMillis (v : Int64)
  | stringArray (v : List Text)
  | stringMap (v : List (Text × Text))
  deriving DecidableEq, Repr

/-- `AvroValueKind` as far as it is used -/
inductive AvroKind where
  | bytes | int | long | float | double | boolean | string | timestampMillis | timestampMicros | timestampNanos | array | map
  deriving DecidableEq, Repr

/-- `RawValue::avro_type`, `M:57-76` -/
def RawValue.avroType : RawValue → AvroKind
  | bytes _ => .bytes
  | u8 _ | u16 _ | i8 _ | i16 _ | i32 _ => .int
  | u32 _ | u64 _ | i64 _ => .long
  | f32 _ => .float
  | f64 _ => .double
  | boolean _ => .boolean
  | string _ => .string
  | timestampMillis _ => .timestampMillis
  | stringArray _ => .array
  | stringMap _ => .map

/-- values of Avro, `apache_avro::types::Value`, without null and unions -/
inductive Scalar where
  | bytes (v : Bytes)
  | int (v : Int)
  | long (v : Int)
  | float (bits : UInt32)
  | double (bits : UInt64)
  | boolean (v : Bool)
  | string (v : Text)
  | timestampMillis (v : Int)
  | array (v : List Text)
  | map (v : List (Text × Text))
  deriving DecidableEq, Repr

/-- `into_avro_value`, `M:78-104` -/
def RawValue.toAvro : RawValue → Scalar
  | bytes v => .bytes v
  | u8 v => .int v.toNat
  | u16 v => .int v.toNat
  | u32 v => .long v.toNat
  | u64 v => .long v.toInt64.toInt
  | i8 v => .int v.toInt
  | i16 v => .int v.toInt
  | i32 v => .int v.toInt
  | i64 v => .long v.toInt
  | f32 v => .float v
  | f64 v => .double v
  | boolean v => .boolean v
  | string v => .string v
  | timestampMillis v => .timestampMillis v.toInt
  | stringArray v => .array v
  | stringMap v => .map v

/-- what the match of `RawValue::from` gives, `M:136-178`: the value if the field has the type that its data type stands for. An element with a sub-registry has an enum, the flags of TCP have a type of their own,
an entry of a label stack is an array, and a time is no number. -/
def native (el : Elements) : Field → Option RawValue
  | .known p i v =>
    match v with
    | .macAddress _ | .string _ | .ipv4 _ | .ipv6 _ => some (.string (el.shown p i v))
    | .mpls _ | .tcpControlBits _ | .seconds _ | .millis _ | .micros _ | .nanos _ => none
    | v =>
      if el.sub (.known p i v.kind) then none
      else match v with
        | .octetArray b | .basicList b | .subTemplateList b | .subTemplateMultiList b => some (.bytes b)
        | .unsigned8 x => some (.u8 x)
        | .unsigned16 x => some (.u16 x)
        | .unsigned32 x => some (.u32 x)
        | .unsigned64 x => some (.u64 x)
        | .unsigned256 x => some (.bytes ((List.range 32).map fun k => UInt8.ofNat (x.toNat / 256 ^ (31 - k))))
        | .signed32 x => some (.i32 x)
        | .float64 x => some (.f64 x)
        | .boolean x => some (.boolean x)
        | _ => none
  | .vendorUnknown _ _ _ | .unknown _ _ _ => none

/-- `FlowAvroConverterError`, `C:796-809`; those that are never made are left out -/
inductive ConvErr where
  | conversion
  | unexpected
  | null (name : Text)
  deriving DecidableEq, Repr

/-- `RawValue::from`, `M:133-183`: what has no value of its own is text, and what has no text is a panic -/
def toRaw (el : Elements) (f : Field) : Res ConvErr RawValue :=
  match native el f with
  | some r => .ok r
  | none =>
    match toText el f with
    | some t => .ok (.string t)
    | none => .fault .panic

/-! ## Configuration -/

/-- `ie_avro_type`, `C:766-793`; elements that are not known are octets -/
def ieAvroType : Ie → AvroKind
  | .known _ _ k =>
    match k with
    | .octetArray | .mpls | .basicList | .subTemplateList | .subTemplateMultiList | .unsigned256 => .bytes
    | .unsigned8 | .unsigned16 | .tcpControlBits | .signed32 => .int
    | .unsigned32 | .unsigned64 => .long
    | .float64 => .double
    | .boolean => .boolean
    | .macAddress | .string | .ipv4 | .ipv6 => .string
    | .seconds | .millis => .timestampMillis
    | .micros => .timestampMicros
    | .nanos => .timestampNanos
  | .vendorUnknown _ _ | .unknown _ _ => .bytes

/-- `Layer2SegmentId`, `C:698-702` -/
inductive Encap where
  | vxlan
  | nvgre
  | unassigned (v : UInt8)
  deriving DecidableEq, Repr

/-- `u8::from`, `C:703-711` -/
def Encap.code : Encap → UInt8
  | vxlan => 1
  | nvgre => 2
  | unassigned v => v

/-- `get_mask`, `C:712-726` -/
def Encap.mask : Encap → UInt64
  | vxlan => 0xFFFFFF
  | nvgre => 0xFFFFFF
  | unassigned _ => 0xFFFFFFFFFF

/-- `FieldSelectFunction`, `C:576-581` -/
inductive Select where
  | single (r : FieldRef Ie)
  | coalesce (l : List (FieldRef Ie))
  | multi (l : List (FieldRef Ie))
  | layer2 (r : FieldRef Ie) (encap : Encap)
  deriving DecidableEq, Repr

/-- `KeyValueRename`, `C:826-830` -/
structure KeyRename where
  key : Text
  vals : Option (List (Text × Text))
  deriving DecidableEq, Repr

/-- `FieldTransformFunction`, `C:834-866` -/
inductive Transform where
  | identity
  | string
  | trimmed
  | lowercase
  | timestampMillis
  | rename (l : List (Text × Text))
  | stringArray
  | mplsIndex
  | arrayAgg
  | mapAgg (l : Option (List (Ie × KeyRename)))
  deriving DecidableEq, Repr

/-- `FieldConfig`, `C:238-249` -/
structure FieldConfig where
  select : Select
  default : Option RawValue
  transform : Transform
  deriving DecidableEq, Repr

/-- elements that are named in the code, with their numbers in the registry of IANA -/
def tcpControlBits : Ie := .known 0 6 .tcpControlBits
def routeDistinguisher : Ie := .known 0 90 .octetArray
def layer2SegmentId : Ie := .known 0 351 .unsigned64

/-- `mplsLabelStackSection` and `mplsLabelStackSection2` to `10`: their numbers, and the positions they are given, `C:980-991` -/
def mplsPosition (p : UInt32) (i : UInt16) : Option Nat :=
  if p ≠ 0 then none
  else if i = 316 then some 1
  else if 71 ≤ i ∧ i ≤ 79 then some (i.toNat - 69)
  else none

/-- `FieldConfigValidationError`, `C:219-231` -/
inductive ConfigErr where
  | emptyCoalesce
  | emptyMulti
  | transform
  | default
  deriving DecidableEq, Repr

/-- the elements that are selected, `C:255-260` -/
def Select.ies : Select → List Ie
  | single r => [r.ie]
  | coalesce l => l.map (·.ie)
  | multi l => l.map (·.ie)
  | layer2 r _ => [r.ie]

/-- `avro_type` of what is selected, `C:593-600`, `C:619-621`, `C:644-659`, `C:679-681`, `C:742-744` -/
def Select.avroType : Select → AvroKind
  | single r => ieAvroType r.ie
  | coalesce [] => .string
  | coalesce (r :: l) => if l.any fun x => ieAvroType x.ie ≠ ieAvroType r.ie then .string else ieAvroType r.ie
  | multi _ => .array
  | layer2 _ _ => .long

/-- `FieldTransformFunction::avro_type`, `C:873-886` -/
def Transform.avroType : Transform → AvroKind → AvroKind
  | identity, k => k
  | string, _ | trimmed, _ | lowercase, _ | timestampMillis, _ | rename _, _ => .string
  | stringArray, _ | mplsIndex, _ | arrayAgg, _ => .array
  | mapAgg _, _ => .map

/-- `FieldConfig::avro_type`, `C:528-530` -/
def FieldConfig.avroType (c : FieldConfig) : AvroKind := c.transform.avroType c.select.avroType

/-- `is_nullable`, `C:524-526`; all that is selected may be missing -/
def FieldConfig.nullable (c : FieldConfig) : Bool := c.default.isNone

/-- `validate_select_transform_compatibility`, `C:283-367` -/
def validateSelect (c : FieldConfig) : Except ConfigErr Unit :=
  match c.select, c.transform with
  | .multi l, .mapAgg (some m) => if m.all fun x => (l.map (·.ie)).contains x.1 then .ok () else .error .transform
  | .multi _, .arrayAgg | .multi _, .mapAgg none | .multi _, .mplsIndex => .ok ()
  | .multi _, _ => .error .transform
  | _, .arrayAgg | _, .mapAgg _ | _, .mplsIndex => .error .transform
  | .coalesce l, .identity => if l.any fun x => some (ieAvroType x.ie) ≠ l.head?.map (fun r => ieAvroType r.ie) then .error .transform else .ok ()
  | .layer2 r _, _ => if r.ie ≠ layer2SegmentId then .error .transform else .ok ()
  | _, _ => .ok ()

/-- `validate_ie_compatibility`, `C:369-439` -/
def validateIe (t : Transform) (ie : Ie) : Except ConfigErr Unit :=
  match t with
  | .timestampMillis =>
    match ie with
    | .known _ _ .seconds | .known _ _ .millis | .known _ _ .micros | .known _ _ .nanos => .ok ()
    | _ => .error .transform
  | .stringArray => if ie ≠ tcpControlBits then .error .transform else .ok ()
  | .mplsIndex =>
    match ie with
    | .known p i .mpls => if (mplsPosition p i).isSome then .ok () else .error .transform
    | _ => .error .transform
  | .string | .trimmed | .lowercase | .rename _ | .arrayAgg | .mapAgg _ => if ieAvroType ie = .bytes ∧ ie ≠ routeDistinguisher then .error .transform else .ok ()
  | .identity => .ok ()

/-- the loop of `C:272-274` -/
def validateIes (t : Transform) : List Ie → Except ConfigErr Unit
  | [] => .ok ()
  | ie :: l =>
    match validateIe t ie with
    | .error e => .error e
    | .ok () => validateIes t l

/-- `FieldConfig::validate`, `C:254-281`, with `validate_default`, `C:441-452` -/
def FieldConfig.validate (c : FieldConfig) : Except ConfigErr Unit :=
  match c.select with
  | .coalesce [] => .error .emptyCoalesce
  | .multi [] => .error .emptyMulti
  | _ =>
    match validateSelect c with
    | .error e => .error e
    | .ok () =>
      match validateIes c.transform c.select.ies with
      | .error e => .error e
      | .ok () =>
        match c.default with
        | none => .ok ()
        | some d => if c.avroType ≠ d.avroType then .error .default else .ok ()

/-- the fields of the output by their names, `FlowOutputConfig`, `C:57-59` -/
abbrev OutputConfig := List (Text × FieldConfig)

/-- `FlowOutputConfig::validate`, `C:62-69` -/
def OutputConfig.validate : OutputConfig → Except ConfigErr Unit
  | [] => .ok ()
  | (_, c) :: l =>
    match c.validate with
    | .error e => .error e
    | .ok () => OutputConfig.validate l

/-! ## Values -/

/-- `FieldSelect::apply`, `C:623-625`, `C:661-665`, `C:683-692`, `C:746-762`, over the map of the record -/
def Select.apply (flow : List (FieldRef Ie × Field)) : Select → Option (List Field)
  | single r => (flow.look r).map fun f => [f]
  | coalesce l => l.findSome? fun r => (flow.look r).map fun f => [f]
  | multi l =>
    let ret := l.filterMap flow.look
    if ret.isEmpty then none else some ret
  | layer2 r encap =>
    match flow.look r with
    | some (.known 0 351 (.unsigned64 id)) => if (id >>> 56).toUInt8 = encap.code then some [.known 0 351 (.unsigned64 (id &&& encap.mask))] else none
    | _ => none

/-- an error where there is no text -/
def textOf (el : Elements) (f : Field) : Res ConvErr Text :=
  match toText el f with
  | some t => .ok t
  | none => .err .conversion

/-- `timestamp` of a time as text; whole seconds -/
def secondsText (t : Time) : Text := (toString t.secs).toList

/-- a time as seconds, `C:934-941`, with `TryInto<DateTime<Utc>>` -/
def timeText : Field → Res ConvErr Text
  | .known _ _ (.seconds t) | .known _ _ (.millis t) | .known _ _ (.micros t) | .known _ _ (.nanos t) => .ok (secondsText t)
  | _ => .err .conversion

/-- the label of an entry with its position, `C:964-994` -/
def mplsText : Field → Res ConvErr Text
  | .known p i (.mpls v) =>
    match mplsPosition p i with
    | some n => .ok (number n ++ '-' :: number v.toNat)
    | none => .err .unexpected
  | _ => .err .unexpected

/-- results of all, or the first that is none -/
def Res.all {ε α : Type} : List (Res ε α) → Res ε (List α)
  | [] => .ok []
  | .ok a :: l => (Res.all l).map (a :: ·)
  | .err e :: _ => .err e
  | .fault x :: _ => .fault x

/-- key and value of a field in a map, `C:1013-1038` -/
def mapEntry (el : Elements) (rename : Option (List (Ie × KeyRename))) (f : Field) : Res ConvErr (Text × Text) :=
  (textOf el f).map fun v =>
    match rename.bind (·.look f.ie) with
    | some r => (if r.key.isEmpty then el.name f.ie else r.key, ((r.vals.bind (·.look v)).getD v))
    | none => (el.name f.ie, v)

/-- `trim_end_matches` of zeros -/
def trimZeros (t : Text) : Text := (t.reverse.dropWhile (· = Char.ofNat 0)).reverse

/-- `FieldTransformFunction::apply`, `C:888-1043` -/
def Transform.apply (el : Elements) (t : Transform) : Option (List Field) → Res ConvErr (Option RawValue)
  | none => .ok none
  | some fields =>
    match t with
    | .mplsIndex => if fields.isEmpty then .ok none else (Res.all (fields.map mplsText)).map fun l => some (.stringArray l)
    | .arrayAgg => if fields.isEmpty then .ok none else (Res.all (fields.map (textOf el))).map fun l => some (.stringArray l)
    | .mapAgg r => if fields.isEmpty then .ok none else (Res.all (fields.map (mapEntry el r))).map fun l => some (.stringMap (l.foldl (fun m x => put m x.1 x.2) []))
    | t =>
      match fields.getLast? with
      | none => .ok none
      | some f =>
        match t with
        | .string => (textOf el f).map fun x => some (.string x)
        | .trimmed => (textOf el f).map fun x => some (.string (trimZeros x))
        | .lowercase => (textOf el f).map fun x => some (.string (el.lower x))
        | .timestampMillis => (timeText f).map fun x => some (.string x)
        | .rename l => (textOf el f).map fun x => some (.string ((l.look x).getD x))
        | .stringArray =>
          match f with
          | .known _ _ (.tcpControlBits b) => .ok (some (.stringArray (el.flags b)))
          | _ => .err .conversion
        | _ => (toRaw el f).map some

/-- `FieldConfig::avro_value`, `C:532-543` -/
def FieldConfig.value (el : Elements) (c : FieldConfig) (flow : List (FieldRef Ie × Field)) : Res ConvErr (Option Scalar) :=
  (c.transform.apply el (c.select.apply flow)).map fun v => (v.or c.default).map RawValue.toAvro

/-- a field of an Avro record -/
inductive Cell where
  | null
  /-- the second branch of a union -/
  | branch (v : Scalar)
  | plain (v : Scalar)
  /-- the map of the custom primitives -/
  | prims (l : List (Text × Scalar))
  deriving DecidableEq, Repr

/-- `custom_primitives.` -/
def primPrefix : Text := "custom_primitives.".toList

/-- `strip_prefix` -/
def stripPrefix (pre t : Text) : Option Text := if pre.isPrefixOf t then some (t.drop pre.length) else none

/-- `contains` -/
def containsText (needle : Text) : Text → Bool
  | [] => needle.isEmpty
  | c :: t => needle.isPrefixOf (c :: t) || containsText needle t

/-- the loop of `get_avro_value_from_fields`, `C:116-136`: fields, and custom primitives -/
def cellsFrom (el : Elements) (flow : List (FieldRef Ie × Field)) : OutputConfig → List (Text × Cell) → List (Text × Scalar) → Res ConvErr (List (Text × Cell) × List (Text × Scalar))
  | [], fields, prims => .ok (fields, prims)
  | (name, c) :: l, fields, prims =>
    match c.value el flow with
    | .err e => .err e
    | .fault x => .fault x
    | .ok value =>
      match stripPrefix primPrefix name with
      | some stripped =>
        match value with
        | some v => cellsFrom el flow l fields (put prims stripped v)
        | none => cellsFrom el flow l fields prims
      | none =>
        if c.nullable then cellsFrom el flow l (fields ++ [(name, match value with | some v => .branch v | none => .null)]) prims
        else
          match value with
          | some v => cellsFrom el flow l (fields ++ [(name, .plain v)]) prims
          | none => .err (.null name)

/-- `get_avro_value_from_fields`, `C:105-145` -/
def recordOf (el : Elements) (cfg : OutputConfig) (fields : List Field) : Res ConvErr (List (Text × Cell)) :=
  (cellsFrom el (mapFields fields) cfg [] []).map fun r => if r.2.isEmpty then r.1 else r.1 ++ [("custom_primitives".toList, .prims r.2)]

/-- the records of the data sets of a packet -/
def recordsOf {κ φ : Type} (sets : List (FlowSet κ φ)) : List (DataRecord φ) := sets.flatMap fun
  | .data _ l => l
  | _ => []

/-- `get_avro_values`, `C:189-215` -/
def valuesOf (el : Elements) (cfg : OutputConfig) : FlowInfo → Res ConvErr (List (List (Text × Cell)))
  | .ipfix p => Res.all ((recordsOf p.sets).map fun r => recordOf el cfg r.fields)
  | .netflow p => Res.all ((recordsOf p.sets).map fun r => recordOf el cfg r.fields)

/-! ## Schema -/

/-- `{:?}` of a kind in lower case -/
def AvroKind.text : AvroKind → String
  | bytes => "bytes"
  | int => "int"
  | long => "long"
  | float => "float"
  | double => "double"
  | boolean => "boolean"
  | string => "string"
  | timestampMillis => "timestampmillis"
  | timestampMicros => "timestampmicros"
  | timestampNanos => "timestampnanos"
  | array => "array"
  | map => "map"

/-- the type of a field in the schema -/
inductive SchemaType where
  | simple (nullable : Bool) (name : String)
  | array (nullable : Bool) (items : String)
  | map (nullable : Bool) (values : String)
  /-- no type is written -/
  | missing
  deriving DecidableEq, Repr

/-- the kind of the items that is given to `get_record_schema`, `C:82-92` -/
def Transform.inner : Transform → Option String
  | stringArray | arrayAgg | mapAgg _ | mplsIndex => some "string"
  | _ => none

/-- `get_record_schema`, `C:454-522` -/
def FieldConfig.schema (c : FieldConfig) : SchemaType :=
  match c.avroType with
  | .array =>
    match c.transform.inner with
    | some i => .array c.nullable i
    | none => .missing
  | .map =>
    match c.transform.inner with
    | some i => .map c.nullable i
    | none => .missing
  | k => .simple c.nullable k.text

/-- `get_fields_schema`, `C:71-102`, and `get_avro_schema`, `C:149-169` -/
def schemaOf (cfg : OutputConfig) : List (Text × SchemaType) :=
  (cfg.filter fun x => !containsText primPrefix x.1).map (fun x => (x.1, x.2.schema)) ++
    if cfg.any fun x => containsText primPrefix x.1 then [("custom_primitives".toList, .map false "string")] else []

end Verif.FlowOut
