import Verif.Flow.Ie
import Verif.Core.HMap
import Verif.Core.Write
/-!
# IPFIX and NetFlow v9 packets

`D` stands for `crates/flow-pkt/src/wire/deserializer`, `S` for `crates/flow-pkt/src/wire/serializer`, `F` for
`crates/flow-pkt/src`. What is written twice in the code, once for each protocol, is here a definition with the
differences as parameters. `Vec::with_capacity` is not modelled.
-/
namespace Verif.Flow
open Parser

/-- `DecodingTemplate`, `F/ipfix.rs:34-70`, `F/netflow.rs:37-73`; `κ` is the type of the specifiers of scope fields -/
structure Template (κ : Type) where
  scope : List κ
  fields : List Spec
  processed : UInt64 := 0
  deriving DecidableEq, Repr

/-- `TemplatesMap` -/
abbrev Templates (κ : Type) := HMap UInt16 (Template κ)

/-- `DecodingTemplate::increment_processed_count`, `F/ipfix.rs:55-57`, of the template with that id -/
def Templates.count {κ : Type} (m : Templates κ) (id : UInt16) : Templates κ :=
  match m id with
  | some t => m.insert id { t with processed := t.processed + 1 }
  | none => m

/-- the errors of template records and options template records, `D/ipfix.rs:254-277`, `D/ipfix.rs:373-382` and
`D/netflow.rs:251-264`, `D/netflow.rs:313-323` -/
inductive RecordErr where
  | parse (e : ParseError)
  | invalidTemplateId (offset : Nat) (id : UInt16)
  | invalidScopeCount (offset : Nat) (scope total : UInt16)
  | spec (e : SpecErr)
  | scopeSpec (offset : Nat) (length : UInt16)
  deriving DecidableEq, Repr

/-- `SetParsingError`, `D/ipfix.rs:106-131`, `D/netflow.rs:116-141` -/
inductive SetErr where
  | parse (e : ParseError)
  | invalidLength (offset : Nat) (length : UInt16)
  | invalidSetId (offset : Nat) (id : UInt16)
  | noTemplate (offset : Nat) (id : UInt16)
  | padding (offset : Nat) (value : UInt8)
  | record (e : RecordErr)
  | data (e : FieldErr)
  deriving DecidableEq, Repr

variable {κ φ : Type}

/-- the id at the start of a record: at least 256; peeked at and then read, `D/ipfix.rs:391-402` -/
def parseTemplateId : Parser RecordErr UInt16 := do
  let off ← getOffset
  let id ← mapErr .parse peekU16
  if id < 256 then fail (.invalidTemplateId off id)
  else mapErr .parse readU16

/-- `for _ in 0..n { fields.push(FieldSpecifier::parse(cur)?) }` -/
def parseSpecs (reg : Registry) : Nat → Parser RecordErr (List Spec)
  | 0 => pure []
  | n + 1 => do
    let s ← mapErr .spec (Spec.parse reg)
    let l ← parseSpecs reg n
    pure (s :: l)

/-- `TemplateRecord` -/
structure TemplateRecord where
  id : UInt16
  fields : List Spec
  deriving DecidableEq, Repr

/-- `OptionsTemplateRecord` -/
structure OptionsRecord (κ : Type) where
  id : UInt16
  scope : List κ
  fields : List Spec
  deriving DecidableEq, Repr

/-- `TemplateRecord::parse`, `D/ipfix.rs:387-412`, `D/netflow.rs:327-352` -/
def TemplateRecord.parse (reg : Registry) : CParser (Templates κ) RecordErr TemplateRecord := do
  let id ← CParser.lift parseTemplateId
  let n ← CParser.lift (mapErr .parse readU16)
  let fields ← CParser.lift (parseSpecs reg n.toNat)
  CParser.modify fun m => m.insert id { scope := [], fields }
  pure ⟨id, fields⟩

/-- the octets left are zero; `check_padding_value`, `D/ipfix.rs:241-251`, `D/netflow.rs:238-248` -/
def checkPaddingF : Nat → Parser SetErr Unit
  | 0 => pure ()
  | n + 1 => do
    let empty ← isEmpty
    if empty then pure ()
    else do
      let off ← getOffset
      let v ← mapErr .parse peekU8
      if v ≠ 0 then fail (.padding off v)
      else do
        let _ ← mapErr .parse readU8
        checkPaddingF n

@[inherit_doc checkPaddingF]
def checkPadding : Parser SetErr Unit := fun r => checkPaddingF r.buf.length r

/-- `DataRecord` -/
structure DataRecord (φ : Type) where
  scope : List φ
  fields : List Field
  deriving DecidableEq, Repr

/-- `Set` -/
inductive FlowSet (κ φ : Type) where
  | template (l : List TemplateRecord)
  | options (l : List (OptionsRecord κ))
  | data (id : UInt16) (l : List (DataRecord φ))
  deriving DecidableEq, Repr

/-- the parts in which the two protocols differ: the ids of template sets and how the records of the other two kinds of
sets are read -/
structure Dialect (κ φ : Type) where
  templateSet : UInt16
  optionsSet : UInt16
  optionsRecord : Registry → CParser (Templates κ) RecordErr (OptionsRecord κ)
  records : UInt16 → Template κ → CParser (Templates κ) SetErr (List (DataRecord φ))

/-- the content of a set, `D/ipfix.rs:160-235`, `D/netflow.rs:170-232` -/
def FlowSet.content (reg : Registry) (d : Dialect κ φ) (off : Nat) (id : UInt16) :
    CParser (Templates κ) SetErr (FlowSet κ φ) :=
  if id = d.templateSet then do
    let l ← CParser.rows 1 (CParser.mapErr .record (TemplateRecord.parse reg))
    pure (.template l)
  else if id = d.optionsSet then do
    let l ← CParser.rows 4 (CParser.mapErr .record (d.optionsRecord reg))
    CParser.lift checkPadding
    pure (.options l)
  else do
    let m ← CParser.getCtx
    match m id with
    | none => CParser.fail (.noTemplate off id)
    | some t => do
      let l ← d.records id t
      pure (.data id l)

/-- `Set::parse`, `D/ipfix.rs:136-237`, `D/netflow.rs:146-234`. The octets of the set that its content leaves unread are
dropped with the slice. -/
def FlowSet.parse (reg : Registry) (d : Dialect κ φ) : CParser (Templates κ) SetErr (FlowSet κ φ) := do
  let off ← CParser.lift getOffset
  let id ← CParser.lift (mapErr .parse peekU16)
  if id ≠ d.templateSet ∧ id ≠ d.optionsSet ∧ id < 256 then CParser.fail (.invalidSetId off id)
  else do
    let _ ← CParser.lift (mapErr .parse readU16)
    let loff ← CParser.lift getOffset
    let length ← CParser.lift (mapErr .parse peekU16)
    if length < 4 then CParser.fail (.invalidLength loff length)
    else do
      let _ ← CParser.lift (mapErr .parse readU16)
      let buf ← CParser.lift (mapErr .parse (takeSlice (length.toNat - 4)))
      let (s, _) ← CParser.onSub buf (FlowSet.content reg d off id)
      pure s

/-! ## IPFIX -/

/-- the least length of a field, `D/ipfix.rs:189-211` -/
def Spec.minLength (s : Spec) : Nat := if s.length = 65535 then 1 else s.length.toNat

/-- `DataRecord::parse`, `D/ipfix.rs:338-369` -/
def ipfixRecord (t : Template Spec) : Parser SetErr (DataRecord Field) := do
  let scope ← mapErr .data (parseFields t.scope)
  let fields ← mapErr .data (parseFields t.fields)
  pure ⟨scope, fields⟩

/-- `while buf.peek_u8() == Ok(0) { buf.read_u8()?; }`, `D/ipfix.rs:223-225` -/
def skipZerosF : Nat → Parser SetErr Unit
  | 0 => pure ()
  | n + 1 => fun r =>
    match peekU8 r with
    | (.ok v, r) => if v = 0 then (do let _ ← mapErr .parse readU8; skipZerosF n : Parser SetErr Unit) r else (.ok (), r)
    | (_, r) => (.ok (), r)

@[inherit_doc skipZerosF]
def skipZeros : Parser SetErr Unit := fun r => skipZerosF r.buf.length r

/-- the records of a data set, `D/ipfix.rs:188-233` -/
def ipfixRecords (id : UInt16) (t : Template Spec) : CParser (Templates Spec) SetErr (List (DataRecord Field)) := do
  let min := (t.scope.map Spec.minLength).sum + (t.fields.map Spec.minLength).sum
  let l ← if 0 < min then CParser.rows min (CParser.lift (ipfixRecord t)) else pure []
  CParser.modify fun m => m.count id
  CParser.lift skipZeros
  pure l

/-- `OptionsTemplateRecord::parse`, `D/ipfix.rs:279-326` -/
def ipfixOptions (reg : Registry) : CParser (Templates Spec) RecordErr (OptionsRecord Spec) := do
  let id ← CParser.lift parseTemplateId
  let total ← CParser.lift (mapErr .parse readU16)
  let off ← CParser.lift getOffset
  let n ← CParser.lift (mapErr .parse peekU16)
  if total < n then CParser.fail (.invalidScopeCount off n total)
  else do
    let _ ← CParser.lift (mapErr .parse readU16)
    let scope ← CParser.lift (parseSpecs reg n.toNat)
    let fields ← CParser.lift (parseSpecs reg (total - n).toNat)
    CParser.modify fun m => m.insert id { scope, fields }
    pure ⟨id, scope, fields⟩

/-- IPFIX; the ids are `F/ipfix.rs:25-29` -/
def ipfix : Dialect Spec Field := ⟨2, 3, ipfixOptions, ipfixRecords⟩

/-- `IpfixPacket` -/
structure IpfixPacket where
  exportTime : Time
  sequence : UInt32
  domain : UInt32
  sets : List (FlowSet Spec Field)
  deriving DecidableEq, Repr

/-- `IpfixPacketParsingError` and `NetFlowV9PacketParsingError`, `D/ipfix.rs:30-55`, `D/netflow.rs:28-53` -/
inductive PacketErr where
  | parse (e : ParseError)
  | unsupportedVersion (offset : Nat) (version : UInt16)
  | invalidLength (offset : Nat) (length : UInt16)
  | invalidTime (offset : Nat) (time : UInt32)
  | invalidCount (offset : Nat) (count : UInt16)
  | set (e : SetErr)
  deriving DecidableEq, Repr

/-- the version is peeked at and then read, `D/ipfix.rs:64-71`, `D/netflow.rs:64-71` -/
def parseVersion (v : UInt16) : Parser PacketErr Unit := do
  let version ← mapErr .parse peekU16
  if version ≠ v then do
    let off ← getOffset
    fail (.unsupportedVersion off version)
  else do
    let _ ← mapErr .parse readU16
    pure ()

/-- the time is peeked at, checked and then read, `D/ipfix.rs:84-94`, `D/netflow.rs:75-85` -/
def parseTime : Parser PacketErr Time := do
  let s ← mapErr .parse peekU32
  let off ← getOffset
  let t ← ofOption (.invalidTime off s) (Time.make s.toNat 0)
  let _ ← mapErr .parse readU32
  pure t

/-- the body of `IpfixPacket::parse`, `D/ipfix.rs:84-102` -/
def ipfixBody (reg : Registry) : CParser (Templates Spec) PacketErr IpfixPacket := do
  let exportTime ← CParser.lift parseTime
  let sequence ← CParser.lift (mapErr .parse readU32)
  let domain ← CParser.lift (mapErr .parse readU32)
  let sets ← CParser.rows 1 (CParser.mapErr .set (FlowSet.parse reg ipfix))
  pure ⟨exportTime, sequence, domain, sets⟩

/-- `IpfixPacket::parse`, `D/ipfix.rs:57-103` -/
def IpfixPacket.parse (reg : Registry) : CParser (Templates Spec) PacketErr IpfixPacket := do
  CParser.lift (parseVersion 10)
  let length ← CParser.lift (mapErr .parse peekU16)
  let off ← CParser.lift getOffset
  if length < 16 then CParser.fail (.invalidLength off length)
  else do
    let _ ← CParser.lift (mapErr .parse readU16)
    let buf ← CParser.lift (mapErr .parse (takeSlice (length.toNat - 4)))
    let (p, _) ← CParser.onSub buf (ipfixBody reg)
    pure p

/-! ## NetFlow v9 -/

/-- `ScopeIE`, `F/netflow.rs:395-402` -/
inductive ScopeIe where
  | unknown (pen : UInt32) (id : UInt16)
  | system | interface | lineCard | cache | template
  deriving DecidableEq, Repr

/-- `ScopeIE::from((pen, id))`, `F/netflow.rs:404-416` -/
def ScopeIe.of (pen : UInt32) (id : UInt16) : ScopeIe :=
  if pen = 0 ∧ id = 1 then .system
  else if pen = 0 ∧ id = 2 then .interface
  else if pen = 0 ∧ id = 3 then .lineCard
  else if pen = 0 ∧ id = 4 then .cache
  else if pen = 0 ∧ id = 5 then .template
  else .unknown pen id

/-- `ScopeIE::id`, `F/netflow.rs:446-455` -/
def ScopeIe.id : ScopeIe → UInt16
  | unknown _ i => i | system => 1 | interface => 2 | lineCard => 3 | cache => 4 | template => 5
/-- `ScopeIE::pen`, `F/netflow.rs:457-462` -/
def ScopeIe.pen : ScopeIe → UInt32 | unknown p _ => p | _ => 0
/-- `ScopeIE::length_range`, `F/netflow.rs:427-436` with `F/ie.rs:114-150` -/
def ScopeIe.lengthRange : ScopeIe → Option (Nat × Nat)
  | interface | lineCard => some (1, 4)
  | _ => none

/-- `ScopeFieldSpecifier`, `F/netflow.rs:465-486` -/
structure ScopeSpec where
  ie : ScopeIe
  length : UInt16
  deriving DecidableEq, Repr

/-- `ScopeFieldSpecifier::parse`, `D/netflow.rs:371-387`; the enterprise bit stays in the id -/
def ScopeSpec.parse : Parser RecordErr ScopeSpec := do
  let off ← getOffset
  let code ← mapErr .parse readU16
  let length ← mapErr .parse readU16
  let pen ← if code &&& 0x8000 ≠ 0 then mapErr .parse readU32 else pure 0
  if inRange (ScopeIe.of pen code).lengthRange length then pure ⟨ScopeIe.of pen code, length⟩
  else fail (.scopeSpec off length)

/-- `ScopeField`, `F/netflow.rs:284-391` -/
inductive ScopeField where
  | unknown (pen : UInt32) (id : UInt16) (v : Bytes)
  | system (v : UInt32) | interface (v : UInt32) | lineCard (v : UInt32)
  | cache (v : Bytes) | template (v : Bytes)
  deriving DecidableEq, Repr

/-- `reduced_u32`, `D/netflow.rs:452-460`: `read_unsigned64_be(length)? as u32` -/
def readReduced (length : UInt16) : Parser FieldErr UInt32 := do
  atMost 4 length
  let v ← mapErr .parse (readUnsigned64 length.toNat)
  pure v.toUInt32

/-- `ScopeField::parse`, `D/netflow.rs:446-478` -/
def ScopeField.parse (ie : ScopeIe) (length : UInt16) : Parser FieldErr ScopeField :=
  match ie with
  | .unknown p i => do let v ← mapErr .parse (readBytes length.toNat); pure (.unknown p i v)
  | .system => do let v ← readReduced length; pure (.system v)
  | .interface => do let v ← readReduced length; pure (.interface v)
  | .lineCard => do let v ← readReduced length; pure (.lineCard v)
  | .cache => do let v ← mapErr .parse (readBytes length.toNat); pure (.cache v)
  | .template => do let v ← mapErr .parse (readBytes length.toNat); pure (.template v)

/-- the scope fields of a record, `D/netflow.rs:408-416` -/
def parseScopeFields : List ScopeSpec → Parser FieldErr (List ScopeField)
  | [] => pure []
  | s :: ss => do
    let f ← ScopeField.parse s.ie s.length
    let fs ← parseScopeFields ss
    pure (f :: fs)

/-- `DataRecord::parse`, `D/netflow.rs:402-431` -/
def netflowRecord (t : Template ScopeSpec) : Parser SetErr (DataRecord ScopeField) := do
  let scope ← mapErr .data (parseScopeFields t.scope)
  let fields ← mapErr .data (parseFields t.fields)
  pure ⟨scope, fields⟩

/-- the records of a data set, `D/netflow.rs:196-230`: every record is counted as it is read -/
def netflowRecords (id : UInt16) (t : Template ScopeSpec) :
    CParser (Templates ScopeSpec) SetErr (List (DataRecord ScopeField)) := do
  let length := (t.scope.map (·.length.toNat)).sum + (t.fields.map (·.length.toNat)).sum
  let l ← if 0 < length then
      CParser.rows length (do
        let x ← CParser.lift (netflowRecord t)
        CParser.modify fun m => m.count id
        pure x)
    else pure []
  CParser.lift checkPadding
  pure l

/-- `OptionsTemplateRecord::parse`, `D/netflow.rs:268-309` -/
def netflowOptions (reg : Registry) : CParser (Templates ScopeSpec) RecordErr (OptionsRecord ScopeSpec) := do
  let id ← CParser.lift parseTemplateId
  let scopeLength ← CParser.lift (mapErr .parse readU16)
  let length ← CParser.lift (mapErr .parse readU16)
  let scopeBuf ← CParser.lift (mapErr .parse (takeSlice scopeLength.toNat))
  let buf ← CParser.lift (mapErr .parse (takeSlice length.toNat))
  let (scope, _) ← CParser.lift (onSub scopeBuf (many ScopeSpec.parse))
  let (fields, _) ← CParser.lift (onSub buf (many (mapErr .spec (Spec.parse reg))))
  CParser.modify fun m => m.insert id { scope, fields }
  pure ⟨id, scope, fields⟩

/-- NetFlow v9; the ids are `F/netflow.rs:27-31` -/
def netflow : Dialect ScopeSpec ScopeField := ⟨0, 1, netflowOptions, netflowRecords⟩

/-- `NetFlowV9Packet` -/
structure NetflowPacket where
  sysUpTime : UInt32
  unixTime : Time
  sequence : UInt32
  source : UInt32
  sets : List (FlowSet ScopeSpec ScopeField)
  deriving DecidableEq, Repr

/-- the number of records a set takes from the count of the header, `D/netflow.rs:92-104`: one for all templates -/
def FlowSet.takes : FlowSet κ φ → Nat
  | template _ => 1
  | options _ => 1
  | data _ l => l.length

/-- an iteration of the loop over sets, `D/netflow.rs:91-106`, with the count left -/
def netflowStep (reg : Registry) (countOff : Nat) (count : UInt16) (i : Nat) :
    CParser (Templates ScopeSpec) PacketErr (FlowSet ScopeSpec ScopeField × Nat) := do
  let s ← CParser.mapErr .set (FlowSet.parse reg netflow)
  if i < s.takes then CParser.fail (.invalidCount countOff count) else pure (s, i - s.takes)

/-- `NetFlowV9Packet::parse`, `D/netflow.rs:59-113` -/
def NetflowPacket.parse (reg : Registry) : CParser (Templates ScopeSpec) PacketErr NetflowPacket := do
  CParser.lift (parseVersion 9)
  let countOff ← CParser.lift getOffset
  let count ← CParser.lift (mapErr .parse readU16)
  let sysUpTime ← CParser.lift (mapErr .parse readU32)
  let unixTime ← CParser.lift parseTime
  let sequence ← CParser.lift (mapErr .parse readU32)
  let source ← CParser.lift (mapErr .parse readU32)
  let sets ← CParser.loop (fun i n => decide (0 < i) && decide (3 < n)) (netflowStep reg countOff count) count.toNat
  pure ⟨sysUpTime, unixTime, sequence, source, sets⟩

/-! ## Writing -/

/-- `TemplateRecord::len`, `S/ipfix.rs:88-95`, `S/netflow.rs:204-211` -/
def TemplateRecord.len (t : TemplateRecord) : Nat := 4 + (t.fields.map Spec.len).sum

/-- `TemplateRecord::write`, `S/ipfix.rs:97-104`, `S/netflow.rs:213-220` -/
def TemplateRecord.write (t : TemplateRecord) : Bytes :=
  u16be t.id ++ u16be (UInt16.ofNat t.fields.length) ++ (t.fields.map Spec.write).flatten

/-- `OptionsTemplateRecord::len`, `S/ipfix.rs:121-133` -/
def ipfixOptionsLen (t : OptionsRecord Spec) : Nat := 6 + (t.scope.map Spec.len).sum + (t.fields.map Spec.len).sum

/-- `OptionsTemplateRecord::write`, `S/ipfix.rs:135-149` -/
def ipfixOptionsWrite (t : OptionsRecord Spec) : Bytes :=
  u16be t.id ++ u16be (UInt16.ofNat (t.scope.length + t.fields.length)) ++ u16be (UInt16.ofNat t.scope.length) ++
    (t.scope.map Spec.write).flatten ++ (t.fields.map Spec.write).flatten

/-- the length given by the template for the first of the fields, if there is one: `specs.get(index).map(|x| x.length)` -/
def headLength : List Spec → Option UInt16
  | [] => none
  | s :: _ => some s.length

/-- `for (index, record) in fields.enumerate() { record.write(writer, specs.get(index).map(|x| x.length))? }`,
`S/ipfix.rs:232-240`; without a template the list of specifiers is empty, `S/ipfix.rs:223-230` -/
def writeFields : List Field → List Spec → Res FieldWriteErr Bytes
  | [], _ => .ok []
  | f :: fs, specs => (f.write (headLength specs)).cat (writeFields fs specs.tail)

/-- the lengths of fields with a template, `S/ipfix.rs:176-212`: the template's length unless it is variable -/
def fieldsLen : List Field → List Spec → Nat
  | [], _ => 0
  | f :: fs, specs =>
    (match headLength specs with
      | none => f.len none
      | some l => if l = 65535 then f.len (some l) else l.toNat) + fieldsLen fs specs.tail

/-- the specifiers of a template that may be missing -/
def scopeOf (t : Option (Template κ)) : List κ := (t.map (·.scope)).getD []
@[inherit_doc scopeOf]
def fieldsOf (t : Option (Template κ)) : List Spec := (t.map (·.fields)).getD []

/-- `DataRecord::len`, `S/ipfix.rs:165-215` -/
def ipfixRecordLen (t : Option (Template Spec)) (r : DataRecord Field) : Nat :=
  fieldsLen r.scope (scopeOf t) + fieldsLen r.fields (fieldsOf t)

/-- `DataRecord::write`, `S/ipfix.rs:217-244` -/
def ipfixRecordWrite (t : Option (Template Spec)) (r : DataRecord Field) : Res FieldWriteErr Bytes :=
  (writeFields r.scope (scopeOf t)).cat (writeFields r.fields (fieldsOf t))

/-- what is written for the records of a set, one after the other -/
def writeAll {α ε : Type} (w : α → Res ε Bytes) : List α → Res ε Bytes
  | [] => .ok []
  | a :: l => (w a).cat (writeAll w l)

/-- `calculate_set_size`, `S/ipfix.rs:249-263` -/
def ipfixSetLen (m : Templates Spec) : FlowSet Spec Field → Nat
  | .template l => (l.map TemplateRecord.len).sum + 4
  | .options l => (l.map ipfixOptionsLen).sum + 4
  | .data id l => (l.map (ipfixRecordLen (m id))).sum + 4

/-- `Set::write_with_len`, `S/ipfix.rs:306-338`, with the length of `Set::len` -/
def ipfixSetWrite (m : Templates Spec) (s : FlowSet Spec Field) : Res FieldWriteErr Bytes :=
  let length := u16be (UInt16.ofNat (ipfixSetLen m s))
  match s with
  | .template l => .ok (u16be 2 ++ length ++ (l.map TemplateRecord.write).flatten)
  | .options l => .ok (u16be 3 ++ length ++ (l.map ipfixOptionsWrite).flatten)
  | .data id l => (Res.ok (u16be id ++ length)).cat (writeAll (ipfixRecordWrite (m id)) l)

/-- `IpfixPacket::len`, `S/ipfix.rs:38-45` -/
def IpfixPacket.len (m : Templates Spec) (p : IpfixPacket) : Nat := 16 + (p.sets.map (ipfixSetLen m)).sum

/-- `IpfixPacket::write`, `S/ipfix.rs:47-71` -/
def IpfixPacket.write (m : Templates Spec) (p : IpfixPacket) : Res FieldWriteErr Bytes :=
  (Res.ok (u16be 10 ++ u16be (UInt16.ofNat (p.len m)) ++ u32be (UInt32.ofNat (p.exportTime.secs % 4294967296).toNat) ++
    u32be p.sequence ++ u32be p.domain)).cat (writeAll (ipfixSetWrite m) p.sets)

/-- `ScopeFieldSpecifier::len`, `S/netflow.rs:378-380` -/
def ScopeSpec.len (s : ScopeSpec) : Nat := 4 + if s.ie.pen = 0 then 0 else 4

/-- `ScopeFieldSpecifier::write`, `S/netflow.rs:382-391` -/
def ScopeSpec.write (s : ScopeSpec) : Bytes :=
  u16be s.ie.id ++ u16be s.length ++ (if s.ie.pen ≠ 0 then u32be s.ie.pen else [])

/-- `OptionsTemplateRecord::len`, `S/netflow.rs:240-252` -/
def netflowOptionsLen (t : OptionsRecord ScopeSpec) : Nat :=
  6 + (t.scope.map ScopeSpec.len).sum + (t.fields.map Spec.len).sum

/-- `OptionsTemplateRecord::write`, `S/netflow.rs:254-279` -/
def netflowOptionsWrite (t : OptionsRecord ScopeSpec) : Bytes :=
  u16be t.id ++ u16be (UInt16.ofNat (t.scope.map ScopeSpec.len).sum) ++ u16be (UInt16.ofNat (t.fields.map Spec.len).sum) ++
    (t.scope.map ScopeSpec.write).flatten ++ (t.fields.map Spec.write).flatten

/-- `ScopeField::len`, `S/netflow.rs:413-431` -/
def ScopeField.len (f : ScopeField) (length : Option UInt16) : Nat :=
  match f with
  | unknown _ _ v | cache v | template v => v.length
  | system _ | interface _ | lineCard _ => (length.map (·.toNat)).getD 4

/-- `ScopeField::write`, `S/netflow.rs:433-495` -/
def ScopeField.write (f : ScopeField) (length : Option UInt16) : Res FieldWriteErr Bytes :=
  match f with
  | unknown _ _ v | cache v | template v => .ok v
  | system v | interface v | lineCard v => writeInt 4 v.toNat length

/-- the scope fields of a record, `S/netflow.rs:338-341` -/
def writeScopeFields : List ScopeField → List ScopeSpec → Res FieldWriteErr Bytes
  | [], _ => .ok []
  | f :: fs, [] => (f.write none).cat (writeScopeFields fs [])
  | f :: fs, s :: ss => (f.write (some s.length)).cat (writeScopeFields fs ss)

/-- `DataRecord::len`, `S/netflow.rs:298-328`: what the template says, if there is one -/
def netflowRecordLen (t : Option (Template ScopeSpec)) (r : DataRecord ScopeField) : Nat :=
  match t with
  | none => (r.scope.map (·.len none)).sum + (r.fields.map (·.len none)).sum
  | some t => (t.scope.map (·.length.toNat)).sum + (t.fields.map (·.length.toNat)).sum

/-- `DataRecord::write`, `S/netflow.rs:330-361` -/
def netflowRecordWrite (t : Option (Template ScopeSpec)) (r : DataRecord ScopeField) : Res FieldWriteErr Bytes :=
  (writeScopeFields r.scope (scopeOf t)).cat (writeFields r.fields (fieldsOf t))

/-- `calculate_set_size_with_padding`, `S/netflow.rs:116-138`: the length and the padding -/
def netflowSetSize (m : Templates ScopeSpec) (align : Bool) (s : FlowSet ScopeSpec ScopeField) : Nat × Nat :=
  let length := 4 + match s with
    | .template l => (l.map TemplateRecord.len).sum
    | .options l => (l.map netflowOptionsLen).sum
    | .data id l => (l.map (netflowRecordLen (m id))).sum
  if align then (length, length % 4) else (length, 0)

/-- `Set::write`, `S/netflow.rs:150-187` -/
def netflowSetWrite (m : Templates ScopeSpec) (align : Bool) (s : FlowSet ScopeSpec ScopeField) :
    Res FieldWriteErr Bytes :=
  let size := netflowSetSize m align s
  let length := u16be (UInt16.ofNat (size.1 + size.2))
  let pad := List.replicate size.2 (0 : UInt8)
  match s with
  | .template l => .ok (u16be 0 ++ length ++ (l.map TemplateRecord.write).flatten ++ pad)
  | .options l => .ok (u16be 1 ++ length ++ (l.map netflowOptionsWrite).flatten ++ pad)
  | .data id l => ((Res.ok (u16be id ++ length)).cat (writeAll (netflowRecordWrite (m id)) l)).cat (.ok pad)

/-- the number of records of a set in the count of the header, `S/netflow.rs:60-68` -/
def FlowSet.records : FlowSet κ φ → Nat
  | template l => l.length
  | options l => l.length
  | data _ l => l.length

/-- `NetFlowV9Packet::write`, `S/netflow.rs:54-79`; the codec writes without alignment, `S/netflow.rs:82-96` -/
def NetflowPacket.write (m : Templates ScopeSpec) (align : Bool) (p : NetflowPacket) : Res FieldWriteErr Bytes :=
  (Res.ok (u16be 9 ++ u16be (UInt16.ofNat (p.sets.map FlowSet.records).sum) ++ u32be p.sysUpTime ++
    u32be (UInt32.ofNat (p.unixTime.secs % 4294967296).toNat) ++ u32be p.sequence ++ u32be p.source)).cat
    (writeAll (netflowSetWrite m align) p.sets)

end Verif.Flow
