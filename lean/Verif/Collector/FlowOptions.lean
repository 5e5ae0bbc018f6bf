import Verif.Collector.Actor
/-!
# Enrichment from option records

`N` stands for `crates/collector/src/inputs/flow_options/normalize.rs`, `H` for `handlers.rs`, `O` for `actor.rs` in the same directory and `T` for
`crates/collector/src/flow/types.rs`. Statistics and log messages are left out. A hash map yields its entries in an order that is not specified: `ord` is that
order. Elements are written as numbers of the registry, `0` for that of IANA and `3746` for that of NetGauze.
-/
namespace Verif.Collector
open Flow (Field Value Ie DataRecord FlowSet IpfixPacket NetflowPacket ScopeField)

/-- `FxHashMap<FieldRef, Field>` -/
abbrev IndexedFields := List (FieldRef Ie × Field)

/-- `IndexedDataRecord`, `T:182-185` -/
structure IndexedRecord where
  scope : IndexedFields
  fields : IndexedFields

/-- `IndexedDataRecord::new` and `From<ipfix::DataRecord>`, `T:190-195`, `T:236-243` -/
def IndexedRecord.new (scope fields : List Field) : IndexedRecord := ⟨mapFields scope, mapFields fields⟩

/-- the order in which the entries of a hash map come -/
structure MapOrder where
  run : IndexedFields → IndexedFields
  perm : ∀ m, (run m).Perm m

/-- `values` and `into_values` -/
def MapOrder.values (ord : MapOrder) (m : IndexedFields) : List Field := (ord.run m).map (·.2)

/-- `FieldRefLookup::contains_ie` of a map, `T:150-158` -/
def IndexedFields.containsIe (m : IndexedFields) (ie : Ie) : Bool := (m.look ⟨ie, 0⟩).isSome || m.any fun x => x.1.ie = ie

/-- `FieldRefLookup::get_by_ie` of a map, `T:164-175` -/
def IndexedFields.getByIe (ord : MapOrder) (m : IndexedFields) (ie : Ie) : Option Field :=
  match m.look ⟨ie, 0⟩ with
  | some v => some v
  | none => ((ord.run m).find? fun x => x.1.ie = ie).map (·.2)

/-- `FieldRefLookup::contains_ie` of a record, `T:219-221` -/
def IndexedRecord.containsIe (r : IndexedRecord) (ie : Ie) : Bool := r.scope.containsIe ie || r.fields.containsIe ie

/-- `FieldRefLookup::get_by_ie` of a record, `T:229-233` -/
def IndexedRecord.getByIe (ord : MapOrder) (r : IndexedRecord) (ie : Ie) : Option Field :=
  (r.scope.getByIe ord ie).or (r.fields.getByIe ord ie)

/-- `OptionsDataRecordError`, `N:28-40`, without the texts -/
inductive OptionsError where
  | noScopeFields
  | unsupportedInterface
  | unsupportedVrf
  | missingFields
  | unsupportedScope
  deriving DecidableEq, Repr

/-- `OptionsDataRecord`, `N:45-54` -/
inductive OptionsRecord where
  | sampling (r : IndexedRecord)
  | interface (r : IndexedRecord)
  | vrf (r : IndexedRecord)
  | unclassified (r : IndexedRecord)

/-- `is_sampling_type`, `N:172-189` -/
def isSampling (r : IndexedRecord) : Bool :=
  r.containsIe (.known 0 34 .unsigned32) || r.containsIe (.known 0 50 .unsigned32) ||
  (r.containsIe (.known 0 305 .unsigned32) && r.containsIe (.known 0 306 .unsigned32)) ||
  (r.containsIe (.known 0 307 .unsigned32) && r.containsIe (.known 0 308 .unsigned32)) ||
  (r.containsIe (.known 0 309 .unsigned32) && r.containsIe (.known 0 310 .unsigned32)) || r.containsIe (.known 0 311 .float64)

/-- `is_interface_type`, `N:218-226` -/
def isInterface (r : IndexedRecord) : Bool :=
  (r.containsIe (.known 0 10 .unsigned32) || r.containsIe (.known 0 14 .unsigned32)) &&
  (r.containsIe (.known 0 82 .string) || r.containsIe (.known 0 83 .string))

/-- `is_vrf_type`, `N:347-354` -/
def isVrf (r : IndexedRecord) : Bool :=
  (r.containsIe (.known 0 234 .unsigned32) || r.containsIe (.known 0 235 .unsigned32)) &&
  (r.containsIe (.known 0 236 .string) || r.containsIe (.known 0 90 .octetArray))

/-- `classify`, `N:156-169` -/
def classify (r : IndexedRecord) : OptionsRecord :=
  if isSampling r then .sampling r else if isInterface r then .interface r else if isVrf r then .vrf r else .unclassified r

/-- `Field::paddingOctets(_)` -/
def isPadding : Field → Bool
  | .known 0 210 (.octetArray _) => true
  | _ => false

/-- `Field::paddingOctets(_) | Field::exportingProcessId(_)` -/
def isIgnored : Field → Bool
  | .known 0 210 (.octetArray _) => true
  | .known 0 144 (.unsigned32 _) => true
  | _ => false

/-- `Field::ingressInterface(_) | Field::egressInterface(_)` -/
def isInterfaceId : Field → Bool
  | .known 0 10 (.unsigned32 _) => true
  | .known 0 14 (.unsigned32 _) => true
  | _ => false

/-- `Field::ingressVRFID(_) | Field::egressVRFID(_)` -/
def isVrfId : Field → Bool
  | .known 0 234 (.unsigned32 _) => true
  | .known 0 235 (.unsigned32 _) => true
  | _ => false

/-- `normalize_sampling_type`, `N:192-215`, and `normalize_unclassified_type`, `N:463-483`, which do the same -/
def normalizePlain (ord : MapOrder) (r : IndexedRecord) : IndexedRecord :=
  .new ((ord.values r.scope).filter fun f => !isIgnored f) ((ord.values r.fields).filter fun f => !isPadding f)

/-- the fields of `create_interface_record`, `N:239-266`; `none` for a field that is not an interface -/
def interfaceFields (iface : Field) (name desc : Option Field) : Option (List Field) :=
  match iface with
  | .known 0 10 (.unsigned32 _) =>
    some ((match name with | some (.known 0 82 (.string n)) => [.known 3746 8 (.string n)] | _ => []) ++
      (match desc with | some (.known 0 83 (.string d)) => [.known 3746 10 (.string d)] | _ => []))
  | .known 0 14 (.unsigned32 _) =>
    some ((match name with | some (.known 0 82 (.string n)) => [.known 3746 9 (.string n)] | _ => []) ++
      (match desc with | some (.known 0 83 (.string d)) => [.known 3746 11 (.string d)] | _ => []))
  | _ => none

/-- the fields of `create_vrf_record`, `N:366-395` -/
def vrfFields (vrf : Field) (name rd : Option Field) : Option (List Field) :=
  match vrf with
  | .known 0 234 (.unsigned32 _) =>
    some ((match name with | some (.known 0 236 (.string n)) => [.known 3746 12 (.string n)] | _ => []) ++
      (match rd with | some (.known 0 90 (.octetArray v)) => [.known 3746 14 (.octetArray v)] | _ => []))
  | .known 0 235 (.unsigned32 _) =>
    some ((match name with | some (.known 0 236 (.string n)) => [.known 3746 13 (.string n)] | _ => []) ++
      (match rd with | some (.known 0 90 (.octetArray v)) => [.known 3746 15 (.octetArray v)] | _ => []))
  | _ => none

/-- `create_interface_record`, `N:230-273` -/
def createInterface (iface : Field) (add : List Field) (name desc : Option Field) : List IndexedRecord :=
  match interfaceFields iface name desc with
  | some fields => if fields ≠ [] then [.new (iface :: add) fields] else []
  | none => []

/-- `create_vrf_record`, `N:357-400` -/
def createVrf (vrf : Field) (add : List Field) (name rd : Option Field) : List IndexedRecord :=
  match vrfFields vrf name rd with
  | some fields => if fields ≠ [] then [.new (vrf :: add) fields] else []
  | none => []

/-- the end of `normalize_interface_type` and of `normalize_vrf_type`, `N:335-341`, `N:452-458` -/
def orMissing (l : List IndexedRecord) : Except OptionsError (List IndexedRecord) := if l.isEmpty then .error .missingFields else .ok l

/-- `normalize_interface_type`, `N:283-344` -/
def normalizeInterface (ord : MapOrder) (r : IndexedRecord) : Except OptionsError (List IndexedRecord) :=
  let name := r.fields.getByIe ord (.known 0 82 .string)
  let desc := r.fields.getByIe ord (.known 0 83 .string)
  let add := (ord.values r.scope).filter fun f => !(isInterfaceId f || isIgnored f)
  match r.getByIe ord (.known 0 10 .unsigned32), r.getByIe ord (.known 0 14 .unsigned32) with
  | some (.known 0 10 (.unsigned32 i)), some (.known 0 14 (.unsigned32 o)) =>
    if i = o then orMissing (createInterface (.known 0 10 (.unsigned32 i)) add name desc ++ createInterface (.known 0 14 (.unsigned32 o)) add name desc)
    else .error .unsupportedInterface
  | some (.known 0 10 (.unsigned32 i)), none => orMissing (createInterface (.known 0 10 (.unsigned32 i)) add name desc)
  | none, some (.known 0 14 (.unsigned32 o)) => orMissing (createInterface (.known 0 14 (.unsigned32 o)) add name desc)
  | _, _ => .error .unsupportedInterface

/-- `normalize_vrf_type`, `N:407-460` -/
def normalizeVrf (ord : MapOrder) (r : IndexedRecord) : Except OptionsError (List IndexedRecord) :=
  let name := r.fields.getByIe ord (.known 0 236 .string)
  let rd := r.fields.getByIe ord (.known 0 90 .octetArray)
  let add := (ord.values r.scope).filter fun f => !(isVrfId f || isIgnored f)
  match r.getByIe ord (.known 0 234 .unsigned32), r.getByIe ord (.known 0 235 .unsigned32) with
  | some (.known 0 234 (.unsigned32 i)), some (.known 0 235 (.unsigned32 o)) =>
    if i = o then orMissing (createVrf (.known 0 234 (.unsigned32 i)) add name rd ++ createVrf (.known 0 235 (.unsigned32 o)) add name rd)
    else .error .unsupportedVrf
  | some (.known 0 234 (.unsigned32 i)), none => orMissing (createVrf (.known 0 234 (.unsigned32 i)) add name rd)
  | none, some (.known 0 235 (.unsigned32 o)) => orMissing (createVrf (.known 0 235 (.unsigned32 o)) add name rd)
  | _, _ => .error .unsupportedVrf

/-- `into_normalized_records`, `N:486-495` -/
def OptionsRecord.normalized (ord : MapOrder) : OptionsRecord → Except OptionsError (List IndexedRecord)
  | .sampling r => .ok [normalizePlain ord r]
  | .interface r => normalizeInterface ord r
  | .vrf r => normalizeVrf ord r
  | .unclassified r => .ok [normalizePlain ord r]

variable {A : Type}

/-- `upsert_from_rec`, `H:80-95` -/
def upsertFromRec (ord : MapOrder) (ip : A) (dom : UInt32) (weight : UInt8) (r : IndexedRecord) : Op A Field Ie :=
  .upsert ip ⟨dom, some (ord.values r.scope)⟩ weight (ord.values r.fields)

/-- `EnrichmentOperation::validate`, `crates/collector/src/flow/enrichment/mod.rs:99-105`, `mod.rs:117-121`, `mod.rs:142-146` -/
def Op.valid {F I : Type} : Op A F I → Bool
  | .upsert _ _ _ fields => !fields.isEmpty
  | .delete _ _ _ ies => !ies.isEmpty
  | .deleteAll _ _ _ => true

/-- `handle_option_record`, `H:54-75` -/
def handleOption (ord : MapOrder) (weight : UInt8) (r : OptionsRecord) (ip : A) (dom : UInt32) : Except OptionsError (List (Op A Field Ie)) :=
  match r.normalized ord with
  | .error e => .error e
  | .ok records => .ok ((records.map (upsertFromRec ord ip dom weight)).filter Op.valid)

/-- `TryFrom<ipfix::DataRecord> for OptionsDataRecord`, `N:59-66` -/
def fromIpfix (r : DataRecord Field) : Except OptionsError OptionsRecord :=
  if r.scope.isEmpty then .error .noScopeFields else .ok (classify (.new r.scope r.fields))

/-- the loop over the scope fields of `TryFrom<netflow::DataRecord> for OptionsDataRecord`, `N:99-135` -/
def convertScope : List ScopeField → Except OptionsError (List Field)
  | [] => .ok []
  | f :: fs =>
    match f with
    | .system _ => convertScope fs
    | .interface i => (convertScope fs).map fun l => [.known 0 10 (.unsigned32 i), .known 0 14 (.unsigned32 i)] ++ l
    | .lineCard c => (convertScope fs).map fun l => .known 0 141 (.unsigned32 c) :: l
    | .cache _ => .error .unsupportedScope
    | .template _ => .error .unsupportedScope
    | .unknown _ _ _ => .error .unsupportedScope

/-- `TryFrom<netflow::DataRecord> for OptionsDataRecord`, `N:94-140` -/
def fromNetflow (r : DataRecord ScopeField) : Except OptionsError OptionsRecord :=
  if r.scope.isEmpty then .error .noScopeFields else (convertScope r.scope).map fun s => classify (.new s r.fields)

/-- the operations from the sets of a packet, `O:233-274`, `O:275-325`: of option records in data sets; those that cannot be converted are passed over. For IPFIX
a failed conversion ends the actor, but conversion fails for records without scope only, which do not come this far. -/
def setsOps {κ φ : Type} (ord : MapOrder) (conv : DataRecord φ → Except OptionsError OptionsRecord) (weight : UInt8) (ip : A) (dom : UInt32)
    (sets : List (FlowSet κ φ)) : List (Op A Field Ie) :=
  sets.flatMap fun
    | .data _ records => (records.filter fun r => !r.scope.isEmpty).flatMap fun r =>
      match conv r with
      | .error _ => []
      | .ok o =>
        match handleOption ord weight o ip dom with
        | .error _ => []
        | .ok ops => ops
    | _ => []

/-- the operations from a packet, `O:218-327` -/
def packetOps (ord : MapOrder) (weight : UInt8) (ip : A) : Info → List (Op A Field Ie)
  | .ipfix p => setsOps ord fromIpfix weight ip p.domain p.sets
  | .netflow p => setsOps ord fromNetflow weight ip p.source p.sets

variable {σ η : Type}

/-- `run`, `O:200-337`, with `send_enrichment_operations`, `O:161-197`: what has been handed over to which of the caches when the actor stops, which it does
between packets. An operation that cannot be handed over within some time is given up for that cache. -/
inductive OptionsRuns (ord : MapOrder) (weight : UInt8) (addr : σ → A) (handles : List η) : List (σ × Info) → List (η × Op A Field Ie) → Prop where
  | stop {ps} : OptionsRuns ord weight addr handles ps []
  | packet {peer p ps sent out} : sent.Sublist ((packetOps ord weight (addr peer) p).flatMap fun o => handles.map fun h => (h, o)) →
      OptionsRuns ord weight addr handles ps out → OptionsRuns ord weight addr handles ((peer, p) :: ps) (sent ++ out)

end Verif.Collector
