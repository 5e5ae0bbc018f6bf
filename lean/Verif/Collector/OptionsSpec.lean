import Verif.Collector.Actor
/-!
# What an option record tells about an exporter's flows

Records are lists of fields here; nothing refers to the maps of the code.
-/
namespace Verif.Collector.Announce
open Flow (Field Kind Ie DataRecord FlowSet ScopeField)

/-- an element of the registry of IANA -/
def iana (id : UInt16) (k : Kind) : Ie := .known 0 id k

/-- there is a field of this element -/
def Has (fs : List Field) (i : Ie) : Prop := ∃ f ∈ fs, Field.ie f = i

/-- the first field of an element -/
def first (fs : List Field) (i : Ie) : Option Field := fs.find? fun f => Field.ie f = i

/-- there are the parameters of some kind of sampling: samplingInterval, samplerRandomInterval, samplingPacketInterval and samplingPacketSpace,
samplingTimeInterval and samplingTimeSpace, samplingSize and samplingPopulation, or samplingProbability -/
def Samples (fs : List Field) : Prop :=
  Has fs (iana 34 .unsigned32) ∨ Has fs (iana 50 .unsigned32) ∨ (Has fs (iana 305 .unsigned32) ∧ Has fs (iana 306 .unsigned32)) ∨
  (Has fs (iana 307 .unsigned32) ∧ Has fs (iana 308 .unsigned32)) ∨ (Has fs (iana 309 .unsigned32) ∧ Has fs (iana 310 .unsigned32)) ∨
  Has fs (iana 311 .float64)

/-- the way of packets through the exporter: in or out -/
inductive Way where
  | ingress
  | egress
  deriving DecidableEq, Repr

/-- by way -/
def Way.pick {α : Type} (i e : α) : Way → α
  | ingress => i
  | egress => e

/-- an attribute: the element by which an exporter tells it, and the elements of NetGauze under which it is added to flows -/
structure Attribute where
  source : UInt16
  kind : Kind
  target : Way → UInt16

/-- things of an exporter that have attributes: the elements of their number, for each way, and the attributes -/
structure Thing where
  number : Way → UInt16
  attributes : List Attribute

/-- interfaces: ingressInterface and egressInterface, with interfaceName and interfaceDescription -/
def interfaces : Thing := ⟨Way.pick 10 14, [⟨82, .string, Way.pick 8 9⟩, ⟨83, .string, Way.pick 10 11⟩]⟩

/-- VRFs: ingressVRFID and egressVRFID, with VRFname and mplsVpnRouteDistinguisher -/
def vrfs : Thing := ⟨Way.pick 234 235, [⟨236, .string, Way.pick 12 13⟩, ⟨90, .octetArray, Way.pick 14 15⟩]⟩

/-- some number and some attribute occur -/
def Thing.Described (t : Thing) (fs : List Field) : Prop :=
  (∃ way, Has fs (iana (t.number way) .unsigned32)) ∧ ∃ a ∈ t.attributes, Has fs (iana a.source a.kind)

/-- what a record with these fields is taken to describe: interfaces before VRFs, and nothing particular if it is about sampling or about neither -/
inductive About (fs : List Field) : Option Thing → Prop where
  | sampling : Samples fs → About fs none
  | interface : ¬ Samples fs → interfaces.Described fs → About fs (some interfaces)
  | vrf : ¬ Samples fs → ¬ interfaces.Described fs → vrfs.Described fs → About fs (some vrfs)
  | other : ¬ Samples fs → ¬ interfaces.Described fs → ¬ vrfs.Described fs → About fs none

/-- the attributes under the elements for a way -/
def Thing.attributesFor (t : Thing) (way : Way) (fields : List Field) : List Field :=
  t.attributes.filterMap fun a =>
    match first fields (iana a.source a.kind) with
    | some (.known _ _ v) => some (.known 3746 (a.target way) v)
    | _ => none

/-- fields of other elements than these -/
def without (ies : List Ie) (fs : List Field) : List Field := fs.filter fun f => !ies.contains (Field.ie f)

/-- paddingOctets -/
def padding : Ie := iana 210 .octetArray

/-- exportingProcessId -/
def process : Ie := iana 144 .unsigned32

/-- the option record with this scope and these fields tells that flows with the fields `s` have the properties `f`; there is at least one property. All of it
is taken over as it is, but for padding and the exporting process; or for a thing whose number is the same for both ways, if both occur, its attributes. -/
inductive Tells (scope fields : List Field) : List Field → List Field → Prop where
  | plain : About (scope ++ fields) none → without [padding] fields ≠ [] → Tells scope fields (without [padding, process] scope) (without [padding] fields)
  | thing {t way n} : About (scope ++ fields) (some t) →
      first (scope ++ fields) (iana (t.number way) .unsigned32) = some (.known 0 (t.number way) (.unsigned32 n)) →
      (∀ way' m, first (scope ++ fields) (iana (t.number way') .unsigned32) = some (.known 0 (t.number way') (.unsigned32 m)) → m = n) →
      t.attributesFor way fields ≠ [] →
      Tells scope fields
        (.known 0 (t.number way) (.unsigned32 n) :: without [iana (t.number .ingress) .unsigned32, iana (t.number .egress) .unsigned32, padding, process] scope)
        (t.attributesFor way fields)

/-- the fields that stand for a field of scope of NetFlow: none for the system, and there is no translation for a cache, a template or anything else -/
def translate : ScopeField → Option (List Field)
  | .system _ => some []
  | .interface i => some [.known 0 10 (.unsigned32 i), .known 0 14 (.unsigned32 i)]
  | .lineCard c => some [.known 0 141 (.unsigned32 c)]
  | _ => none

/-- all of them, if all can be translated -/
def translateAll (s : List ScopeField) : Option (List Field) := if s.all fun f => (translate f).isSome then some (s.flatMap fun f => (translate f).getD []) else none

/-- the data records with a scope, in order -/
def options {κ φ : Type} (sets : List (FlowSet κ φ)) : List (DataRecord φ) :=
  sets.flatMap fun
    | .data _ records => records.filter fun r => r.scope ≠ []
    | _ => []

/-- the option records of a packet, scope and fields -/
def announcements : Info → List (List Field × List Field)
  | .ipfix p => (options p.sets).map fun r => (r.scope, r.fields)
  | .netflow p => (options p.sets).filterMap fun r => (translateAll r.scope).map fun s => (s, r.fields)

/-- the observation domain of a packet, or the source -/
def domainOf : Info → UInt32
  | .ipfix p => p.domain
  | .netflow p => p.source

variable {A : Type}

/-- an update of what is known about the exporter for flows of the domain with the fields `s`, by the properties `f`, each in any order -/
def Updates (ip : A) (dom : UInt32) (weight : UInt8) (s f : List Field) (o : Op A Field Ie) : Prop :=
  ∃ s' f', o = .upsert ip ⟨dom, some s'⟩ weight f' ∧ s'.Perm s ∧ f'.Perm f

/-- the operations for option records: for each record, in order, one update for each thing that it tells -/
inductive Told (ip : A) (dom : UInt32) (weight : UInt8) : List (List Field × List Field) → List (Op A Field Ie) → Prop where
  | nil : Told ip dom weight [] []
  | cons {scope fields rs ops} (l : List (List Field × List Field)) (g : List Field × List Field → Op A Field Ie) : l.Nodup →
      (∀ s f, (s, f) ∈ l ↔ Tells scope fields s f) → (∀ u ∈ l, Updates ip dom weight u.1 u.2 (g u)) →
      Told ip dom weight rs ops → Told ip dom weight ((scope, fields) :: rs) (l.map g ++ ops)

end Verif.Collector.Announce
