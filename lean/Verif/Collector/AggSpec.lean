import Verif.Collector.Aggregation
import Verif.Collector.Spec
/-!
# What the aggregation of flow records should report, said of the records received

Nothing here refers to caches, windows of the aggregator or items.
-/
namespace Verif.Collector.FlowSpec
open Flow (Kind Value Field Ie Time FlowSet)
open Hist (nth)

/-- a data record as received -/
structure Flat where
  peer : Peer
  proto : Proto
  domain : UInt32
  template : UInt16
  exported : Time
  collected : Time
  upTime : UInt32
  fields : List Field

/-- the records of the data sets, with the id of the set -/
def recordsIn {κ φ : Type} (sets : List (FlowSet κ φ)) : List (UInt16 × List Field) :=
  sets.flatMap fun
    | .data id l => l.map fun r => (id, r.fields)
    | _ => []

/-- the records of a packet -/
def flatsOf (i : Input) : List Flat :=
  match i.info with
  | .ipfix p => (recordsIn p.sets).map fun x => ⟨i.peer, .ipfix, p.domain, x.1, p.exportTime, i.now, 0, x.2⟩
  | .netflow p => (recordsIn p.sets).map fun x => ⟨i.peer, .netflow, p.source, x.1, p.unixTime, i.now, p.sysUpTime, x.2⟩

/-- all records received -/
def flats (ins : List Input) : List Flat := ins.flatMap flatsOf

/-- nanoseconds since 1970 -/
def ns (t : Time) : Int := t.secs * 1000000000 + t.nanos

/-- the times of chrono, without leap seconds -/
def Chrono (t : Time) : Prop := -8334601228800 ≤ t.secs ∧ t.nanos < 1000000000

/-- the time in the header of the packet -/
def exportOf (i : Input) : Time :=
  match i.info with
  | .ipfix p => p.exportTime
  | .netflow p => p.unixTime

/-- the record follows one of the same exporter that is ahead by more than the lateness -/
def TooLate (lat : Nat) (pre : List Flat) (r : Flat) : Prop := ∃ q ∈ pre, q.peer.ip = r.peer.ip ∧ ns r.exported + lat < ns q.exported

instance (lat : Nat) (pre : List Flat) (r : Flat) : Decidable (TooLate lat pre r) := inferInstanceAs (Decidable (∃ q ∈ pre, _))

/-- those among the records, which follow `pre`, that are not too late -/
def kept (lat : Nat) : List Flat → List Flat → List Flat
  | _, [] => []
  | pre, r :: rs => (if TooLate lat pre r then [] else [r]) ++ kept lat (pre ++ [r]) rs

/-- an earlier packet of the same exporter that has records is ahead by more than the lateness -/
def Behind (lat : Nat) (pre : List Input) (i : Input) : Prop :=
  ∃ j ∈ pre, flatsOf j ≠ [] ∧ j.peer.ip = i.peer.ip ∧ ns (exportOf i) + lat < ns (exportOf j)

instance (lat : Nat) (pre : List Input) (i : Input) : Decidable (Behind lat pre i) := inferInstanceAs (Decidable (∃ j ∈ pre, _))

/-- those among the packets, which follow `pre`, that are not behind -/
def onTime (lat : Nat) : List Input → List Input → List Input
  | _, [] => []
  | pre, i :: ins => (if Behind lat pre i then [] else [i]) ++ onTime lat (pre ++ [i]) ins

/-- and those that are -/
def behind (lat : Nat) : List Input → List Input → List Input
  | _, [] => []
  | pre, i :: ins => (if Behind lat pre i then [i] else []) ++ behind lat (pre ++ [i]) ins

/-- the minute in which a record was exported -/
def minute (r : Flat) : Int := ns r.exported / 60000000000

/-- the values, if present, of the fields by which records are grouped -/
def keysOf (keys : List (FieldRef Ie)) (r : Flat) : List (Option Field) := keys.map fun k => nth r.fields k.ie k.index

/-- records that are reported together: of the same exporter, in the same protocol, exported in the same minute, with the same values of the key fields -/
def Together (keys : List (FieldRef Ie)) (a b : Flat) : Prop :=
  a.peer.ip = b.peer.ip ∧ a.proto = b.proto ∧ minute a = minute b ∧ keysOf keys a = keysOf keys b

instance (keys : List (FieldRef Ie)) (a b : Flat) : Decidable (Together keys a b) := inferInstanceAs (Decidable (_ ∧ _ ∧ _ ∧ _))

/-- the values of an occurrence of an element in records that have it -/
def valuesOf (ref : FieldRef Ie) (g : List Flat) : List Field := g.filterMap fun r => nth r.fields ref.ie ref.index

/-- values combined from left to right; one that cannot be combined is skipped -/
def combined (S : Sem) (op : AggOp) : List Field → Option Field
  | [] => none
  | v :: vs => some (vs.foldl (fun l r => (S.apply op l r).getD l) v)

/-- without repetition, the elements of a list -/
def Lists {α : Type} (l m : List α) : Prop := l.Nodup ∧ ∀ x, x ∈ l ↔ x ∈ m

def NotAfter (a b : Time) : Prop := a.secs < b.secs ∨ (a.secs = b.secs ∧ a.nanos ≤ b.nanos)
def Earliest (l : List Time) (t : Time) : Prop := t ∈ l ∧ ∀ t' ∈ l, NotAfter t t'
def Latest (l : List Time) (t : Time) : Prop := t ∈ l ∧ ∀ t' ∈ l, NotAfter t' t

/-- the packet has one data set, with id 65535 and one record with these fields -/
def Carries : Info → List Field → Prop
  | .ipfix p, fs => p.sets = [.data 65535 [⟨[], fs⟩]]
  | .netflow p, fs => p.sets = [.data 65535 [⟨[], fs⟩]]

/-- the header of the packet: protocol, observation domain, and for NetFlow the greatest of these times since boot -/
def Header (proto : Proto) (shard : Nat) (ups : List UInt32) : Info → Prop
  | .ipfix p => proto = .ipfix ∧ p.domain = UInt32.ofNat shard
  | .netflow p => proto = .netflow ∧ p.source = UInt32.ofNat shard ∧ p.sysUpTime ∈ ups ∧ ∀ x ∈ ups, x ≤ p.sysUpTime

/-- the exporter as a field: `originalExporterIPv4Address`, `originalExporterIPv6Address` -/
def exporter : IpAddr → Field
  | .v4 a => .known 0 403 (.ipv4 a)
  | .v6 a => .known 0 404 (.ipv6 a)

/-- The packet reports the records `g`, which are reported together with `r`: the key fields they have in common, for each aggregated field the combination of
its values in the order of arrival, how many there are (`originalFlowsPresent`), the earliest and the latest export time (`minExportSeconds`,
`maxExportSeconds`), the latest time of receipt (`collectionTimeMilliseconds`), the window (`windowStart`, `windowEnd`), the exporter, and all ports
(`originalExporterTransportPort`), domains (`originalObservationDomainId`) and templates (`originalTemplateId`). -/
structure Reports (S : Sem) (u : Unified) (shard : Nat) (r : Flat) (g : List Flat) (p : IpAddr × Info) : Prop where
  address : p.1 = r.peer.ip
  header : Header r.proto shard (g.map (·.upTime)) p.2
  body : ∃ ports domains templates first last seen start stop,
    Lists ports (g.map (·.peer.port)) ∧ Lists domains (g.map (·.domain)) ∧ Lists templates (g.map (·.template)) ∧
    Earliest (g.map (·.exported)) first ∧ Latest (g.map (·.exported)) last ∧ Latest (g.map (·.collected)) seen ∧
    (ns start = minute r * 60000000000 ∧ start.nanos = 0) ∧ (ns stop = ns start + u.window ∧ stop.nanos < 1000000000) ∧
    Carries p.2
      ((keysOf u.keys r ++ u.aggs.map fun a => combined S a.op (valuesOf a.ref g)).filterMap id ++
        [.known 0 375 (.unsigned64 (UInt64.ofNat g.length)), .known 0 264 (.seconds first), .known 0 260 (.seconds last), .known 0 258 (.millis seen)] ++
        [.known 3746 1 (.seconds start), .known 3746 2 (.seconds stop), exporter r.peer.ip] ++
        ports.map (fun x => .known 3746 4 (.unsigned16 x)) ++ domains.map (fun x => .known 0 405 (.unsigned32 x)) ++
        templates.map (fun x => .known 3746 3 (.unsigned16 x)))

/-- what a configuration lists, in its order: an element, which of its occurrences, and what is done with it -/
def selected (c : Config) : List (Ie × Nat × Op') :=
  c.transform.flatMap fun (ie, t) =>
    match t with
    | .single op => [(ie, 0, op)]
    | .multi ops => ops.map fun (n, op) => (ie, n, op)

/-- which operations an element supports: numbers that are neither identifiers, flags nor named can be added; numbers, times, addresses and lists compared; values of a
fixed form other than times and floating point numbers, octets, and all that is unknown combined bit by bit -/
def Allowed (S : Sem) (ie : Ie) : Op' → Prop
  | .key => True
  | .agg .add => ∃ p i k, ie = .known p i k ∧ S.label p i = false ∧ S.registry p i = false ∧
      k ∈ [Kind.unsigned8, .unsigned16, .unsigned32, .unsigned64, .signed32, .float64]
  | .agg .min | .agg .max => ∃ p i k, ie = .known p i k ∧
      k ∈ [Kind.unsigned8, .unsigned16, .tcpControlBits, .unsigned32, .unsigned64, .signed32, .float64, .seconds, .millis, .micros, .nanos, .ipv4, .ipv6, .basicList,
        .subTemplateList, .subTemplateMultiList]
  | .agg .boolMapOr => ∀ p i k, ie = .known p i k →
      k ∈ [Kind.octetArray, .mpls, .unsigned8, .unsigned16, .tcpControlBits, .unsigned32, .unsigned64, .unsigned256, .signed32, .boolean, .macAddress, .ipv4, .ipv6]

/-! ## The meaning of combined values -/

/-- the number that a value is, or is written as -/
def number : Value → Option Int
  | .unsigned8 v | .tcpControlBits v => some v.toNat
  | .unsigned16 v => some v.toNat
  | .unsigned32 v | .ipv4 v => some v.toNat
  | .unsigned64 v => some v.toNat
  | .signed32 v => some v.toInt
  | .boolean v => some v.toNat
  | .macAddress v => some v.toNat
  | .ipv6 v => some v.toNat
  | _ => none

/-- the time that a value is -/
def instant : Value → Option Time
  | .seconds t | .millis t | .micros t | .nanos t => some t
  | _ => none

/-- values in order, as numbers or times -/
inductive NotAbove : Value → Value → Prop
  | number {a b x y} : number a = some x → number b = some y → x ≤ y → NotAbove a b
  | time {a b s t} : instant a = some s → instant b = some t → NotAfter s t → NotAbove a b

/-- bits of the numbers of a kind -/
def width : Kind → Nat
  | .unsigned8 => 8
  | .unsigned16 => 16
  | .unsigned32 | .signed32 => 32
  | .unsigned64 => 64
  | _ => 0

/-- the numbers of a kind -/
def Fits (k : Kind) (n : Int) : Prop :=
  match k with
  | .signed32 => -2 ^ 31 ≤ n ∧ n < 2 ^ 31
  | k => 0 ≤ n ∧ n < 2 ^ width k

/-- the sum of numbers -/
def total (vs : List Value) : Int := (vs.map fun v => (number v).getD 0).sum

/-- a bit of a value: of octets in their order from the lowest bit on, of numbers from the lowest bit on -/
def bit : Value → Nat → Bool
  | .octetArray l, n => (l.getD (n / 8) 0).toNat.testBit (n % 8)
  | .mpls v, n => v.getLsbD n
  | .unsigned8 v, n | .tcpControlBits v, n => v.toNat.testBit n
  | .unsigned16 v, n => v.toNat.testBit n
  | .unsigned32 v, n | .ipv4 v, n => v.toNat.testBit n
  | .unsigned64 v, n => v.toNat.testBit n
  | .unsigned256 v, n => v.getLsbD n
  | .signed32 v, n => v.toBitVec.getLsbD n
  | .boolean v, n => v && n == 0
  | .macAddress v, n => v.getLsbD n
  | .ipv6 v, n => v.getLsbD n
  | _, _ => false

/-- octets of a value of variable length -/
def octets : Value → Nat
  | .octetArray l => l.length
  | _ => 0

end Verif.Collector.FlowSpec
