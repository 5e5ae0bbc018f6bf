import Verif.Collector.Actor
import Verif.Collector.Float64
/-!
# Renormalization of sampled flows

`R` stands for `crates/collector/src/flow/renormalization/logic.rs` and `S` for `crates/collector/src/flow/renormalization/actor.rs`. Statistics and log
messages are left out. A `selectorAlgorithm` is kept as its number in the registry.
-/
namespace Verif.Collector
open Flow (Field Value DataRecord FlowSet IpfixPacket NetflowPacket)

/-- `calculate_count_based_k`, `R:30-48` -/
def countBasedK (interval space : UInt32) : Option F64 :=
  if interval = 0 then none
  else some (((F64.ofNat space.toNat).add (F64.ofNat interval.toNat)).div (F64.ofNat interval.toNat))

/-- `calculate_random_n_out_of_n_k`, `R:50-68` -/
def randomK (size population : UInt32) : Option F64 :=
  if size = 0 then none else some ((F64.ofNat population.toNat).div (F64.ofNat size.toNat))

/-- `calculate_probabilistic_k`, `R:70-88`: of the bits of values that are not negative the order is that of the values, and those of one are
`0x3ff0000000000000`; bits above `0x7ff0000000000000` stand for NaN or a value below zero -/
def probabilisticK (probability : UInt64) : Option F64 :=
  if 0 < probability ∧ probability ≤ 0x3ff0000000000000 then some ((F64.ofNat 1).div (F64.ofBits probability)) else none

/-- `SamplingParameters`, `R:90-105` -/
structure SamplingParameters where
  interval34 : Option UInt32 := none
  algorithm35 : Option UInt8 := none
  mode49 : Option UInt8 := none
  interval50 : Option UInt32 := none
  selector304 : Option UInt16 := none
  interval305 : Option UInt32 := none
  space306 : Option UInt32 := none
  size309 : Option UInt32 := none
  population310 : Option UInt32 := none
  probability311 : Option UInt64 := none
  deriving DecidableEq

/-- `interval as f64`, where it is not checked -/
def intervalK (interval : UInt32) : F64 := F64.ofNat interval.toNat

/-- `calculate_renormalization_factor`, `R:107-261` -/
def factor (p : SamplingParameters) : Option F64 :=
  match p.selector304 with
  | some alg =>
    if alg = 1 then
      match p.interval305, p.space306 with
      | some interval, some space => countBasedK interval space
      | _, _ => none
    else if alg = 3 then
      match p.size309, p.population310 with
      | some size, some population => randomK size population
      | _, _ => none
    else if alg = 4 then
      match p.probability311 with
      | some probability => probabilisticK probability
      | none => none
    else none
  | none =>
  match p.mode49 with
  | some alg => if alg = 1 ∨ alg = 2 then p.interval50.map intervalK else none
  | none =>
  match p.algorithm35 with
  | some alg => if alg = 1 ∨ alg = 2 then p.interval34.map intervalK else none
  | none =>
  match p.interval305, p.space306 with
  | some interval, some space => countBasedK interval space
  | _, _ =>
  match p.size309, p.population310 with
  | some size, some population => randomK size population
  | _, _ =>
  match p.probability311 with
  | some probability => probabilisticK probability
  | none =>
  match p.interval50 with
  | some interval => some (intervalK interval)
  | none =>
  match p.interval34 with
  | some interval => some (intervalK interval)
  | none => none

/-- the body of the first loop of `renormalize_fields`, `R:327-341` -/
def SamplingParameters.note (p : SamplingParameters) : Field → SamplingParameters
  | .known 0 34 (.unsigned32 v) => { p with interval34 := some v }
  | .known 0 35 (.unsigned8 v) => { p with algorithm35 := some v }
  | .known 0 49 (.unsigned8 v) => { p with mode49 := some v }
  | .known 0 50 (.unsigned32 v) => { p with interval50 := some v }
  | .known 0 304 (.unsigned16 v) => { p with selector304 := some v }
  | .known 0 305 (.unsigned32 v) => { p with interval305 := some v }
  | .known 0 306 (.unsigned32 v) => { p with space306 := some v }
  | .known 0 309 (.unsigned32 v) => { p with size309 := some v }
  | .known 0 310 (.unsigned32 v) => { p with population310 := some v }
  | .known 0 311 (.float64 v) => { p with probability311 := some v }
  | _ => p

/-- `(*count as f64 * k_val) as u64` -/
def scale (k : F64) (count : UInt64) : UInt64 := ((F64.ofNat count.toNat).mul k).toU64

/-- the body of the second loop of `renormalize_fields`, `R:350-370`; `none` when the field is left alone -/
def scaleField (k : F64) : Field → Option Field
  | .known 0 1 (.unsigned64 count) => some (.known 0 1 (.unsigned64 (scale k count)))
  | .known 0 85 (.unsigned64 count) => some (.known 0 85 (.unsigned64 (scale k count)))
  | .known 0 2 (.unsigned64 count) => some (.known 0 2 (.unsigned64 (scale k count)))
  | .known 0 86 (.unsigned64 count) => some (.known 0 86 (.unsigned64 (scale k count)))
  | _ => none

/-- `Field::NetGauze(netgauze::Field::isRenormalized(true))` -/
def isRenormalized : Field := .known 3746 16 (.boolean true)

/-- `renormalize_fields`, `R:263-379` -/
def renormFields (fields : List Field) : List Field :=
  match factor (fields.foldl SamplingParameters.note {}) with
  | some k =>
    let scaled := fields.map fun f => (scaleField k f).getD f
    if fields.any fun f => (scaleField k f).isSome then scaled ++ [isRenormalized] else scaled
  | none => fields

variable {κ φ : Type}

/-- the closure of `renormalize`, `R:411-450` and `R:480-513` -/
def renormSet : FlowSet κ φ → Option (FlowSet κ φ)
  | .data id records => some (.data id ((records.filter fun r => r.scope.isEmpty).map fun r => ⟨r.scope, renormFields r.fields⟩))
  | .options _ => none
  | .template _ => none

/-- `renormalize`, `R:381-524` -/
def renormalize : Info → Info
  | .netflow p => .netflow ⟨p.sysUpTime, p.unixTime, p.sequence, p.source, p.sets.filterMap renormSet⟩
  | .ipfix p => .ipfix ⟨p.exportTime, p.sequence, p.domain, p.sets.filterMap renormSet⟩

variable {σ : Type}

/-- the loop of `run`, `S:123-173`, on the packets that arrive: what it has sent when it stops, which it does when it is told to, when its command channel is
closed or when a packet can be neither received nor sent. A packet that cannot be sent is lost, together with those behind it. -/
inductive RenormRuns : List (σ × Info) → List (σ × Info) → Prop where
  | stop {ps} : RenormRuns ps []
  | packet {peer p ps out} : RenormRuns ps out → RenormRuns ((peer, p) :: ps) ((peer, renormalize p) :: out)

end Verif.Collector
