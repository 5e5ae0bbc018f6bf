import Verif.Collector.Actor
/-!
# What a record says about sampling, and what its counters should become

Said of the fields of a record and of natural numbers. Nothing here refers to the parameters that the code collects or to its floating-point factor.
-/
namespace Verif.Collector.Sampling
open Flow (Field Value)

/-- an information element of the registry of IANA, with the values that it has -/
structure Element (α : Type) where
  id : UInt16
  value : α → Value

def samplingInterval : Element UInt32 := ⟨34, .unsigned32⟩
def samplingAlgorithm : Element UInt8 := ⟨35, .unsigned8⟩
def samplerMode : Element UInt8 := ⟨49, .unsigned8⟩
def samplerRandomInterval : Element UInt32 := ⟨50, .unsigned32⟩
def selectorAlgorithm : Element UInt16 := ⟨304, .unsigned16⟩
def samplingPacketInterval : Element UInt32 := ⟨305, .unsigned32⟩
def samplingPacketSpace : Element UInt32 := ⟨306, .unsigned32⟩
def samplingSize : Element UInt32 := ⟨309, .unsigned32⟩
def samplingPopulation : Element UInt32 := ⟨310, .unsigned32⟩
def samplingProbability : Element UInt64 := ⟨311, .float64⟩

variable {α : Type}

def Element.field (e : Element α) (v : α) : Field := .known 0 e.id (e.value v)

/-- the last field of the record with this element has this value -/
def Element.Says (e : Element α) (fs : List Field) (v : α) : Prop :=
  ∃ pre post, fs = pre ++ e.field v :: post ∧ ∀ w, e.field w ∉ post

/-- the record has no field with this element -/
def Element.Silent (e : Element α) (fs : List Field) : Prop := ∀ w, e.field w ∉ fs

/-- how packets were selected: of each `interval + space` the first `interval`, `size` of each `population`, each with a probability, or one of each
`interval` -/
inductive Method where
  | counted (interval space : UInt32)
  | chosen (size population : UInt32)
  | probable (probability : UInt64)
  | every (interval : UInt32)
  deriving DecidableEq

/-- the value of the bits of a binary64 number that is not negative, as a multiple of `2^-1074` -/
def binary64 (b : UInt64) : Nat :=
  if b.toNat < 2 ^ 52 then b.toNat else (2 ^ 52 + b.toNat % 2 ^ 52) * 2 ^ (b.toNat / 2 ^ 52 - 1)

/-- how many packets there were for how many that were selected; nothing if it cannot be told -/
inductive Method.Ratio : Method → Nat → Nat → Prop where
  | counted {i s : UInt32} : i ≠ 0 → Method.Ratio (.counted i s) (i.toNat + s.toNat) i.toNat
  | chosen {n m : UInt32} : n ≠ 0 → Method.Ratio (.chosen n m) m.toNat n.toNat
  | probable {b : UInt64} : 0 < b → b.toNat ≤ 0x3ff0000000000000 → Method.Ratio (.probable b) (2 ^ 1074) (binary64 b)
  | every {i : UInt32} : Method.Ratio (.every i) i.toNat 1

/-- what the parameters of a record say by themselves; of several methods the first one counts -/
inductive Implied (fs : List Field) : Method → Prop where
  | counted {i s} : samplingPacketInterval.Says fs i → samplingPacketSpace.Says fs s → Implied fs (.counted i s)
  | chosen {n m} : (samplingPacketInterval.Silent fs ∨ samplingPacketSpace.Silent fs) →
      samplingSize.Says fs n → samplingPopulation.Says fs m → Implied fs (.chosen n m)
  | probable {b} : (samplingPacketInterval.Silent fs ∨ samplingPacketSpace.Silent fs) → (samplingSize.Silent fs ∨ samplingPopulation.Silent fs) →
      samplingProbability.Says fs b → Implied fs (.probable b)
  | sampler {i} : (samplingPacketInterval.Silent fs ∨ samplingPacketSpace.Silent fs) → (samplingSize.Silent fs ∨ samplingPopulation.Silent fs) →
      samplingProbability.Silent fs → samplerRandomInterval.Says fs i → Implied fs (.every i)
  | sampling {i} : (samplingPacketInterval.Silent fs ∨ samplingPacketSpace.Silent fs) → (samplingSize.Silent fs ∨ samplingPopulation.Silent fs) →
      samplingProbability.Silent fs → samplerRandomInterval.Silent fs → samplingInterval.Says fs i → Implied fs (.every i)

/-- what the record announces: the algorithm that it names, the newer elements first, or else what its parameters say -/
inductive Announces (fs : List Field) : Method → Prop where
  | counted {i s} : selectorAlgorithm.Says fs 1 → samplingPacketInterval.Says fs i → samplingPacketSpace.Says fs s → Announces fs (.counted i s)
  | chosen {n m} : selectorAlgorithm.Says fs 3 → samplingSize.Says fs n → samplingPopulation.Says fs m → Announces fs (.chosen n m)
  | probable {b} : selectorAlgorithm.Says fs 4 → samplingProbability.Says fs b → Announces fs (.probable b)
  | sampler {a i} : selectorAlgorithm.Silent fs → samplerMode.Says fs a → a = 1 ∨ a = 2 → samplerRandomInterval.Says fs i → Announces fs (.every i)
  | sampling {a i} : selectorAlgorithm.Silent fs → samplerMode.Silent fs → samplingAlgorithm.Says fs a → a = 1 ∨ a = 2 →
      samplingInterval.Says fs i → Announces fs (.every i)
  | implied {m} : selectorAlgorithm.Silent fs → samplerMode.Silent fs → samplingAlgorithm.Silent fs → Implied fs m → Announces fs m

/-- the field is one of the counters octetDeltaCount, packetDeltaCount, octetTotalCount and packetTotalCount -/
def Counter (f : Field) (count : UInt64) : Prop := ∃ id : UInt16, id ∈ [1, 2, 85, 86] ∧ f = .known 0 id (.unsigned64 count)

/-- the field after a change of the counters -/
def recount (r : UInt64 → UInt64) : Field → Field
  | .known pen id (.unsigned64 c) => if pen = 0 ∧ id ∈ [1, 2, 85, 86] then .known 0 id (.unsigned64 (r c)) else .known pen id (.unsigned64 c)
  | f => f

/-- the largest counter -/
def most : Nat := 2 ^ 64 - 1

/-- `r` is `c * n / d` but for one part in `2^51` and the part after the point, or the largest counter in place of more -/
def Near (n d c r : Nat) : Prop :=
  2 ^ 51 * (r * d) ≤ (2 ^ 51 + 1) * (c * n) ∧ (r = most ∨ (2 ^ 51 - 1) * (c * n) < 2 ^ 51 * ((r + 1) * d))

/-- the field that marks a record whose counters were changed: element 16 of the registry of NetGauze -/
def mark : Field := .known 3746 16 (.boolean true)

/-- the record has a counter -/
def Counted (fs : List Field) : Prop := ∃ f ∈ fs, ∃ c, Counter f c

/-- what becomes of the fields of a record: with a ratio the counters change and the record is marked if it has some, and without one nothing changes -/
inductive Renewed (fs : List Field) : List Field → Prop where
  | scaled {m n d} (r : UInt64 → UInt64) : Announces fs m → m.Ratio n d → (∀ c : UInt64, Near n d c.toNat (r c).toNat) → Counted fs →
      Renewed fs (fs.map (recount r) ++ [mark])
  | uncounted : ¬ Counted fs → Renewed fs fs
  | unsaid : (∀ m n d, Announces fs m → ¬ m.Ratio n d) → Renewed fs fs

variable {κ φ : Type}
open Flow (DataRecord FlowSet)

/-- the records that are to be sent: those of options are left out -/
inductive RecordsRenewed : List (DataRecord φ) → List (DataRecord φ) → Prop where
  | nil : RecordsRenewed [] []
  | options {r l l'} : r.scope ≠ [] → RecordsRenewed l l' → RecordsRenewed (r :: l) l'
  | record {fs fs' l l'} : Renewed fs fs' → RecordsRenewed l l' → RecordsRenewed (⟨[], fs⟩ :: l) (⟨[], fs'⟩ :: l')

/-- the sets that are to be sent: those of data only -/
inductive SetsRenewed : List (FlowSet κ φ) → List (FlowSet κ φ) → Prop where
  | nil : SetsRenewed [] []
  | template {t l l'} : SetsRenewed l l' → SetsRenewed (.template t :: l) l'
  | options {t l l'} : SetsRenewed l l' → SetsRenewed (.options t :: l) l'
  | data {id rs rs' l l'} : RecordsRenewed rs rs' → SetsRenewed l l' → SetsRenewed (.data id rs :: l) (.data id rs' :: l')

/-- the packet that is to be sent, with the same header -/
def InfoRenewed : Info → Info → Prop
  | .ipfix p, .ipfix q => q.exportTime = p.exportTime ∧ q.sequence = p.sequence ∧ q.domain = p.domain ∧ SetsRenewed p.sets q.sets
  | .netflow p, .netflow q => q.sysUpTime = p.sysUpTime ∧ q.unixTime = p.unixTime ∧ q.sequence = p.sequence ∧ q.source = p.source ∧ SetsRenewed p.sets q.sets
  | _, _ => False

end Verif.Collector.Sampling
