import Verif.Collector.Enrichment
import Verif.Flow.Packet
/-!
# The actor that adds fields to flow packets

`A` stands for `crates/collector/src/flow/enrichment/actor.rs`. Statistics, log messages and the shutdown command are left out, and so is a failure to send,
which loses the packet and nothing else.
-/
namespace Verif.Collector
open Flow (Field DataRecord FlowSet IpfixPacket NetflowPacket)

/-- `impl HasIE for Field` -/
instance : HasIe Field Flow.Ie := ⟨Field.ie⟩

variable {A κ φ : Type}

/-- what the cache returns in a certain state, for a peer, a domain and the fields of a record -/
abbrev Get (A : Type) := A → UInt32 → List Field → Option (List Field)

/-- `enrichment_fields_for_record`, `A:141-153` -/
def fieldsFor (get : Get A) (writer : Field) (ip : A) (dom : UInt32) (fields : List Field) : List Field := (get ip dom fields).getD [] ++ [writer]

/-- `DataRecord::with_fields_added`, `flow-pkt/src/ipfix.rs:448-456`, `flow-pkt/src/netflow.rs:271-279` -/
def withFields (r : DataRecord φ) (add : List Field) : DataRecord φ := { r with fields := r.fields ++ add }

/-- the closure of `enrich_ipfix_packet`, `A:174-203`, and of `enrich_netflowv9_packet`, `A:233-262` -/
def enrichSet (get : Get A) (writer : Field) (ip : A) (dom : UInt32) : FlowSet κ φ → Option (FlowSet κ φ)
  | .data id records => some (.data id ((records.filter fun r => r.scope.isEmpty).map fun r => withFields r (fieldsFor get writer ip dom r.fields)))
  | .options _ => none
  | .template _ => none

/-- `FlowInfo` -/
inductive Info where
  | ipfix (p : IpfixPacket)
  | netflow (p : NetflowPacket)

/-- `enrich_ipfix_packet`, `A:162-211` -/
def enrichIpfix (get : Get A) (writer : Field) (ip : A) (p : IpfixPacket) : IpfixPacket :=
  ⟨p.exportTime, p.sequence, p.domain, p.sets.filterMap (enrichSet get writer ip p.domain)⟩

/-- `enrich_netflowv9_packet`, `A:220-271` -/
def enrichNetflow (get : Get A) (writer : Field) (ip : A) (p : NetflowPacket) : NetflowPacket :=
  ⟨p.sysUpTime, p.unixTime, p.sequence, p.source, p.sets.filterMap (enrichSet get writer ip p.source)⟩

/-- `enrich`, `A:122-138` -/
def enrich (get : Get A) (writer : Field) (ip : A) : Info → Info
  | .ipfix p => .ipfix (enrichIpfix get writer ip p)
  | .netflow p => .netflow (enrichNetflow get writer ip p)

/-- what the actor receives: operations, and packets from a peer `σ` -/
inductive Event (A σ : Type) where
  | op (o : Op A Field Flow.Ie)
  | flow (peer : σ) (p : Info)

variable {σ : Type} [DecidableEq A] [FieldOrd Field Flow.Ie]

/-- the loop of `run`, `A:274-344`, on what it receives in the order in which it does so, from a cache on, and what it sends. `addr` is `SocketAddr::ip`. -/
inductive Runs (addr : σ → A) (writer : Field) : Cache A Field Flow.Ie → List (Event A σ) → List (σ × Info) → Prop where
  | nil {c} : Runs addr writer c [] []
  | op {c o es out} : Runs addr writer (c.apply o) es out → Runs addr writer c (.op o :: es) out
  | flow {c peer p es out} (get : Get A) : (∀ ip dom fields, c.Returns ip dom fields (get ip dom fields)) → Runs addr writer c es out →
      Runs addr writer c (.flow peer p :: es) ((peer, enrich get writer (addr peer) p) :: out)

end Verif.Collector
