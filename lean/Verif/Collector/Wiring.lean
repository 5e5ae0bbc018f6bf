/-!
# How the collector connects its actors

`L` stands for `crates/collector/src/lib.rs`. What actors do is modelled elsewhere; here is which of them are made for a configuration, what each reads from, and which tasks are waited for. Maps of groups and of endpoints are lists, in the order in which they are iterated.
Names, sizes of buffers, writers and counters are left out, as is how actors are shut down when the collection ends. The subscription that is made for option records, `L:184-186` and `L:283-285`, is left out.
-/
namespace Verif.Wiring

/-- the three collections, `L:63`, `L:438` and `L:542` -/
inductive Svc where
  | flow
  | bmp
  | udp
  deriving DecidableEq, Repr

/-- `PublisherEndpoint` -/
inductive Kind where
  | http
  | kafkaJson
  | flowAvro
  | flowJson
  | telemetryJson
  | telemetryYang
  | bmpAvro
  deriving DecidableEq, Repr

/-- an endpoint, with whether the configuration of its Avro converter is valid, `L:128`, and whether its publisher can be made -/
structure Endpoint where
  kind : Kind
  valid : Bool := true
  starts : Bool := true
  deriving DecidableEq, Repr

/-- a group of publishers; for each consumer of Kafka whether it can be made -/
structure Group where
  shards : Nat := 1
  aggregation : Bool := false
  options : Bool := false
  files : Bool := false
  consumers : List Bool := []
  endpoints : List Endpoint
  deriving DecidableEq, Repr

/-- actors between a subscription and what is outside -/
inductive Stage where
  | validation
  | enrichment
  | renormalization
  | aggregation
  | publisher
  deriving DecidableEq, Repr

/-- actors one behind the other, for an endpoint of a group; the first one reads a clone of the receiver of the shard of the group -/
structure Chain where
  group : Nat
  endpoint : Nat
  shard : Nat
  stages : List Stage
  deriving DecidableEq, Repr

/-- where operations of enrichment come from -/
inductive Source where
  | options
  | files
  | consumer
  deriving DecidableEq, Repr

/-- an actor that gives operations to the enrichment actors of chains -/
structure Input where
  group : Nat
  endpoint : Nat
  source : Source
  targets : List Chain
  deriving DecidableEq, Repr

/-- all that is made -/
structure Wired where
  chains : List Chain := []
  inputs : List Input := []
  deriving DecidableEq, Repr

/-- the number of receivers of a group, `L:89-98`, `L:452-461` and `L:577-579`: there are no shards for UDP notifications -/
def receivers (v : Svc) (g : Group) : Nat :=
  match v with
  | .udp => 1
  | _ => if g.shards > 1 then g.shards else 1

/-- the actors for an endpoint, `L:104-362`, `L:468-505` and `L:581-775`; none for an endpoint that the collection does not support. Without aggregation there is no publisher for enriched flows, `L:148` and `L:247`, and the handle of the enrichment actor is dropped, which ends it when it sees that, `enrichment/actor.rs:284`. -/
def stages (v : Svc) (aggregation : Bool) (k : Kind) : Option (List Stage) :=
  match v, k with
  | .flow, .http => some [.publisher]
  | .flow, .kafkaJson => some [.publisher]
  | .flow, .flowAvro => some (if aggregation then [.enrichment, .renormalization, .aggregation, .publisher] else [.enrichment])
  | .flow, .flowJson => some (if aggregation then [.enrichment, .renormalization, .aggregation, .publisher] else [.enrichment])
  | .bmp, .kafkaJson => some [.publisher]
  | .bmp, .bmpAvro => some [.publisher]
  | .udp, .kafkaJson => some [.publisher]
  | .udp, .telemetryJson => some [.validation, .enrichment, .publisher]
  | .udp, .telemetryYang => some [.validation, .enrichment, .publisher]
  | _, _ => none

/-- the handles that are kept for inputs: of enrichment actors before a publisher, `L:177`, `L:276`, `L:638` and `L:713` -/
def Chain.enriches (c : Chain) : Bool := decide (.enrichment ∈ c.stages) && decide (.publisher ∈ c.stages)

/-- the inputs of an endpoint, `L:188-235`, `L:287-334`, `L:658-688` and `L:739-768`; those for option records are for flows only -/
def inputsOf (v : Svc) (g : Group) (gi ei : Nat) (targets : List Chain) : List Input :=
  (if v = .flow ∧ g.options = true then [⟨gi, ei, .options, targets⟩] else []) ++
  (if g.files = true then [⟨gi, ei, .files, targets⟩] else []) ++ g.consumers.map fun _ => ⟨gi, ei, .consumer, targets⟩

/-- one endpoint: its chains and its inputs; none is an error, that ends the collection. `known` has the chains of the group whose enrichment actors have handles so far. -/
def endpoint (v : Svc) (g : Group) (gi ei : Nat) (known : List Chain) (e : Endpoint) : Option Wired :=
  match stages v g.aggregation e.kind with
  | none => none
  | some st =>
    if e.kind = .flowAvro ∧ e.valid = false then none
    else if .publisher ∈ st ∧ e.starts = false then none
    else
      let chains := (List.range (receivers v g)).map fun s => ⟨gi, ei, s, st⟩
      if .enrichment ∈ st then
        if g.consumers.all id then some ⟨chains, inputsOf v g gi ei (known ++ chains.filter Chain.enriches)⟩ else none
      else some ⟨chains, []⟩

/-- the endpoints of a group, `L:101-362` -/
def endpoints (v : Svc) (g : Group) (gi : Nat) : Nat → List Chain → List Endpoint → Option Wired
  | _, _, [] => some {}
  | ei, known, e :: es =>
    (endpoint v g gi ei known e).bind fun a =>
      (endpoints v g gi (ei + 1) (known ++ a.chains.filter Chain.enriches) es).map fun b => ⟨a.chains ++ b.chains, a.inputs ++ b.inputs⟩

/-- all groups, `L:81-366`: handles are not shared between groups -/
def groups (v : Svc) : Nat → List Group → Option Wired
  | _, [] => some {}
  | gi, g :: gs =>
    (endpoints v g gi 0 [] g.endpoints).bind fun a => (groups v (gi + 1) gs).map fun b => ⟨a.chains ++ b.chains, a.inputs ++ b.inputs⟩

/-- the number of tasks in `join_set`: of chains with a publisher all but the validation, and inputs, `L:123`, `L:173-176`, `L:201`, `L:215`, `L:231`, `L:596`, `L:637`, `L:648` and alike -/
def Wired.joined (w : Wired) : Nat :=
  ((w.chains.filter fun c => decide (.publisher ∈ c.stages)).map fun c => (c.stages.filter (· ≠ .validation)).length).sum + w.inputs.length

/-- the number of tasks in `validation_join_set`, `L:628` and `L:703` -/
def Wired.validations (w : Wired) : Nat := (w.chains.map fun c => (c.stages.filter (· = .validation)).length).sum

/-- whether the collection ends without that the supervisor or any task has ended, `L:369-434`, `L:508-538` and `L:782-852`: `FuturesUnordered::next` of an empty set is ready, with none -/
def endsAtOnce (v : Svc) (w : Wired) : Bool :=
  match v with
  | .udp => w.validations == 0 || w.joined == 0
  | _ => w.joined == 0

/-- the chains that read clones of a receiver. Receivers are those of `async_channel`, so that each message goes to one of them. -/
def Wired.readers (w : Wired) (g s : Nat) : List Chain := w.chains.filter fun c => c.group = g && c.shard = s

/-- messages of a shard of a group, each with the place of the reader that happens to take it; those that a chain gets -/
def gets {M : Type} (readers : List Chain) (c : Chain) (ms : List (M × Nat)) : List M := (ms.filter fun m => readers[m.2]? = some c).map Prod.fst

end Verif.Wiring
