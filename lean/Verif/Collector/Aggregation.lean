import Verif.Core.Prefix
import Verif.Collector.Actor
import Verif.Collector.FieldOps
import Verif.Analytics.Spec
/-!
# Aggregation of flow records

`B` stands for `crates/collector/src/flow/aggregation`. The windows are those of `crates/analytics` (`Verif.Analytics`). Statistics and log messages are left
out. A packet that cannot be handed over within a second is dropped by the code; what is modelled are the packets it tries to send.
-/
namespace Verif.Collector
open Flow (Kind Value Field Ie Time DataRecord FlowSet IpfixPacket NetflowPacket)

/-- `SocketAddr` -/
structure Peer where
  ip : IpAddr
  port : UInt16
  deriving DecidableEq, Repr

/-- `FlowInfoType` -/
inductive Proto | ipfix | netflow
  deriving DecidableEq, Repr

/-- `FlowCacheKey`, `B/aggregator.rs:119-124` -/
structure FlowKey where
  ip : IpAddr
  proto : Proto
  fields : List (Option Field)
  deriving DecidableEq, Repr

/-- `FlowCacheRecord`, `B/aggregator.rs:131-143`. The sets are lists without repetition, in the order of insertion; the order in which they are iterated over
is open. -/
structure FlowRec where
  ports : List UInt16
  domains : List UInt32
  templates : List UInt16
  minExport : Time
  maxExport : Time
  minCollection : Time
  maxCollection : Time
  upTime : UInt32
  fields : List (Option Field)
  count : UInt64
  deriving DecidableEq, Repr

/-- `AggFieldRef`, `B/config.rs:144-148` -/
structure AggRef where
  ref : FieldRef Ie
  op : AggOp
  deriving DecidableEq, Repr

/-- `extend` of a set -/
def union {α : Type} [DecidableEq α] (l r : List α) : List α := l ++ r.filter fun x => x ∉ l

variable (S : Sem)

/-- the body of the loop, `B/aggregator.rs:174-196`; an operation that fails leaves the field as it was -/
def reduceField (op : AggOp) : Option Field → Option Field → Option Field
  | some l, some r => some ((S.apply op l r).getD l)
  | none, some r => some r
  | l, none => l

/-- the loop, `B/aggregator.rs:173-197`. The indices are in range as all records are made by `explode` with one field, if any, for each of the selectors. -/
def reduceFields : List AggRef → List (Option Field) → List (Option Field) → List (Option Field)
  | a :: as, x :: l, y :: r => reduceField S a.op x y :: reduceFields as l r
  | _, l, _ => l

/-- `FlowCacheRecord::reduce`, `B/aggregator.rs:158-199`. The count would take 2^64 records to wrap around. -/
def FlowRec.reduce (aggs : List AggRef) (l r : FlowRec) : FlowRec where
  ports := union l.ports r.ports
  domains := union l.domains r.domains
  templates := union l.templates r.templates
  minExport := Time.min l.minExport r.minExport
  maxExport := Time.max l.maxExport r.maxExport
  minCollection := Time.min l.minCollection r.minCollection
  maxCollection := Time.max l.maxCollection r.maxCollection
  upTime := max l.upTime r.upTime
  fields := reduceFields S aggs l.fields r.fields
  count := l.count + r.count

/-- `AggFlowInfo`, `B/aggregator.rs:97-101` -/
structure Item where
  key : FlowKey
  data : FlowRec
  deriving DecidableEq, Repr

/-- `FxHashMap<FlowCacheKey, FlowCacheRecord>` -/
abbrev FlowCache := List (FlowKey × FlowRec)

/-- `FlowAggregator::push`, `B/aggregator.rs:78-90` -/
def pushItem (aggs : List AggRef) (c : FlowCache) (x : Item) : FlowCache :=
  match c.look x.key with
  | some r => put c x.key (r.reduce S aggs x.data)
  | none => put c x.key x.data

/-- nanoseconds since `DateTime::<Utc>::MIN_UTC`, as `Verif.Analytics` counts time -/
def ticks (t : Time) : Nat := ((t.secs + 8334601228800) * 1000000000 + t.nanos).toNat
/-- and back -/
def timeAt (n : Nat) : Time := ⟨(n / 1000000000 : Nat) - 8334601228800, n % 1000000000⟩

/-- `impl Aggregator for FlowAggregator` and `impl TimeSeriesData for AggFlowInfo`, `B/aggregator.rs:68-117` -/
def flowAgg (aggs : List AggRef) : Analytics.Agg IpAddr Item FlowCache FlowCache where
  key x := x.key.ip
  ts x := ticks x.data.maxExport
  init := []
  push := pushItem S aggs
  flush := id

/-! ## From packets to items -/

/-- `DataRecord`s of the data sets, `crates/flow-pkt/src/lib.rs:86-115` -/
def dataRecords {κ φ : Type} : List (FlowSet κ φ) → List (UInt16 × List Field)
  | [] => []
  | .data id l :: s => l.map (fun r => (id, r.fields)) ++ dataRecords s
  | .template _ :: s => dataRecords s
  | .options _ :: s => dataRecords s

/-- `FlowInfo::data_record_fields`, `crates/flow-pkt/src/lib.rs:86-115` -/
def Info.records : Info → List (UInt16 × List Field)
  | .ipfix p => dataRecords p.sets
  | .netflow p => dataRecords p.sets

/-- `FlowInfo::observation_domain_id`, `crates/flow-pkt/src/lib.rs:79-84` -/
def Info.domain : Info → UInt32
  | .ipfix p => p.domain
  | .netflow p => p.source

/-- `FlowInfo::export_time`, `crates/flow-pkt/src/lib.rs:65-70` -/
def Info.exported : Info → Time
  | .ipfix p => p.exportTime
  | .netflow p => p.unixTime

/-- `sys_up_time` in `explode`, `B/aggregator.rs:299-302` -/
def Info.upTime : Info → UInt32
  | .ipfix _ => 0
  | .netflow p => p.sysUpTime

/-- `FlowInfoType::from` -/
def Info.proto : Info → Proto
  | .ipfix _ => .ipfix
  | .netflow _ => .netflow

/-- `explode`, `B/aggregator.rs:280-354` -/
def explode (p : Info) (peer : Peer) (keys : List (FieldRef Ie)) (aggs : List AggRef) (now : Time) : List Item :=
  p.records.map fun (id, fields) =>
    let m := mapFields fields
    { key := ⟨peer.ip, p.proto, keys.map m.look⟩
      data :=
        { ports := [peer.port], domains := [p.domain], templates := [id], minExport := p.exported, maxExport := p.exported
          minCollection := now, maxCollection := now, upTime := p.upTime, fields := aggs.map fun a => m.look a.ref, count := 1 } }

/-- a packet as the actor receives it: from whom, and when -/
structure Input where
  peer : Peer
  info : Info
  now : Time

/-- the closure of `flat_map`, `B/actor.rs:153-176` -/
def itemsOf (keys : List (FieldRef Ie)) (aggs : List AggRef) (ins : List Input) : List Item :=
  ins.flatMap fun i => explode i.info i.peer keys aggs i.now

/-! ## From entries to packets -/

/-- elements of the NetGauze registry have the enterprise number of Swisscom, `crates/flow-pkt/build.rs:178` -/
def netgauzePen : UInt32 := 3746

/-- the fields of `into_flowinfo_with_extra_fields`, `B/aggregator.rs:219-242`; elements `originalFlowsPresent`, `minExportSeconds`, `maxExportSeconds`,
`collectionTimeMilliseconds`, `originalExporterTransportPort`, `originalObservationDomainId`, `originalTemplateId` -/
def outFields (k : FlowKey) (r : FlowRec) (extra : List Field) : List Field :=
  (k.fields ++ r.fields).filterMap id ++
    [.known 0 375 (.unsigned64 r.count), .known 0 264 (.seconds r.minExport), .known 0 260 (.seconds r.maxExport), .known 0 258 (.millis r.maxCollection)] ++
    extra ++ r.ports.map (fun p => .known netgauzePen 4 (.unsigned16 p)) ++ r.domains.map (fun d => .known 0 405 (.unsigned32 d)) ++
    r.templates.map (fun t => .known netgauzePen 3 (.unsigned16 t))

/-- `into_flowinfo_with_extra_fields`, `B/aggregator.rs:201-278`; `now` is `Utc::now()` -/
def toInfo (shard : Nat) (seq : UInt32) (now : Time) (k : FlowKey) (r : FlowRec) (extra : List Field) : Info :=
  match k.proto with
  | .ipfix => .ipfix ⟨now, seq, UInt32.ofNat shard, [.data 65535 [⟨[], outFields k r extra⟩]]⟩
  | .netflow => .netflow ⟨r.upTime, now, seq, UInt32.ofNat shard, [.data 65535 [⟨[], outFields k r extra⟩]]⟩

/-- `exporter_ip`, `window_start` and `window_end`, `B/actor.rs:222-227` -/
def exporterField : IpAddr → Field
  | .v4 a => .known 0 403 (.ipv4 a)
  | .v6 a => .known 0 404 (.ipv6 a)
def windowFields (w : Nat × Nat) (ip : IpAddr) : List Field :=
  [.known netgauzePen 1 (.seconds (timeAt w.1)), .known netgauzePen 2 (.seconds (timeAt w.2)), exporterField ip]

/-- what the actor makes packets of: the window, the address of the exporter and an entry -/
structure Entry where
  window : Nat × Nat
  ip : IpAddr
  key : FlowKey
  data : FlowRec

/-- the entries of a cache, iterated over in a certain order, with the address that the first one has, `B/actor.rs:206-212`, `B/actor.rs:230` -/
def entriesOf (w : Nat × Nat) (c : FlowCache) : List Entry :=
  match c with
  | [] => []
  | (k, _) :: _ => c.map fun e => ⟨w, k.ip, e.1, e.2⟩

/-- the entries for the outputs of the window aggregation, each cache in some order, `B/actor.rs:200-256`; late items are dropped, `B/actor.rs:258-269` -/
inductive Writes : List (Analytics.Out Item FlowCache) → List Entry → Prop
  | nil : Writes [] []
  | late {x outs es} : Writes outs es → Writes (.late x :: outs) es
  | win {w c c' outs es} : c'.Perm c → Writes outs es → Writes (.win w c :: outs) (entriesOf w c' ++ es)

/-- a packet for an entry, `B/actor.rs:233-242` -/
def Entry.packet (shard : Nat) (seq : UInt32) (now : Time) (e : Entry) : IpAddr × Info :=
  (e.ip, toInfo shard seq now e.key e.data (windowFields e.window e.ip))

/-- The packets the actor sends for these outputs. A task is spawned for each window, so the entries of different windows take their sequence numbers in any
order, and the packets leave in any order. -/
def Sends (shard : Nat) (outs : List (Analytics.Out Item FlowCache)) (pkts : List (IpAddr × Info)) : Prop :=
  ∃ (es es' : List Entry) (nows : Nat → Time), Writes outs es ∧ es'.Perm es ∧
    pkts.Perm (es'.zipIdx.map fun (e, n) => e.packet shard (UInt32.ofNat n) (nows n))

/-- The loop of `run`, `B/actor.rs:184-276`, from a state of the window aggregation on, and what it takes from it before it stops: a command, or that no more can
come, stops it; the end of the stream does not. -/
inductive Acts (aggs : List AggRef) (ordOf : HMap IpAddr (BMap FlowCache) → List (IpAddr × BMap FlowCache)) :
    Analytics.Polls Item → Analytics.Adaptor IpAddr Item FlowCache FlowCache → List (Analytics.Out Item FlowCache) → Prop
  | stop {src a} : Acts aggs ordOf src a []
  | pend {src a src' a' outs} : Analytics.pollNext (flowAgg S aggs) ordOf src a = some (.pending, src', a') → Acts aggs ordOf src' a' outs →
      Acts aggs ordOf src a outs
  | step {src a src' a' o outs} : Analytics.pollNext (flowAgg S aggs) ordOf src a = some (.ready (some o), src', a') → Acts aggs ordOf src' a' outs →
      Acts aggs ordOf src a (o :: outs)
  | idle {src a src' a' outs} : Analytics.pollNext (flowAgg S aggs) ordOf src a = some (.ready none, src', a') → Acts aggs ordOf src' a' outs →
      Acts aggs ordOf src a outs

/-! ## Configuration -/

/-- `Op`, `B/config.rs:127-134` -/
inductive Op' where
  | key
  | agg (op : AggOp)
  deriving DecidableEq, Repr

/-- `Transform`, `B/config.rs:120-125`; an index map is a list of entries -/
inductive Transform where
  | single (op : Op')
  | multi (ops : List (Nat × Op'))
  deriving DecidableEq, Repr

/-- `AggregationConfig`, `B/config.rs:77-82`; durations in nanoseconds -/
structure Config where
  window : Nat
  lateness : Nat
  transform : List (Ie × Transform)
  deriving DecidableEq, Repr

/-- `UnifiedConfig`, `B/config.rs:165-171` -/
structure Unified where
  window : Nat
  lateness : Nat
  keys : List (FieldRef Ie)
  aggs : List AggRef
  deriving DecidableEq, Repr

/-- `ConfigurationError`, `B/config.rs:54-59`, without the reason -/
inductive ConfigError where
  | invalidWindow
  | latenessExceedsWindow
  | invalidOperation (ie : Ie) (op : Op')
  deriving DecidableEq, Repr

/-- `validate_operation_compatibility`, `B/config.rs:201-240`, whether it is `Ok` -/
def Sem.compatible (ie : Ie) : Op' → Bool
  | .key => true
  | .agg .add => S.supportsArithmetic ie
  | .agg .min | .agg .max => supportsComparison ie
  | .agg .boolMapOr => supportsBitwise ie

/-- what is done for one occurrence of an element, `B/config.rs:255-285` and `B/config.rs:289-319` -/
def addOp (ie : Ie) (index : Nat) (op : Op') (u : Unified) : Except ConfigError Unified :=
  if S.compatible ie op then
    match op with
    | .key => .ok { u with keys := u.keys ++ [⟨ie, index⟩] }
    | .agg o => .ok { u with aggs := u.aggs ++ [⟨⟨ie, index⟩, o⟩] }
  else .error (.invalidOperation ie op)

/-- the inner loop, `B/config.rs:288-320` -/
def addOps (ie : Ie) : List (Nat × Op') → Unified → Except ConfigError Unified
  | [], u => .ok u
  | (n, op) :: l, u => do addOps ie l (← addOp S ie n op u)

/-- the outer loop, `B/config.rs:252-323` -/
def addTransforms : List (Ie × Transform) → Unified → Except ConfigError Unified
  | [], u => .ok u
  | (ie, .single op) :: l, u => do addTransforms l (← addOp S ie 0 op u)
  | (ie, .multi ops) :: l, u => do addTransforms l (← addOps S ie ops u)

/-- `AggregationConfig::try_into`, `B/config.rs:242-332`, with `validate`, `B/config.rs:107-117` -/
def Config.unify (c : Config) : Except ConfigError Unified :=
  if c.window = 0 then .error .invalidWindow
  else if c.window < c.lateness then .error .latenessExceedsWindow
  else addTransforms S c.transform ⟨c.window, c.lateness, [], []⟩

/-! ## Executions of the actor -/

/-- the actor with this configuration, which receives these packets and then the end of the channel, sends these packets; the source may be pending in between -/
def AggRuns (u : Unified) (shard : Nat) (ins : List Input) (pkts : List (IpAddr × Info)) : Prop :=
  ∃ ordOf polls outs, Analytics.IsOrder ordOf ∧ polls.filterMap id = itemsOf u.keys u.aggs ins ∧
    Analytics.StreamCollects (flowAgg S u.aggs) ordOf polls (Analytics.Adaptor.new [] u.window u.lateness) outs ∧ Sends shard outs pkts

/-- the same, stopped by a command at any time -/
def AggStops (u : Unified) (shard : Nat) (ins : List Input) (pkts : List (IpAddr × Info)) : Prop :=
  ∃ ordOf polls outs, Analytics.IsOrder ordOf ∧ polls.filterMap id = itemsOf u.keys u.aggs ins ∧
    Acts S u.aggs ordOf polls (Analytics.Adaptor.new [] u.window u.lateness) outs ∧ Sends shard outs pkts

end Verif.Collector
