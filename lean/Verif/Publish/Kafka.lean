import Verif.Collector.Types
/-!
# Publishers to Kafka

`J`, `A` and `K` stand for `kafka_json.rs`, `kafka_avro.rs` and `kafka_yang.rs` in `crates/collector/src/publishers`.

All that a publisher asks of the world is a history of calls, and what the world answers may depend on all calls before. Durations are in microseconds. What is logged is left out, as are
the attributes of counters and the counters of deliveries, `mod.rs:38-51`, which librdkafka drives.
-/
namespace Verif.Publish

/-- `BaseRecord` -/
structure Record where
  topic : String
  key : Option (List UInt8)
  payload : List UInt8
  headers : List (String × String)
  deriving DecidableEq, Repr

/-- the results of `ThreadedProducer::send`: queued, `QueueFull`, or another error -/
inductive Answer where
  | queued
  | full
  | refused
  deriving DecidableEq, Repr

/-- what is asked of the world: a record is given to librdkafka, the publisher sleeps, it flushes the queue of librdkafka, or others -/
inductive Call (X : Type) where
  | produce (r : Record) (a : Answer)
  | sleep (micros : Nat)
  | flush
  | other (x : X)
  deriving DecidableEq, Repr

abbrev Kafka (X : Type) := List (Call X) → Record → Answer

/-- `MAX_POLLING_INTERVAL`, `J:27`, `A:35`, `K:56` -/
def maxPolling : Nat := 5000000

/-- the counters that the loop of `send` changes -/
structure Sends where
  sent : Nat := 0
  retries : Nat := 0
  errors : Nat := 0
  deriving DecidableEq, Repr

/-- the loop of `send`, `J:254-295`, `A:362-414`, `K:660-701`, after `polling_interval` has been doubled `k` times; whether the record has been queued -/
def offer (kafka : Kafka X) (k : Nat) (h : List (Call X)) (s : Sends) (r : Record) : List (Call X) × Sends × Bool :=
  match kafka h r with
  | .queued => (h ++ [.produce r .queued], { s with sent := s.sent + 1 }, true)
  | .full =>
    if hk : 10 * 2 ^ k > maxPolling then (h ++ [.produce r .full], { s with errors := s.errors + 1 }, false)
    else offer kafka (k + 1) (h ++ [.produce r .full, .sleep (10 * 2 ^ k)]) { s with retries := s.retries + 1 } r
  | .refused => (h ++ [.produce r .refused], { s with errors := s.errors + 1 }, false)
termination_by 20 - k
decreasing_by
  have : k < 20 := by
    rcases Nat.lt_or_ge k 20 with h | h
    · exact h
    · have := Nat.pow_le_pow_right (n := 2) (by omega) h
      unfold maxPolling at hk
      omega
  omega

/-- what the loop of `run` awaits: a message, the shutdown command, or the end of a channel. That commands are taken first if both are there is up to the list of events -/
inductive Event (T : Type) where
  | message (m : T)
  | shutdown
  | commandsClosed
  | messagesClosed
  deriving DecidableEq, Repr

/-- the results of `run` -/
inductive Ending where
  | shutdown
  | closed
  | receiveError
  deriving DecidableEq, Repr

/-- `run`, `J:298-331`, `A:445-480`, `K:705-739` -/
def run (handle : S → T → S) (flush : S → S) : S → List (Event T) → S × Option Ending
  | s, [] => (s, none)
  | s, .message m :: es => run handle flush (handle s m) es
  | s, .shutdown :: _ => (flush s, some .shutdown)
  | s, .commandsClosed :: _ => (s, some .closed)
  | s, .messagesClosed :: _ => (s, some .receiveError)

/-! ## JSON -/

/-- what the publisher of JSON is made with: a serializer, `J:135`, and `serde_json::to_vec` -/
structure JsonConfig (T J : Type) where
  topic : String
  serialize : T → Option (Option J × J)
  toVec : J → Option (List UInt8)

/-- the counters of `KafkaJsonPublisherStats`, with all calls so far -/
structure JsonState where
  history : List (Call Empty) := []
  received : Nat := 0
  errorDecode : Nat := 0
  sends : Sends := {}
  deriving DecidableEq, Repr

/-- `send`, `J:201-296` -/
def JsonConfig.send (c : JsonConfig T J) (kafka : Kafka Empty) (s : JsonState) (m : T) : JsonState :=
  match c.serialize m with
  | none => { s with errorDecode := s.errorDecode + 1 }
  | some (key, value) =>
    match c.toVec value with
    | none => { s with errorDecode := s.errorDecode + 1 }
    | some payload =>
      match key.map c.toVec with
      | some none => { s with errorDecode := s.errorDecode + 1 }
      | some (some key) =>
        let (h, x, _) := offer kafka 0 s.history s.sends ⟨c.topic, some key, payload, []⟩
        { s with history := h, sends := x }
      | none =>
        let (h, x, _) := offer kafka 0 s.history s.sends ⟨c.topic, none, payload, []⟩
        { s with history := h, sends := x }

/-- `J:319-324` -/
def JsonConfig.handle (c : JsonConfig T J) (kafka : Kafka Empty) (s : JsonState) (m : T) : JsonState := c.send kafka { s with received := s.received + 1 } m

/-- `run` of the publisher of JSON -/
def JsonConfig.run (c : JsonConfig T J) (kafka : Kafka Empty) : JsonState → List (Event T) → JsonState × Option Ending :=
  Publish.run (c.handle kafka) fun s => { s with history := s.history ++ [.flush] }

/-! ## Avro -/

/-- the encoder of Avro values, which asks the schema registry, is asked -/
structure AvroCall (V : Type) where
  value : V
  bytes : Option (List UInt8)
  deriving DecidableEq, Repr

/-- what the publisher of Avro is made with: an `AvroConverter`, `A:37-46`, and `serde_json::to_vec` -/
structure AvroConfig (T J V : Type) where
  topic : String
  key : T → Option J
  values : T → Option (List V)
  toVec : J → Option (List UInt8)

/-- the counters of `KafkaAvroPublisherStats`, with all calls so far -/
structure AvroState (V : Type) where
  history : List (Call (AvroCall V)) := []
  received : Nat := 0
  errorKey : Nat := 0
  errorConvert : Nat := 0
  errorEncode : Nat := 0
  sends : Sends := {}

/-- the loop over values, `A:331-415`, with the numbers of successful sends and of errors -/
def AvroConfig.sendValues (c : AvroConfig T J V) (kafka : Kafka (AvroCall V)) (encoder : List (Call (AvroCall V)) → V → Option (List UInt8)) (key : Option (List UInt8)) :
    AvroState V → Nat → Nat → List V → AvroState V × Nat × Nat
  | s, done, errors, [] => (s, done, errors)
  | s, done, errors, v :: vs =>
    match encoder s.history v with
    | none => sendValues c kafka encoder key { s with history := s.history ++ [.other ⟨v, none⟩], errorEncode := s.errorEncode + 1 } done (errors + 1) vs
    | some payload =>
      let (h, x, ok) := offer kafka 0 (s.history ++ [.other ⟨v, some payload⟩]) s.sends ⟨c.topic, key, payload, []⟩
      sendValues c kafka encoder key { s with history := h, sends := x } (if ok then done + 1 else done) (if ok then errors else errors + 1) vs

/-- `send`, `A:296-443`; whether it is `Ok` -/
def AvroConfig.send (c : AvroConfig T J V) (kafka : Kafka (AvroCall V)) (encoder : List (Call (AvroCall V)) → V → Option (List UInt8)) (s : AvroState V) (m : T) : AvroState V × Bool :=
  match (c.key m).map c.toVec with
  | some none => ({ s with errorKey := s.errorKey + 1 }, false)
  | key =>
    match c.values m with
    | none => ({ s with errorConvert := s.errorConvert + 1 }, false)
    | some vs =>
      let (s, done, _) := c.sendValues kafka encoder key.join s 0 0 vs
      (s, done != 0)

/-- `A:466-471` -/
def AvroConfig.handle (c : AvroConfig T J V) (kafka : Kafka (AvroCall V)) (encoder : List (Call (AvroCall V)) → V → Option (List UInt8)) (s : AvroState V) (m : T) : AvroState V :=
  (c.send kafka encoder { s with received := s.received + 1 } m).1

/-- `run` of the publisher of Avro -/
def AvroConfig.run (c : AvroConfig T J V) (kafka : Kafka (AvroCall V)) (encoder : List (Call (AvroCall V)) → V → Option (List UInt8)) :
    AvroState V → List (Event T) → AvroState V × Option Ending :=
  Publish.run (c.handle kafka encoder) fun s => { s with history := s.history ++ [.flush] }

/-! ## YANG -/

/-- what becomes of a request to the cache of YANG libraries, `K:492-537`: it can not be sent, there is an answer, with a library or without, the answer is dropped, or late -/
inductive Lookup (L : Type) where
  | unsent
  | found (contentId : String) (lib : L)
  | unknown (contentId : String)
  | dropped
  | late
  deriving DecidableEq, Repr

/-- the cache is asked for a library; a library is loaded, extended and registered, `K:540-574`: nothing is an error, and registries may answer without an identifier -/
inductive YangCall (L : Type) where
  | lookup (contentId : String) (a : Lookup L)
  | register (lib : L) (a : Option (Option Int))
  deriving DecidableEq, Repr

/-- what the publisher of YANG is made with: a `YangConverter`, `K:61-93`, `serde_json::to_vec`, and the identifier of the default schema -/
structure YangConfig (T J : Type) where
  topic : String
  contentId : T → Option String
  key : T → Option J
  serialize : T → Option (List UInt8)
  toVec : J → Option (List UInt8)
  default : Option Int

/-- the world of the publisher of YANG -/
structure YangWorld (L : Type) where
  kafka : Kafka (YangCall L)
  lookup : List (Call (YangCall L)) → String → Lookup L
  register : List (Call (YangCall L)) → L → Option (Option Int)

/-- `schema_id_cache` and the counters of `KafkaYangPublisherStats`, with all calls so far -/
structure YangState (L : Type) where
  history : List (Call (YangCall L)) := []
  ids : List (String × Int) := []
  received : Nat := 0
  errorDecode : Nat := 0
  sends : Sends := {}

open Collector in
/-- `register_schema`, `K:422-577`; nothing is an error -/
def YangConfig.registerSchema (c : YangConfig T J) (w : YangWorld L) (s : YangState L) (contentId : Option String) : YangState L × Option (Option Int) :=
  match contentId with
  | none => (s, some c.default)
  | some id =>
    match s.ids.look id with
    | some n => (s, some (some n))
    | none =>
      let a := w.lookup s.history id
      let s := { s with history := s.history ++ [.other (.lookup id a)] }
      match a with
      | .unsent => (s, none)
      | .unknown _ => (s, some c.default)
      | .dropped => (s, some c.default)
      | .late => (s, some c.default)
      | .found id' lib =>
        let r := w.register s.history lib
        let s := { s with history := s.history ++ [.other (.register lib r)] }
        match r with
        | some (some n) => ({ s with ids := put s.ids id' n }, some (some n))
        | _ => (s, none)

/-- `K:635-648` -/
def yangHeaders : Option Int → List (String × String)
  | some id => [("schema-id", toString id), ("content-type", "application/yang.data+json")]
  | none => []

/-- `send`, `K:592-702` -/
def YangConfig.send (c : YangConfig T J) (w : YangWorld L) (s : YangState L) (m : T) : YangState L :=
  match c.serialize m with
  | none => { s with errorDecode := s.errorDecode + 1 }
  | some payload =>
    match (c.key m).map c.toVec with
    | some none => { s with errorDecode := s.errorDecode + 1 }
    | key =>
      match c.registerSchema w s (c.contentId m) with
      | (s, none) => s
      | (s, some id) =>
        let (h, x, _) := offer w.kafka 0 s.history s.sends ⟨c.topic, key.join, payload, yangHeaders id⟩
        { s with history := h, sends := x }

/-- `K:726-731` -/
def YangConfig.handle (c : YangConfig T J) (w : YangWorld L) (s : YangState L) (m : T) : YangState L := c.send w { s with received := s.received + 1 } m

/-- `run` of the publisher of YANG -/
def YangConfig.run (c : YangConfig T J) (w : YangWorld L) : YangState L → List (Event T) → YangState L × Option Ending :=
  Publish.run (c.handle w) fun s => { s with history := s.history ++ [.flush] }

end Verif.Publish
