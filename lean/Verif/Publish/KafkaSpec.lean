import Verif.Publish.Kafka
/-!
# What publishers to Kafka are to do
-/
namespace Verif.Publish
open Collector

/-- the records that librdkafka has queued, in their order -/
def queued (h : List (Call X)) : List Record := h.filterMap fun
  | .produce r .queued => some r
  | _ => none

/-- how often a record has been given to librdkafka -/
def attempts (h : List (Call X)) : Nat := h.countP fun
  | .produce _ _ => true
  | _ => false

/-- how often a publisher slept -/
def sleeps (h : List (Call X)) : Nat := h.countP fun
  | .sleep _ => true
  | _ => false

/-- for how long a publisher slept -/
def slept (h : List (Call X)) : Nat := (h.map fun
  | .sleep n => n
  | _ => 0).sum

/-- what is written down as answered by librdkafka has been answered by it -/
def Answered (kafka : Kafka X) (h : List (Call X)) : Prop := ∀ before r a after, h = before ++ .produce r a :: after → kafka before r = a

/-- so many attempts find the queue full; after the first the publisher sleeps for 10 microseconds, and then for twice the time each -/
def waits (r : Record) : Nat → List (Call X)
  | 0 => []
  | k + 1 => waits r k ++ [.produce r .full, .sleep (10 * 2 ^ k)]

/-- how a record is published, and whether it was queued: after up to 19 attempts that find the queue full, one that does not, or one more that does -/
inductive Tries (r : Record) : List (Call X) → Bool → Prop where
  | sent {k : Nat} : k ≤ 19 → Tries r (waits r k ++ [.produce r .queued]) true
  | refused {k : Nat} : k ≤ 19 → Tries r (waits r k ++ [.produce r .refused]) false
  | full : Tries r (waits r 19 ++ [.produce r .full]) false

/-- the messages that a publisher takes: those before the first other event -/
def messages : List (Event T) → List T
  | .message m :: es => m :: messages es
  | _ => []

/-- why a publisher ends: the first other event -/
def ending : List (Event T) → Option Ending
  | [] => none
  | .message _ :: es => ending es
  | .shutdown :: _ => some .shutdown
  | .commandsClosed :: _ => some .closed
  | .messagesClosed :: _ => some .receiveError

/-- what is done at the end -/
def lastly : Option Ending → List (Call X)
  | some .shutdown => [.flush]
  | _ => []

/-- the record of a message -/
def JsonConfig.record (c : JsonConfig T J) (m : T) : Option Record :=
  (c.serialize m).bind fun (key, value) => (c.toVec value).bind fun payload =>
    match key with
    | none => some ⟨c.topic, none, payload, []⟩
    | some key => (c.toVec key).map fun key => ⟨c.topic, some key, payload, []⟩

/-- the key of the records of a message; nothing is an error -/
def AvroConfig.recordKey (c : AvroConfig T J V) (m : T) : Option (Option (List UInt8)) :=
  match c.key m with
  | none => some none
  | some key => (c.toVec key).map some

/-- the values to be published of a message, with their key; nothing is an error -/
def AvroConfig.parts (c : AvroConfig T J V) (m : T) : Option (Option (List UInt8) × List V) :=
  (c.recordKey m).bind fun key => (c.values m).map fun vs => (key, vs)

/-- how a value is published: it can not be encoded, or it is encoded and its record is published -/
inductive PublishesValue (topic : String) (key : Option (List UInt8)) (v : V) : List (Call (AvroCall V)) → Prop where
  | failed : PublishesValue topic key v [.other ⟨v, none⟩]
  | tried {payload : List UInt8} {h : List (Call (AvroCall V))} {ok : Bool} :
    Tries ⟨topic, key, payload, []⟩ h ok → PublishesValue topic key v (.other ⟨v, some payload⟩ :: h)

/-- how a message is published: all its values, one after the other -/
def PublishesValues (topic : String) (key : Option (List UInt8)) (vs : List V) (h : List (Call (AvroCall V))) : Prop :=
  ∃ bs : List (V × List (Call (AvroCall V))), bs.map (·.1) = vs ∧ h = bs.flatMap (·.2) ∧ ∀ b ∈ bs, PublishesValue topic key b.1 b.2

/-- the key and the payload of a message; nothing is an error -/
def YangConfig.content (c : YangConfig T J) (m : T) : Option (Option (List UInt8) × List UInt8) :=
  (c.serialize m).bind fun payload =>
    match c.key m with
    | none => some (none, payload)
    | some key => (c.toVec key).map fun key => (some key, payload)

/-- the identifier of the schema of a content identifier is known: it was given at the start, or the library that was found for it has been registered with it -/
def Knows (start : List (String × Int)) (h : List (Call (YangCall L))) (contentId : String) (id : Int) : Prop :=
  start.look contentId = some id ∨ ∃ before lib after, h = before ++ .other (.lookup contentId (.found contentId lib)) :: .other (.register lib (some (some id))) :: after

/-- how the identifier of the schema of a content identifier is found, after what has been done before; nothing is an error -/
inductive Finds (start : List (String × Int)) (default : Option Int) (before : List (Call (YangCall L))) : Option String → List (Call (YangCall L)) → Option (Option Int) → Prop where
  | none : Finds start default before none [] (some default)
  | known {contentId : String} {id : Int} : Knows start before contentId id → Finds start default before (some contentId) [] (some (some id))
  | missing {contentId : String} {a : Lookup L} : (∀ id, ¬Knows start before contentId id) → a = .unknown contentId ∨ a = .dropped ∨ a = .late →
    Finds start default before (some contentId) [.other (.lookup contentId a)] (some default)
  | registered {contentId : String} {lib : L} {id : Int} : (∀ id, ¬Knows start before contentId id) →
    Finds start default before (some contentId) [.other (.lookup contentId (.found contentId lib)), .other (.register lib (some (some id)))] (some (some id))
  | unsent {contentId : String} : (∀ id, ¬Knows start before contentId id) → Finds start default before (some contentId) [.other (.lookup contentId .unsent)] none
  | failed {contentId : String} {lib : L} {a : Option (Option Int)} : (∀ id, ¬Knows start before contentId id) → (∀ id, a ≠ some (some id)) →
    Finds start default before (some contentId) [.other (.lookup contentId (.found contentId lib)), .other (.register lib a)] none

/-- what becomes of a message: it can not be serialized, its schema can not be found, or its record is published, with the identifier of the schema if there is one -/
inductive PublishesYang (c : YangConfig T J) (start : List (String × Int)) (before : List (Call (YangCall L))) (m : T) : List (Call (YangCall L)) → Prop where
  | unserialized : c.content m = none → PublishesYang c start before m []
  | unregistered {key : Option (List UInt8)} {payload : List UInt8} {h : List (Call (YangCall L))} : c.content m = some (key, payload) →
    Finds start c.default before (c.contentId m) h none → PublishesYang c start before m h
  | tried {key : Option (List UInt8)} {payload : List UInt8} {h h' : List (Call (YangCall L))} {id : Option Int} {headers : List (String × String)} {ok : Bool} :
    c.content m = some (key, payload) → Finds start c.default before (c.contentId m) h (some id) →
    (∀ name value, (name, value) ∈ headers ↔ ∃ n, id = some n ∧ (name = "schema-id" ∧ value = toString n ∨ name = "content-type" ∧ value = "application/yang.data+json")) →
    Tries ⟨c.topic, key, payload, headers⟩ h' ok → PublishesYang c start before m (h ++ h')

/-- how often a message was lost as its schema could not be found: the cache could not be asked, or the library could not be registered -/
def unregistered (h : List (Call (YangCall L))) : Nat := h.countP fun
  | .other (.lookup _ .unsent) => true
  | .other (.register _ none) => true
  | .other (.register _ (some none)) => true
  | _ => false

/-- the cache answers for what it was asked for -/
def YangWorld.Honest (w : YangWorld L) : Prop :=
  (∀ h id id' lib, w.lookup h id = .found id' lib → id' = id) ∧ ∀ h id id', w.lookup h id = .unknown id' → id' = id

end Verif.Publish
