import Verif.Collector.MapText
/-!
# Enrichment from an inventory of nodes

`S` stands for `crates/collector/src/inputs/kafka/handlers.rs`, `J` for `crates/collector/src/inputs/kafka/formats/sonata.rs` and `C` for
`crates/collector/src/inputs/kafka/actor.rs`. How `serde_json` reads a message is left out: a message is what was read, or `none` if there is no payload or
nothing could be read. Operations are taken to reach the enrichment caches, each of which gets the same.
-/
namespace Verif.Collector
open Flow (Field Value Ie)

/-- `SonataOperation`, `J:20-28` -/
inductive SonataOperation where
  | insert
  | update
  | delete
  deriving DecidableEq, Repr

/-- `SonataNode` with `SonataPlatform`, `J:37-48` -/
structure SonataNode (A : Type) where
  hostname : String
  loopback : A
  platform : String
  deriving DecidableEq, Repr

/-- `SonataData`, `J:30-35` -/
structure SonataData (A : Type) where
  operation : SonataOperation
  idNode : UInt32
  node : Option (SonataNode A)
  deriving DecidableEq, Repr

variable {A T : Type} [DecidableEq A]

/-- `handle_message` of `SonataHandler`, `S:222-313` for flows and `S:315-402` for YANG push, which differ in the operations that they make: `remove` deletes what is
known of an address and `set` brings what is known of a node. `none` is an error. -/
def SonataData.handle (valid : T → Bool) (remove : A → T) (set : SonataNode A → T) (cache : List (UInt32 × A)) (d : SonataData A) :
    Option (List T) × List (UInt32 × A) :=
  match d.operation with
  | .delete =>
    match cache.look d.idNode with
    | some a => (some ([remove a].filter valid), del cache d.idNode)
    | none => (some [], del cache d.idNode)
  | _ =>
    match d.node with
    | none => (none, cache)
    | some node =>
      let old := match cache.look d.idNode with
        | some a => if node.loopback ≠ a then [remove a] else []
        | none => []
      (some ((old ++ [set node]).filter valid), put cache d.idNode node.loopback)

/-- the loop of `run`, `C:264-350`: messages that cannot be handled are skipped -/
def sonataRun (valid : T → Bool) (remove : A → T) (set : SonataNode A → T) : List (Option (SonataData A)) → List (UInt32 × A) → List T
  | [], _ => []
  | none :: ms, cache => sonataRun valid remove set ms cache
  | some d :: ms, cache => ((d.handle valid remove set cache).1.getD []) ++ sonataRun valid remove set ms (d.handle valid remove set cache).2

/-- the operation that deletes what is known of an address, `S:246-256`, `S:293-303`: the elements are `nodeId` and `platformId` of NetGauze -/
def sonataRemove (weight : UInt8) (a : A) : Op A Field Ie := .delete a ⟨0, none⟩ weight [.known 3746 5 .string, .known 3746 6 .string]

/-- the operation that brings what is known of a node, `S:263-278` -/
def sonataSet (weight : UInt8) (n : SonataNode A) : Op A Field Ie :=
  .upsert n.loopback ⟨0, none⟩ weight [.known 3746 5 (.string n.hostname), .known 3746 6 (.string n.platform)]

/-- the operations for the enrichment of flows -/
def sonataOps (weight : UInt8) (ms : List (Option (SonataData A))) : List (Op A Field Ie) := sonataRun Op.valid (sonataRemove weight) (sonataSet weight) ms []

end Verif.Collector
