import Verif.Collector.Sonata
/-!
# Labels for the messages of YANG push

`E` stands for `crates/collector/src/yang_push/enrichment.rs` and `O` for `crates/collector/src/yang_push/mod.rs`. `V` are the values of labels. Statistics and
log messages are left out.
-/
namespace Verif.Collector

/-- `Label`, `crates/yang-push/src/model/telemetry.rs:524-530` -/
structure Label (V : Type) where
  name : String
  value : V
  deriving DecidableEq, Repr

/-- `EnrichmentOperation`, `O:26-38`, with its payloads -/
inductive LabelOp (A V : Type) where
  | upsert (ip : A) (weight : UInt8) (labels : List (Label V))
  | delete (ip : A) (weight : UInt8) (names : List String)
  | deleteAll (ip : A) (weight : UInt8)
  deriving DecidableEq, Repr

/-- `WeightedLabel`, `E:55-59` -/
structure WeightedLabel (V : Type) where
  label : Label V
  weight : UInt8
  deriving DecidableEq, Repr

variable {A V : Type} [DecidableEq A]

/-- `EnrichmentOperation::validate`, `O:57-65` -/
def LabelOp.valid : LabelOp A V → Bool
  | .upsert _ _ ls => !ls.isEmpty
  | .delete _ _ ns => !ns.isEmpty
  | .deleteAll _ _ => true

/-- the labels of an address, by their names -/
abbrev LabelMap (V : Type) := List (String × WeightedLabel V)

/-- the body of the loop over labels of an upsert, `E:227-263` -/
def upsertLabel (weight : UInt8) (m : LabelMap V) (l : Label V) : LabelMap V :=
  match m.look l.name with
  | some cur => if weight ≥ cur.weight then put m l.name ⟨l, weight⟩ else m
  | none => put m l.name ⟨l, weight⟩

/-- the body of the loop over names of a deletion, `E:280-301` -/
def deleteLabel (weight : UInt8) (m : LabelMap V) (name : String) : LabelMap V :=
  match m.look name with
  | some cur => if weight ≥ cur.weight then del m name else m
  | none => m

/-- entries without labels are removed, `E:303-307`, `E:317-324` -/
def keepLabels (c : List (A × LabelMap V)) (ip : A) (m : LabelMap V) : List (A × LabelMap V) := if m.isEmpty then del c ip else put c ip m

/-- `apply_enrichment`, `E:205-334` -/
def applyLabels (c : List (A × LabelMap V)) : LabelOp A V → List (A × LabelMap V)
  | .upsert ip weight labels => if labels.isEmpty then c else put c ip (labels.foldl (upsertLabel weight) ((c.look ip).getD []))
  | .delete ip weight names =>
    if names.isEmpty then c
    else
      match c.look ip with
      | some m => keepLabels c ip (names.foldl (deleteLabel weight) m)
      | none => c
  | .deleteAll ip weight =>
    match c.look ip with
    | some m => keepLabels c ip (m.filter fun x => weight < x.2.weight)
    | none => c

/-- the labels of a message from an address, `E:355-358`: the values of the map, in an order that is not specified -/
def LabelsOf (c : List (A × LabelMap V)) (ip : A) (res : Option (List (Label V))) : Prop :=
  match c.look ip with
  | none => res = none
  | some m => ∃ l, l.Perm (m.map fun x => x.2.label) ∧ res = some l

/-- the operation that deletes what is known of an address, `crates/collector/src/inputs/kafka/handlers.rs:339-345`, `:386-392` -/
def sonataLabelsRemove (weight : UInt8) (a : A) : LabelOp A V := .delete a weight ["node_id", "platform_id"]

/-- the operation that brings what is known of a node, `crates/collector/src/inputs/kafka/handlers.rs:352-371`: `string` makes a value of a text -/
def sonataLabelsSet (string : String → V) (weight : UInt8) (n : SonataNode A) : LabelOp A V :=
  .upsert n.loopback weight [⟨"node_id", string n.hostname⟩, ⟨"platform_id", string n.platform⟩]

/-- the operations for the enrichment of YANG push from an inventory -/
def sonataLabels (string : String → V) (weight : UInt8) (ms : List (Option (SonataData A))) : List (LabelOp A V) :=
  sonataRun LabelOp.valid (sonataLabelsRemove weight) (sonataLabelsSet string weight) ms []

end Verif.Collector
