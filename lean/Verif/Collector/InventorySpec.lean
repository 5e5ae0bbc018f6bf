import Verif.Collector.YangMessages
import Verif.Collector.Spec
/-!
# What an inventory says, and histories of labels
-/
namespace Verif.Collector.Inventory
variable {A : Type}

/-- the message says something of the node: it is gone, or what it is now -/
def Concerns (m : Option (SonataData A)) (id : UInt32) : Prop := ∃ d, m = some d ∧ d.idNode = id ∧ (d.operation = .delete ∨ d.node ≠ none)

/-- the last message about the node said that it is this -/
def Listed (ms : List (Option (SonataData A))) (id : UInt32) (n : SonataNode A) : Prop :=
  ∃ pre d post, ms = pre ++ some d :: post ∧ d.operation ≠ .delete ∧ d.idNode = id ∧ d.node = some n ∧ ∀ m ∈ post, ¬ Concerns m id

/-- at no time are there two nodes with the same address -/
def Distinct (ms : List (Option (SonataData A))) : Prop :=
  ∀ ms', ms' <+: ms → ∀ id n id' n', Listed ms' id n → Listed ms' id' n' → n.loopback = n'.loopback → id = id'

/-- what is known of flows from a node: the name of the host and the platform, for all of its flows, with the weight that is configured -/
def Told (weight : UInt8) (n : SonataNode A) (p : Hist.Place A Flow.Field Flow.Ie) (w : UInt8) (f : Flow.Field) : Prop :=
  w = weight ∧ p.ip = n.loopback ∧ p.domain = 0 ∧ p.scope = [] ∧ p.index = 0 ∧
    ((p.ie = .known 3746 5 .string ∧ f = .known 3746 5 (.string n.hostname)) ∨ (p.ie = .known 3746 6 .string ∧ f = .known 3746 6 (.string n.platform)))

/-- what messages from a node are labelled with -/
def Labelled {V : Type} (string : String → V) (weight : UInt8) (n : SonataNode A) (p : A × String) (w : UInt8) (v : V) : Prop :=
  w = weight ∧ p.1 = n.loopback ∧ ((p.2 = "node_id" ∧ v = string n.hostname) ∨ (p.2 = "platform_id" ∧ v = string n.platform))

end Verif.Collector.Inventory

namespace Verif.Collector.LabelHist
variable {A V : Type}

/-- the operation brings this value for a label of an address, with this weight: of labels with the same name the last one counts -/
def Puts (o : LabelOp A V) (p : A × String) (w : UInt8) (v : V) : Prop :=
  ∃ pre post, o = .upsert p.1 w (pre ++ ⟨p.2, v⟩ :: post) ∧ ∀ l ∈ post, l.name ≠ p.2

/-- the operation deletes the label up to this weight -/
def Drops (o : LabelOp A V) (p : A × String) (w : UInt8) : Prop := (∃ names, o = .delete p.1 w names ∧ p.2 ∈ names) ∨ o = .deleteAll p.1 w

/-- the operation ends what was brought with weight `w` -/
def Ends (o : LabelOp A V) (p : A × String) (w : UInt8) : Prop := ∃ w', w ≤ w' ∧ ((∃ v, Puts o p w' v) ∨ Drops o p w')

/-- the value was brought and nothing later ended it -/
def Survives (ops : List (LabelOp A V)) (p : A × String) (w : UInt8) (v : V) : Prop :=
  ∃ pre o post, ops = pre ++ o :: post ∧ Puts o p w v ∧ ∀ o' ∈ post, ¬ Ends o' p w

/-- the surviving value of the highest weight -/
def Held (ops : List (LabelOp A V)) (p : A × String) (w : UInt8) (v : V) : Prop := Survives ops p w v ∧ ∀ w' v', Survives ops p w' v' → w' ≤ w

/-- the operations among what arrived -/
def labelOps {X : Type} (es : List (LabelEvent A X V)) : List (LabelOp A V) := es.filterMap fun e => match e with | .op o => some o | _ => none

/-- the notifications with contents among what arrived -/
def notificationsOf {X : Type} (es : List (LabelEvent A X V)) : List (Option String × YangPush.SubInfo A X × YangPush.Decoded X) :=
  es.filterMap fun e => match e with | .notification c i d => if d.contents.isSome then some (c, i, d) else none | _ => none

/-- what a message from an address is labelled with: nothing if no label survives, else one label for each name for which there is one -/
def Answers (ops : List (LabelOp A V)) (ip : A) (res : Option (List (Label V))) : Prop :=
  (res = none ∧ ∀ name w v, ¬ Survives ops (ip, name) w v) ∨
    ∃ l, res = some l ∧ l ≠ [] ∧ (l.map (·.name)).Nodup ∧ ∀ x, x ∈ l ↔ ∃ w, Held ops (ip, x.name) w x.value

end Verif.Collector.LabelHist
