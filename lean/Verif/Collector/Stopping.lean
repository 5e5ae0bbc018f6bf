import Verif.Collector.Wiring
/-!
# Which actors a collection tells to stop

`L` stands for `crates/collector/src/lib.rs`. What an actor does that is told, whether it answers in time, and the order in which actors are told are left out. The cache of schemas, of which there is one, is an actor of collections of notifications.
-/
namespace Verif.Wiring

/-- an actor that a collection has made and has a handle of -/
inductive Made where
  | actor (c : Chain) (s : Stage)
  | input (i : Input)
  | schemas
  deriving DecidableEq, Repr

/-- what ends a collection that was started: its supervisor, or one of its tasks -/
inductive Cause where
  | supervisor
  | task
  deriving DecidableEq, Repr

/-- the actors of chains with a publisher, for which handles are kept, `L:177-180`, `L:276-279`, `L:596-597` and `L:628-650` -/
def Wired.actors (w : Wired) : List Made :=
  (w.chains.filter fun c => decide (.publisher ∈ c.stages)).flatMap fun c => c.stages.map (.actor c)

/-- those of them that publish -/
def Wired.publishers (w : Wired) : List Made :=
  (w.chains.filter fun c => decide (.publisher ∈ c.stages)).map fun c => .actor c .publisher

/-- all actors that a collection has made -/
def Wired.made (v : Svc) (w : Wired) : List Made := w.actors ++ w.inputs.map .input ++ if v = .udp then [.schemas] else []

/-- the actors that are told to stop. If the supervisor has ended only publishers are, `L:370-391`, `L:509-522` and `L:783-795`; if a task has, all are, `L:392-433`, `L:523-537` and `L:796-851`. -/
def Wired.told (v : Svc) (w : Wired) : Cause → List Made
  | .supervisor => w.publishers
  | .task =>
    match v with
    | .flow => w.actors ++ w.inputs.map .input
    | .bmp => w.publishers
    | .udp => w.actors ++ w.inputs.map .input ++ [.schemas]

end Verif.Wiring
