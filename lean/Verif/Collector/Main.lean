/-!
# The end of the collector

`M` stands for `crates/collector/src/main.rs` and `L` for `crates/collector/src/lib.rs`. A collection is one of those for flows, BMP and notifications, `M:280-296`; it is known by its place. What collections do is modelled elsewhere: here they only end, or fail. Reading the configuration and telemetry are left out.
-/
namespace Verif.CollectorMain

/-- a collection ends with success, or fails, while it starts its actors or after it has told them to stop; or the process is interrupted -/
inductive Event where
  | ends (i : Nat)
  | fails (i : Nat) (starting : Bool)
  | interrupt
  deriving DecidableEq, Repr

/-- the collections that have ended, those that have told their actors to stop, `L:370-431`, and whether the collector exited with success or not -/
structure State where
  ended : List Nat := []
  told : List Nat := []
  exit : Option Bool := none
  deriving DecidableEq, Repr

/-- the start with some collections, `M:278-296`: `try_join_all` of none is ready -/
def start (n : Nat) : State := { exit := if n = 0 then some true else none }

/-- `select!` of a signal and of `try_join_all`, `M:314-330`: the first failure ends the collector, and so does the last success -/
def step (n : Nat) (s : State) (e : Event) : State :=
  if s.exit.isSome then s
  else match e with
    | .interrupt => { s with exit := some true }
    | .ends i => if i < n ∧ i ∉ s.ended then { ended := s.ended ++ [i], told := s.told ++ [i], exit := if s.ended.length + 1 = n then some true else none } else s
    | .fails i starting => if i < n ∧ i ∉ s.ended then { ended := s.ended ++ [i], told := if starting then s.told else s.told ++ [i], exit := some false } else s

/-- events one after the other -/
def run (n : Nat) (es : List Event) : State := es.foldl (step n) (start n)

end Verif.CollectorMain
