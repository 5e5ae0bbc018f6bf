import Verif.Service.DatagramRuns

/-! The supervisors of the actors that receive datagrams. `SU` is `crates/udp-notif-service/src/supervisor.rs` and `SF` is
`crates/flow-service/src/flow_supervisor.rs`, which differ in what they do when no actor could be started. A supervisor
waits for the replies of all actors before it takes the next command, or, for commands that are passed on to all actors,
its handle does, so each command is modelled as one step. What an actor does between commands is in `Super.actors`, which
theorems have as a parameter. -/

namespace Verif.Service
open Verif Verif.Collector

variable {σ π : Type}

/-- `Subscription`, `crates/udp-notif-service/src/lib.rs:69-73` -/
structure Subscription where
  actor : Nat
  id : UInt32
  deriving DecidableEq, Repr

/-- an actor of a supervisor, which may have ended, so that commands to it cannot be sent -/
structure Worker (σ : Type) where
  actor : Actor σ
  live : Bool

/-- `UdpNotifSupervisor`, `SU:117-119`, `FlowCollectorsSupervisorActor`, `SF:121-123`: the actors by their identifiers, in
the order in which the map is walked -/
abbrev Super (σ : Type) := List (Nat × Worker σ)

/-- the loop that starts actors, `SU:285-314`, `SF:283-313`: for each worker asked for, the address it is bound to, or
that it failed. The identifier of an actor that failed is used again. -/
def startActors (σ : Type) : Nat → List (Option Addr) → Super σ
  | _, [] => []
  | n, none :: r => startActors σ n r
  | n, some ad :: r => (n, ⟨.new n ad, true⟩) :: startActors σ (n + 1) r

/-- what a supervisor does on its first round when it has no actors: `futures::future::select_all` panics when given
nothing, `SU:133`. `None` is a panic of the task of the supervisor. -/
def joinActors {α : Type} : List α → Option Unit
  | [] => none
  | _ :: _ => some ()

/-- how starting a supervisor ends -/
inductive Started (σ : Type) where
  | running (s : Super σ)
  | noListener
  | panicked
  deriving Inhabited

/-- `UdpNotifSupervisorHandle::new`, `SU:276-326`, with the first round of `run`, `SU:231-243` -/
def startUdpNotif (σ : Type) (bound : List (Option Addr)) : Started σ :=
  let s := startActors σ 0 bound
  match joinActors s with
  | none => .panicked
  | some () => .running s

/-- `FlowCollectorsSupervisorActorHandle::new`, `SF:276-327`, with the first round of `run`, `SF:241-253` -/
def startFlow (σ : Type) (bound : List (Option Addr)) : Started σ :=
  let s := startActors σ 0 bound
  if s.isEmpty then .noListener
  else match joinActors s with
    | none => .panicked
    | some () => .running s

/-- a command passed on to all actors, `SU:164-179`, `SF:173-187` -/
def Super.all (codec : Codec σ π) (c : Command) (s : Super σ) : Super σ × List (Effect σ π) :=
  (s.map fun x => if x.2.live then (x.1, { x.2 with actor := (x.2.actor.handle codec c).1 }) else x,
    s.flatMap fun x => if x.2.live then (x.2.actor.handle codec c).2.1 else [])

/-- `subscribe_tx`, `SU:354-377`, `subscribe_shards_tx`, `SF:397-420`: the supervisor passes the command on, and the handle
collects what actors reply -/
def Super.subscribe (codec : Codec σ π) (chans : List Chan) (s : Super σ) : Super σ × List Subscription :=
  ((s.all codec (.subscribe chans true)).1, (s.all codec (.subscribe chans true)).2.filterMap fun
    | .subscribed a i => some ⟨a, i⟩
    | _ => none)

/-- the subscriptions at an actor, `SU:181-184`, `SF:189-192` -/
def mapped (subs : List Subscription) (i : Nat) : List UInt32 := (subs.filter fun x => decide (x.actor = i)).map (·.id)

/-- `Unsubscribe`, `SU:180-215`, `SF:188-223`: `handle.unsubscribe`, `U:971-987`, `F:1047-1063`, fails only if the command
cannot be sent, and the subscriptions it returns are not looked at -/
def Super.unsubscribe (codec : Codec σ π) (subs : List Subscription) (s : Super σ) : Super σ × List (Option Nat) :=
  (s.map fun x =>
      if x.2.live then
        (x.1, { x.2 with actor := (mapped subs x.1).foldl (fun (a : Actor σ) i => (a.handle codec (.unsubscribe i)).1) x.2.actor })
      else x,
    s.map fun x => if x.2.live ∧ mapped subs x.1 ≠ [] then some x.1 else none)

end Verif.Service
