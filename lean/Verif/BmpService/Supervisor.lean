/-!
# The supervisor of BMP actors

`S` stands for `crates/bmp-service/src/supervisor.rs` and `A` for `crates/bmp-service/src/actor.rs`. How the replies of actors are collected is modelled by steps of the actors and of the handle in any order. What a command does is modelled as one
step of all actors: the tasks of connections, and the channels of subscribers, are in `BmpService/Model.lean`, and are left out here, as are errors of channels of replies that nobody reads.
-/
namespace Verif.BmpSuper

/-! ## Replies -/

/-- how an actor replies: it waits for room, as for `tx.send`, `A:435`, `A:538` and `S:232`, or it does not, as for `try_send`, `A:345` and `A:376` -/
inductive Manner where
  | waits
  | tries
  deriving DecidableEq, Repr

/-- a channel of replies, with what actors are still to reply, and what the handle has got -/
structure Collect (R : Type) where
  pending : List R
  queue : List R := []
  got : List R := []
  deriving DecidableEq, Repr

/-- an actor replies, or the handle takes a reply, `S:403-405` and alike -/
inductive Turn where
  | reply (i : Nat)
  | take
  deriving DecidableEq, Repr

/-- one step; none if it cannot be made. The channel has room for `cap` replies, `S:391`. -/
def Collect.turn {R : Type} (m : Manner) (cap : Nat) (c : Collect R) : Turn → Option (Collect R)
  | .reply i =>
    match c.pending[i]? with
    | none => none
    | some r =>
      if c.queue.length < cap then some { c with pending := c.pending.eraseIdx i, queue := c.queue ++ [r] }
      else match m with
        | .waits => none
        | .tries => some { c with pending := c.pending.eraseIdx i }
  | .take =>
    match c.queue with
    | [] => none
    | r :: q => some { c with queue := q, got := c.got ++ [r] }

/-- steps one after the other -/
def Collect.turns {R : Type} (m : Manner) (cap : Nat) : Collect R → List Turn → Option (Collect R)
  | c, [] => some c
  | c, t :: ts => (c.turn m cap t).bind fun c => Collect.turns m cap c ts

/-- the handle is done: all actors have replied, so that all senders are gone, and nothing is left -/
def Collect.Done {R : Type} (c : Collect R) : Prop := c.pending = [] ∧ c.queue = []

/-! ## Actors -/

/-- an actor: whether it runs, the next identifier of a subscriber, its subscribers, and the peers that are connected -/
structure Worker where
  live : Bool := true
  next : Nat := 0
  subs : List Nat := []
  peers : List Nat := []
  deriving DecidableEq, Repr

/-- `BmpSupervisor`, `S:139-141` -/
abbrev Super := List (Nat × Worker)

/-- the loop that starts actors, `S:301-327`: for each, whether it could be started; the identifier of one that could not is used again -/
def startFrom : Nat → List Bool → Super
  | _, [] => []
  | n, false :: l => startFrom n l
  | n, true :: l => (n, {}) :: startFrom (n + 1) l

/-- `BmpSupervisorHandle::new`, `S:293-341`: none is `NoListenerStarted` -/
def start (l : List Bool) : Option Super := if (startFrom 0 l).isEmpty then none else some (startFrom 0 l)

/-- a command to all actors that run -/
def Super.each (f : Worker → Worker) (s : Super) : Super := s.map fun x => if x.2.live then (x.1, f x.2) else x

/-- the replies of all actors that run -/
def Super.replies {R : Type} (f : Nat → Worker → R) (s : Super) : List R := s.filterMap fun x => if x.2.live then some (f x.1 x.2) else none

/-- `handle_subscribe`, `A:399-443` -/
def Worker.subscribe (w : Worker) : Worker := { w with next := w.next + 1, subs := w.subs ++ [w.next] }

/-- `subscribe_tx`, `S:386-407`: the subscriptions are pairs of an actor and a subscriber -/
def Super.subscribe (s : Super) : Super × List (Nat × Nat) := (s.each Worker.subscribe, s.replies fun i w => (i, w.next))

/-- the subscriptions at an actor, `S:204-207` -/
def atActor (l : List (Nat × Nat)) (i : Nat) : List Nat := (l.filter fun x => x.1 = i).map Prod.snd

/-- `Unsubscribe`, `S:203-241`, with `handle_unsubscribe`, `A:446-490`: what the actor says was removed is not looked at -/
def Super.unsubscribe (l : List (Nat × Nat)) (s : Super) : Super × List (Option Nat) :=
  (s.map fun x => if x.2.live then (x.1, { x.2 with subs := x.2.subs.filter fun k => k ∉ atActor l x.1 }) else x,
   s.map fun x => if x.2.live ∧ atActor l x.1 ≠ [] then some x.1 else none)

/-- `disconnect_peer`, `S:453-482`, with `handle_disconnect_peer`, `A:494-547` -/
def Super.disconnect (a : Nat) (s : Super) : Super × List (Nat × Bool) :=
  (s.each fun w => { w with peers := w.peers.filter (· ≠ a) }, s.replies fun i w => (i, decide (a ∈ w.peers)))

/-- `get_connected_peers`, `S:508-528`, with `A:366-393`, if there is room for all replies -/
def Super.peers (s : Super) : List (Nat × List Nat) := s.replies fun i w => (i, w.peers)

/-- `Shutdown`, `S:242-251`, with `A:312-329` -/
def Super.shutdown (s : Super) : Super := s.each fun w => { w with live := false, peers := [] }

end Verif.BmpSuper
