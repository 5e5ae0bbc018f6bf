import Verif.BmpService.Model

/-! What is expected of the actor that accepts connections of BMP, in terms of the events and of what others see -/

namespace Verif.BmpService
open Verif Verif.Collector Verif.Service

variable {π : Type}

def Event.isSubscribe : Event π → Bool
  | .command (.subscribe _) => true
  | _ => false

/-- the number of subscriptions asked for -/
def subscriptions (es : List (Event π)) : Nat := es.countP Event.isSubscribe

/-- the first subscriptions get 0, 1, …: the one asked for after `pre` -/
def subscriptionId (pre : List (Event π)) : UInt32 := UInt32.ofNat (subscriptions pre)

/-- the peer of a connection that is taken -/
def Event.accepts : Event π → Option Addr
  | .accept p => some p
  | _ => none

/-- the peers of connections taken, in order: a connection is known by its place here -/
def connections (es : List (Event π)) : List Addr := es.filterMap Event.accepts

/-- does the event tell the actor to end -/
def Event.ends : Event π → Bool
  | .command .shutdown | .noCommands => true
  | _ => false

/-- the actor is not told to end -/
def Runs (es : List (Event π)) : Prop := ∀ e ∈ es, e.ends = false

/-- no event unsubscribes a subscriber -/
def Stays (s : UInt32) (es : List (Event π)) : Prop := ∀ e ∈ es, ∀ i, e = .command (.unsubscribe i) → i ≠ s

/-- no peer comes back with the same address and port -/
def Fresh (es : List (Event π)) : Prop := (connections es).Nodup

/-- the connection an effect is of -/
def Effect.of (t : Nat) : Effect π → Bool
  | .received u _ => u = t
  | .offer u .. => u = t
  | _ => false

/-- the messages taken from a connection -/
def receivedBy (t : Nat) (es : List (Effect π)) : List π :=
  es.filterMap fun
    | .received u m => if u = t then some m else none
    | _ => none

/-- the sends to a subscriber of messages of a connection: to which channel, with which peer, what -/
def offersTo (t : Nat) (s : UInt32) (es : List (Effect π)) : List (Chan × Addr × π) :=
  es.filterMap fun
    | .offer u i c p m _ => if u = t ∧ i = s then some (c, p, m) else none
    | _ => none

/-- the outcomes of all sends -/
def sendings (es : List (Effect π)) : List Sending :=
  es.filterMap fun
    | .offer _ _ _ _ _ h => some h
    | _ => none

/-- what concerns a connection: commands, connections taken, and what its own task does -/
def Event.concerns (t : Nat) : Event π → Bool
  | .update u | .message u _ | .send u _ | .malformed u | .eof u => u = t
  | .notice | .acceptFailed => false
  | _ => true

/-- does the event end a connection: its peer ends it or sends something malformed, it is disconnected or replaced, or the actor ends -/
def Event.stops (t : Nat) (p : Addr) : Event π → Bool
  | .malformed u | .eof u => u = t
  | .command (.disconnect q) | .accept q => q = p
  | .command .shutdown | .noCommands => true
  | _ => false

/-- subscriptions are with at least one channel -/
def Channels (es : List (Event π)) : Prop := ∀ e ∈ es, ∀ l, e = .command (.subscribe l) → l ≠ []

end Verif.BmpService
