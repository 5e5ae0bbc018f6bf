import Verif.Service.Datagram

/-! What is expected of the actors that receive datagrams, in terms of the events alone -/

namespace Verif.Service
open Verif Verif.Collector

variable {σ π : Type}

/-- a function changed at one address -/
def at' (k : Addr → σ) (p : Addr) (s : σ) : Addr → σ := fun q => if q = p then s else k q

/-- something decoded: from whom, what, what the world does when it is handed out -/
structure Message (π : Type) where
  peer : Addr
  content : π
  closed : UInt32 → Chan → Bool
  sending : UInt32 → Sending

/-- what is decoded, in order, when each peer has its own decoder, and a purge of a peer gives it a fresh one -/
def messages (codec : Codec σ π) (k : Addr → σ) : List Event → List (Message π)
  | [] => []
  | .datagram now p b closed sending :: es =>
    match codec.decode now (k p) b with
    | (.packet x, s) => ⟨p, x, closed, sending⟩ :: messages codec (at' k p s) es
    | (_, s) => messages codec (at' k p s) es
  | .command (.purge p) :: es => messages codec (at' k p codec.fresh) es
  | _ :: es => messages codec k es

/-- what decoders know after events -/
def knowledge (codec : Codec σ π) (k : Addr → σ) : List Event → Addr → σ
  | [] => k
  | .datagram now p b _ _ :: es => knowledge codec (at' k p (codec.decode now (k p) b).2) es
  | .command (.purge p) :: es => knowledge codec (at' k p codec.fresh) es
  | _ :: es => knowledge codec k es

/-- what a peer does to its decoder: `none` is a purge -/
def fromPeer (p : Addr) : List Event → List (Option (Nat × Bytes))
  | [] => []
  | .datagram now q b _ _ :: es => if q = p then some (now, b) :: fromPeer p es else fromPeer p es
  | .command (.purge q) :: es => if q = p then none :: fromPeer p es else fromPeer p es
  | _ :: es => fromPeer p es

/-- what is decoded by one decoder -/
def listen (codec : Codec σ π) (s : σ) : List (Option (Nat × Bytes)) → List π
  | [] => []
  | none :: es => listen codec codec.fresh es
  | some (now, b) :: es =>
    match codec.decode now s b with
    | (.packet x, s) => x :: listen codec s es
    | (_, s) => listen codec s es

/-- the sends to a subscriber -/
def offersTo (s : UInt32) (es : List (Effect σ π)) : List (Addr × π × Sending) :=
  es.filterMap fun
    | .offer i _ p x h => if i = s then some (p, x, h) else none
    | _ => none

/-- the channels sends to a subscriber go to, with the peers they come from -/
def channelsTo (s : UInt32) (es : List (Effect σ π)) : List (Addr × Chan) :=
  es.filterMap fun
    | .offer i c p _ _ => if i = s then some (p, c) else none
    | _ => none

/-- the outcomes of all sends -/
def sendings (es : List (Effect σ π)) : List Sending :=
  es.filterMap fun
    | .offer _ _ _ _ h => some h
    | _ => none

def Event.isDatagram : Event → Bool
  | .datagram .. => true
  | _ => false

def Event.isSubscribe : Event → Bool
  | .command (.subscribe ..) => true
  | _ => false

/-- the number of subscriptions asked for -/
def subscriptions (es : List Event) : Nat := es.countP Event.isSubscribe

/-- does the event tell the actor to end, or take away what it needs -/
def Event.ends : Event → Bool
  | .command .shutdown | .noCommands | .socketError | .socketDown => true
  | _ => false

/-- the events before one that ends the actor, after which the actor is still there -/
def Runs (codec : Codec σ π) (hash : Nat → Nat) (a : Actor σ) (es : List Event) : Prop := (a.run codec hash es).2.2 = none

/-- no event unsubscribes a subscriber -/
def Stays (s : UInt32) (es : List Event) : Prop := ∀ e ∈ es, ∀ i, e = .command (.unsubscribe i) → i ≠ s

/-- whenever something is decoded one of the channels is open -/
def Open (s : UInt32) (chans : List Chan) (ms : List (Message π)) : Prop := ∀ m ∈ ms, ∃ c ∈ chans, m.closed s c = false

/-- the times of events -/
def Event.time : Event → Option Nat
  | .datagram now .. => some now
  | .command (.purgeUnused now _) => some now
  | _ => none

/-- the clock does not go back -/
def Clock (es : List Event) : Prop := (es.filterMap Event.time).Pairwise (· ≤ ·)

/-- the times at which something of a peer is decoded -/
def usedAt (codec : Codec σ π) (k : Addr → σ) (p : Addr) : List Event → List Nat
  | [] => []
  | .datagram now q b _ _ :: es =>
    match codec.decode now (k q) b with
    | (.packet _, s) => if q = p then now :: usedAt codec (at' k q s) p es else usedAt codec (at' k q s) p es
    | (_, s) => usedAt codec (at' k q s) p es
  | .command (.purge q) :: es => usedAt codec (at' k q codec.fresh) p es
  | _ :: es => usedAt codec k p es

/-- the peers heard of since they were purged: the last that concerns the peer is a datagram -/
def Heard (p : Addr) (es : List Event) : Prop := ∃ x, (fromPeer p es).getLast? = some (some x)

/-- the peer is in an answer to a command that purges unused peers -/
def Reported (p : Addr) (es : List (Effect σ π)) : Prop := ∃ l, .unusedPurged l ∈ es ∧ p ∈ l

end Verif.Service
