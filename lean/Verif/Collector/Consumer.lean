/-!
# Consumer of operations from Kafka

The actor that reads messages of a topic and sends the operations in them to the actors for enrichment. `A` stands for `crates/collector/src/inputs/kafka/actor.rs`. How messages are read is a parameter with a state, as are the channels
to the other actors, whose answers may depend on all sends and waits before. What the client of Kafka gives, and when commands are seen, is in the list of events; `select!` is biased, so that a command that is there is an event before the next
message. Durations are in microseconds. A reconnection that never succeeds is the last event.
-/
namespace Verif.Consumer

/-- the channels of the other actors, by their number -/
structure Channels (W Op : Type) where
  send : W → Nat → Op → Bool × W
  wait : W → Nat → W

/-- `MAX_BACKOFF_TIME`, `A:63` -/
def maxBackoff : Nat := 10000000

/-- how a send with repetitions ended -/
structure Sent (W : Type) where
  ok : Bool
  tries : Nat
  slept : Nat
  world : W

/-- the loop around a send, `A:323-346` -/
def sendLoop {W Op : Type} (env : Channels W Op) (j : Nat) (op : Op) (b : Nat) (hb : 0 < b) (w : W) : Sent W :=
  match env.send w j op with
  | (true, w) => ⟨true, 1, 0, w⟩
  | (false, w) =>
    if h : maxBackoff ≤ b then ⟨false, 1, 0, w⟩
    else
      let r := sendLoop env j op (b * 2) (by omega) (env.wait w b)
      ⟨r.ok, r.tries + 1, r.slept + b, r.world⟩
  termination_by maxBackoff - b

/-- a send with the first wait, `A:321` -/
def sendOne {W Op : Type} (env : Channels W Op) (j : Nat) (op : Op) (w : W) : Sent W := sendLoop env j op 10 (by decide) w

/-- the actor, with the counters of `KafkaConsumerStats`, what was sent to whom, and the time it has waited -/
structure State (H W Op : Type) where
  handler : H
  world : W
  sent : List (Nat × Op) := []
  received : Nat := 0
  empty : Nat := 0
  unread : Nat := 0
  generated : Nat := 0
  failed : Nat := 0
  reconnects : Nat := 0
  slept : Nat := 0

variable {H W P Op : Type}

/-- one operation to one actor, `A:320-347` -/
def sendTo (env : Channels W Op) (op : Op) (s : State H W Op) (j : Nat) : State H W Op :=
  let r := sendOne env j op s.world
  { s with world := r.world, sent := if r.ok then s.sent ++ [(j, op)] else s.sent, failed := if r.ok then s.failed else s.failed + 1, slept := s.slept + r.slept }

/-- the operations of a message to all actors, `A:319-348` -/
def sendAll (env : Channels W Op) (handles : Nat) (s : State H W Op) (ops : List Op) : State H W Op :=
  ops.foldl (fun s op => (List.range handles).foldl (sendTo env op) s) s

/-- what the actor gets: commands, messages with or without a payload, and errors; reconnections with how many attempts failed before one did not -/
inductive Event (P : Type) where
  | shutdown
  | closed
  | message (payload : Option P)
  | brokersDown (failures : Nat)
  | unknownTopic
  | fatal (failures : Nat)
  | error

/-- how the actor ends: by a command, or with an error -/
inductive Ending where
  | command
  | error
  deriving DecidableEq, Repr

/-- one round of `run`, `A:264-402` -/
def step (env : Channels W Op) (read : H → P → H × Option (List Op)) (handles : Nat) (s : State H W Op) : Event P → State H W Op × Option Ending
  | .shutdown => (s, some .command)
  | .closed => (s, some .command)
  | .message none => ({ s with received := s.received + 1, empty := s.empty + 1 }, none)
  | .message (some p) =>
    match read s.handler p with
    | (h, none) => ({ s with received := s.received + 1, handler := h, unread := s.unread + 1 }, none)
    | (h, some ops) => (sendAll env handles { s with received := s.received + 1, handler := h, generated := s.generated + ops.length } ops, none)
  | .brokersDown n => ({ s with received := s.received + 1, reconnects := s.reconnects + n + 1, slept := s.slept + 60000000 * (n + 1) }, none)
  | .unknownTopic => ({ s with received := s.received + 1 }, some .error)
  | .fatal n => ({ s with received := s.received + 1, reconnects := s.reconnects + n + 1, slept := s.slept + 30000000 * (n + 1) }, none)
  | .error => ({ s with received := s.received + 1 }, none)

/-- `run`, `A:259-405` -/
def run (env : Channels W Op) (read : H → P → H × Option (List Op)) (handles : Nat) (s : State H W Op) : List (Event P) → State H W Op × Option Ending
  | [] => (s, none)
  | e :: es =>
    match step env read handles s e with
    | (s, some d) => (s, some d)
    | (s, none) => run env read handles s es

end Verif.Consumer
