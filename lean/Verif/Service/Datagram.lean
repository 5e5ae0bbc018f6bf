import Verif.Collector.Lemmas
import Verif.UdpNotif.Model
import Verif.Flow.Codec

/-! The actors that receive datagrams and hand what is decoded to subscribers. `U` is
`crates/udp-notif-service/src/actor.rs` and `F` is `crates/flow-service/src/flow_actor.rs`. The two are the same program
but for the decoder, for the number of channels of a subscriber, which is one in `U` and any in `F`, and for the
queries for templates, which are in `F` only. There is one model, with the decoder as a parameter, and subscriptions of
`U` have a list with one channel.

What other tasks do is in the events: which channels are closed when they are looked at, how each send ends, and
whether the other side of a reply still listens. Events are in the order in which the loop takes them. An empty datagram
is no event, since `BytesCodec` gives nothing for it. The gauges, the attributes of counters, the counters of the use of
templates and what is logged are left out. -/

namespace Verif.Service
open Verif Verif.Collector

variable {σ π : Type}

/-- `SocketAddr` -/
structure Addr where
  ip : Nat
  port : Nat
  deriving DecidableEq, Repr

/-- a channel to a subscriber, `UdpNotifSender`, `crates/udp-notif-service/src/lib.rs:75-76`, and `FlowSender`,
`crates/flow-service/src/lib.rs:29-30` -/
abbrev Chan := Nat

/-- how decoding of a datagram ends: `Ok(Some(_))`, `Ok(None)`, `Err(_)` or a panic -/
inductive Decoded (π : Type) where
  | packet (p : π)
  | nothing
  | malformed
  | panics
  deriving DecidableEq, Repr

/-- a codec with its state; the first argument of `decode` is the time -/
structure Codec (σ π : Type) where
  fresh : σ
  decode : Nat → σ → Bytes → Decoded π × σ

/-- `UdpPacketCodec` as a decoder of datagrams, `U:281-284` -/
def udpNotif : Codec UdpNotif.Codec UdpNotif.Packet where
  fresh := .new
  decode now c b := match UdpNotif.decode c now b with
    | (.ok (some p), c', _) => (.packet p, c')
    | (.ok none, c', _) => (.nothing, c')
    | (.err _, c', _) => (.malformed, c')
    | (.fault _, c', _) => (.panics, c')

/-- `FlowInfoCodec` as a decoder of datagrams, `F:354-355` -/
def flow (reg : Flow.Registry) : Codec Flow.FlowCodec Flow.FlowInfo where
  fresh := .new
  decode _ c b := match Flow.FlowCodec.decode reg c b with
    | (.out (.ok p), c', _) => (.packet p, c')
    | (.wait, c', _) => (.nothing, c')
    | (.out (.err _), c', _) => (.malformed, c')
    | (.out (.fault _), c', _) => (.panics, c')

/-- `PeerUsage`, `U:149-161`, `F:170-182` -/
structure Usage where
  lastSet : Nat
  count : Nat
  deriving DecidableEq, Repr

/-- `UdpNotifActor`, `U:183-198`, `FlowCollectorActor`, `F:225-239`, with the counters of `UdpNotifCollectorStats`,
`U:201-208`, and `FlowCollectorActorStats`, `F:242-252` -/
structure Actor (σ : Type) where
  id : Nat
  addr : Addr
  next : UInt32
  subscribers : List (UInt32 × List Chan)
  usage : List (Addr × Usage)
  clients : List (Addr × σ)
  received : Nat
  decoded : Nat
  malformed : Nat
  sent : Nat
  dropped : Nat

/-- `new`, `U:251-271`, `F:317-337`, after the socket is bound, `U:804-813`, `F:833-848` -/
def Actor.new (id : Nat) (addr : Addr) : Actor σ := ⟨id, addr, 1, [], [], [], 0, 0, 0, 0, 0⟩

/-- how a send to a subscriber ends: it is sent, the channel is full, it is closed, or it takes too long -/
inductive Sending where
  | sent
  | full
  | closed
  | timeout
  deriving DecidableEq, Repr

/-- the commands, `U:134-145`, `F:148-164`. The last argument of `subscribe` is whether the reply is received.
`state` is `GetPeerTemplates` and `GetPeerTemplateIds`. -/
inductive Command where
  | shutdown
  | subscribe (chans : List Chan) (heard : Bool)
  | unsubscribe (id : UInt32)
  | purgeUnused (now dur : Nat)
  | purge (peer : Addr)
  | localAddr
  | peers
  | state (peer : Addr)

/-- what the loop takes, `U:816-849`, `F:851-889`. A datagram comes with the time, and with what the world does while
it is handed out: whether a channel of a subscriber is closed, and how the send to a subscriber ends. -/
inductive Event where
  | command (c : Command)
  | noCommands
  | datagram (now : Nat) (peer : Addr) (octets : Bytes) (closed : UInt32 → Chan → Bool) (sending : UInt32 → Sending)
  | socketError
  | socketDown

/-- what others see -/
inductive Effect (σ π : Type) where
  | offer (sub : UInt32) (chan : Chan) (peer : Addr) (p : π) (how : Sending)
  | subscribed (actor : Nat) (sub : UInt32)
  | unsubscribed (actor : Nat) (sub : UInt32)
  | unusedPurged (peers : List Addr)
  | purged (actor : Option Nat)
  | localAddr (actor : Nat) (addr : Addr)
  | peers (actor : Nat) (peers : List Addr)
  | state (actor : Nat) (s : σ)
  | stopping (actor : Nat)

/-- how the loop ends: `Ok`, the two errors of the loop, or a panic -/
inductive Ending where
  | ok
  | commandsClosed
  | socketFailed
  | panicked
  deriving DecidableEq, Repr

/-- `decode_pkt`, `U:276-357`, `F:342-411`. `none` is a panic. -/
def Actor.decodePkt (codec : Codec σ π) (a : Actor σ) (now : Nat) (peer : Addr) (octets : Bytes) :
    Option (Option π × Actor σ) :=
  match codec.decode now ((a.clients.look peer).getD codec.fresh) octets with
  | (.packet p, s) => some (some p, { a with clients := put a.clients peer s, decoded := a.decoded + 1 })
  | (.nothing, s) => some (none, { a with clients := put a.clients peer s })
  | (.malformed, s) => some (none, { a with clients := put a.clients peer s, malformed := a.malformed + 1 })
  | (.panics, _) => none

/-- the channel of a subscriber a packet is sent to, `F:520-527`; `U:573-583` has one channel. `none` is the panic of a
remainder by zero. -/
def pick (hash : Nat → Nat) (peer : Addr) (chans : List Chan) : Option Chan :=
  if chans.length = 1 then chans[0]? else if chans.length = 0 then none else chans[hash peer.ip % chans.length]?

/-- `send_to_subscriber`, `U:360-533`, `F:414-487`, for all subscribers, `U:573-597`, `F:518-544`. Sends run side by
side, so that their order in the list of effects says nothing. -/
def Actor.sendAll (hash : Nat → Nat) (peer : Addr) (p : π) (sending : UInt32 → Sending) :
    List (UInt32 × List Chan) → Actor σ → Option (Actor σ × List (Effect σ π))
  | [], a => some (a, [])
  | (id, chans) :: rest, a =>
    match pick hash peer chans with
    | none => none
    | some c =>
      let a := if sending id = .sent then { a with sent := a.sent + 1 } else { a with dropped := a.dropped + 1 }
      match Actor.sendAll hash peer p sending rest a with
      | none => none
      | some (a, es) => some (a, .offer id c peer p (sending id) :: es)

/-- `handle_decoded_msg`, `U:537-599`, `handle_decoded_pkt`, `F:491-546` -/
def Actor.handleDecoded (hash : Nat → Nat) (a : Actor σ) (now : Nat) (peer : Addr) (p : π)
    (closed : UInt32 → Chan → Bool) (sending : UInt32 → Sending) : Option (Actor σ × List (Effect σ π)) :=
  let u := (a.usage.look peer).getD ⟨now, 0⟩
  let a := { a with usage := put a.usage peer { u with count := u.count + 1 } }
  let a := { a with subscribers := a.subscribers.filter fun x => !x.2.all (closed x.1) }
  Actor.sendAll hash peer p sending a.subscribers a

/-- whether `retain` takes a peer away, `U:711-717`, `F:679-682` -/
def Usage.unused (now dur : Nat) (u : Usage) : Bool := decide (now - u.lastSet > dur) && decide (u.count = 0)

/-- what `retain` makes of the peers it keeps, `U:718-733`, `F:683-691` -/
def Usage.reset (now dur : Nat) (u : Usage) : Usage :=
  if now - u.lastSet > dur ∧ u.count > 0 then ⟨now, 0⟩ else u

/-- `handle_purge_unused_peers`, `U:696-745`, `F:664-706` -/
def Actor.purgeUnused (a : Actor σ) (now dur : Nat) : Actor σ × List Addr :=
  ({ a with usage := (a.usage.filter fun x => !x.2.unused now dur).map fun x => (x.1, x.2.reset now dur) },
    (a.usage.filter fun x => x.2.unused now dur).map (·.1))

/-- `handle_cmd`, `U:768-791`, `F:780-820`, with the handlers it calls, `U:601-766`, `F:548-778` -/
def Actor.handle (codec : Codec σ π) (a : Actor σ) : Command → Actor σ × List (Effect σ π) × Bool
  | .shutdown => (a, [.stopping a.id], true)
  | .subscribe chans heard =>
    let a' := { a with next := a.next + 1, subscribers := put a.subscribers a.next chans }
    if heard then (a', [.subscribed a.id a.next], false)
    else ({ a' with subscribers := del a'.subscribers a.next }, [], false)
  | .unsubscribe id =>
    ({ a with subscribers := del a.subscribers id },
      if (a.subscribers.look id).isSome then [.unsubscribed a.id id] else [], false)
  | .purge peer =>
    if (a.clients.look peer).isSome then
      ({ a with clients := del a.clients peer, usage := del a.usage peer }, [.purged (some a.id)], false)
    else (a, [.purged none], false)
  | .purgeUnused now dur =>
    let (a', l) := a.purgeUnused now dur
    (a', [.unusedPurged l], false)
  | .localAddr => (a, [.localAddr a.id a.addr], false)
  | .peers => (a, [.peers a.id (a.clients.map (·.1))], false)
  | .state peer => (a, [.state a.id ((a.clients.look peer).getD codec.fresh)], false)

/-- one round of `run`, `U:815-849`, `F:851-889`. Panics have the effects before them, which are none: sends do not
panic, see `sendAll_some`. -/
def Actor.step (codec : Codec σ π) (hash : Nat → Nat) (a : Actor σ) : Event → Actor σ × List (Effect σ π) × Option Ending
  | .command c =>
    match a.handle codec c with
    | (a, es, true) => (a, es, some .ok)
    | (a, es, false) => (a, es, none)
  | .noCommands => (a, [], some .commandsClosed)
  | .socketError => (a, [], some .socketFailed)
  | .socketDown => (a, [], some .ok)
  | .datagram now peer octets closed sending =>
    let a := { a with received := a.received + 1 }
    match a.decodePkt codec now peer octets with
    | none => (a, [], some .panicked)
    | some (none, a) => (a, [], none)
    | some (some p, a) =>
      match a.handleDecoded hash now peer p closed sending with
      | none => (a, [], some .panicked)
      | some (a, es) => (a, es, none)

/-- `run`, `U:798-849`, `F:828-889`: what is left of the events is not taken once the loop has ended -/
def Actor.run (codec : Codec σ π) (hash : Nat → Nat) (a : Actor σ) :
    List Event → Actor σ × List (Effect σ π) × Option Ending
  | [] => (a, [], none)
  | e :: es =>
    match a.step codec hash e with
    | (a, out, some x) => (a, out, some x)
    | (a, out, none) => match Actor.run codec hash a es with
      | (a, out', x) => (a, out ++ out', x)

end Verif.Service
