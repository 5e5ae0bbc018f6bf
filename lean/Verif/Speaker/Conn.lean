import Verif.Bgp.Msg
/-!
# A BGP connection of the speaker

`crates/bgp-speaker/src/connection.rs` (C) and `crates/bgp-speaker/src/events.rs` (E).

* Asynchronous code is modelled by functions that get the outcome of every `send` as an argument (`Net`). A `send`
  may succeed, fail, or be cancelled: the future awaiting it is dropped, together with everything that was still to be
  done after it. All theorems quantify over the outcomes.
* Time is a number of nanoseconds. A `tokio::time::Interval` is a period and the instant of its next tick.
  Every interval the code creates is `reset()` right away, so that its first tick is one period after its creation.
  `div_f32` and `mul_f32` are modelled by integer arithmetic on nanoseconds (no rounding to `f32`).
* Counters (`ConnectionStats`) are left out, except `created`, which is the default (the epoch) for every connection.
* The peer address is left out: it is only logged.
* `trace` is not part of the code: it lists the messages handed to the transport and the messages received, so that
  properties can speak about what happened on a connection. No function reads it.
-/
namespace Verif.Speaker
open Verif Verif.Bgp

/-- one second -/
def sec : Nat := 1000000000

/-- `tokio::time::Interval`: the period and the instant of the next tick -/
structure Timer where
  period : Nat
  next : Nat
  deriving DecidableEq, Repr

/-- `tokio::time::interval(period)` followed by `reset()` -/
def Timer.start (period now : Nat) : Timer := ⟨period, now + period⟩
/-- `Interval::reset` -/
def Timer.reset (t : Timer) (now : Nat) : Timer := ⟨t.period, now + t.period⟩
/-- `Interval::tick` completing: the next tick is one period after the instant this one was due
(`MissedTickBehavior::Burst`, the default) -/
def Timer.tick (t : Timer) : Timer := ⟨t.period, t.next + t.period⟩

/-- `UpdateTreatment`, E:36-66 -/
inductive Treatment where
  | normal | attributeDiscard | treatAsWithdraw | resetFamily (afi : UInt16) (safi : UInt8) | sessionReset
  deriving DecidableEq, Repr

/-- `Ord for UpdateTreatment`, E:74-99, arm by arm -/
def Treatment.cmp : Treatment → Treatment → Ordering
  | normal, normal => .eq
  | normal, _ => .lt
  | attributeDiscard, normal => .gt
  | attributeDiscard, attributeDiscard => .eq
  | attributeDiscard, _ => .lt
  | treatAsWithdraw, normal => .gt
  | treatAsWithdraw, attributeDiscard => .gt
  | treatAsWithdraw, treatAsWithdraw => .eq
  | treatAsWithdraw, _ => .lt
  | resetFamily .., normal => .gt
  | resetFamily .., attributeDiscard => .gt
  | resetFamily .., treatAsWithdraw => .gt
  | resetFamily .., resetFamily .. => .eq
  | resetFamily .., sessionReset => .lt
  | sessionReset, sessionReset => .eq
  | sessionReset, _ => .gt

/-- `if treatment < t { treatment = t }` -/
def Treatment.raise (treatment t : Treatment) : Treatment := if treatment.cmp t = .lt then t else treatment

/-- the treatment of a malformed MP_REACH_NLRI or MP_UNREACH_NLRI, C:907-1041 and C:1042-1158. The errors of a family
are reported for that family, those of BGP-LS for IPv4 route target constrains (C:1031-1035, C:1148-1152). -/
def mpTreatment : MpErr → Treatment
  | .parse _ | .undefAfi .. | .undefSafi .. => .sessionReset
  | .ipAddr t _ | .labeledNextHop t _ => .resetFamily t.afi t.safi
  | .nlri t _ => .resetFamily t.afi t.safi
  | .ls _ => .resetFamily 1 132

/-- the treatment `update_treatment` asks for because of one error, C:859-1202; `none` keeps the treatment as is -/
def errTreatment : AttrErr → Option Treatment
  | .parse _ => some .treatAsWithdraw
  | .origin _ | .asPath _ | .nextHop _ | .med _ | .localPref _ => some .treatAsWithdraw
  | .atomicAggregate _ | .aggregator _ => some .attributeDiscard
  | .communities _ | .extCommunities _ | .extCommunities6 _ | .largeCommunities _ => some .treatAsWithdraw
  | .originator _ | .clusterList _ => some .treatAsWithdraw
  | .mpReach e | .mpUnreach e => some (mpTreatment e)
  | .onlyToCustomer _ | .aigp _ => some .attributeDiscard
  | .unknown _ => none
  | .invalid _ (.optional _) .. | .invalid _ (.transitive _) .. => some .treatAsWithdraw
  | .invalid _ (.partialBit _) .. => none
  | .bgpLs _ | .prefixSid _ => some .attributeDiscard

/-- `update_treatment`, C:856-1205 -/
def updateTreatment (g : Ignored) : Treatment :=
  g.attrs.foldl (fun t e => match errTreatment e with | some t' => t.raise t' | none => t) .normal

/-- `ConnectionEvent`, E:322-415. The error types of the malformed-message events are NOTIFICATION contents. -/
inductive ConnEvent where
  | holdTimerExpires
  | keepAliveTimerExpires
  | delayOpenTimerExpires
  | tcpRequestAcked
  | tcpConfirmed
  | tcpFails
  | «open» (o : Open)
  | openWithDelayTimer (o : Open)
  | headerErr (n : Notif)
  | openErr (n : Notif)
  | notifVerErr
  | notif (n : Notif)
  | notifErr (e : NotifErr)
  | keepAlive
  | update (u : Update) (t : Treatment)
  | updateErr (n : Notif)
  | routeRefresh (r : Refresh)
  | routeRefreshErr (n : Notif)
  deriving DecidableEq

/-- `BgpCodecDecoderError`, `crates/bgp-pkt/src/codec.rs:75-85` -/
inductive DecErr where
  | io | incomplete | parsing (e : MsgErr)
  deriving DecidableEq

/-- `From<BgpCodecDecoderError> for ConnectionEvent`, E:417-467 -/
def DecErr.event : DecErr → ConnEvent
  | io => .tcpFails
  | incomplete => .headerErr ⟨.header, 2, [], rfl⟩
  | parsing (.parse _) => .headerErr ⟨.header, 0, [], rfl⟩
  | parsing (.notSynchronized _ h) => .headerErr ⟨.header, 1, u128be h, rfl⟩
  | parsing (.undefinedType _ c) => .headerErr ⟨.header, 3, [c], rfl⟩
  | parsing (.badLength _ l) => .headerErr ⟨.header, 2, u16be l, rfl⟩
  | parsing (.unparseable _ l _) => .headerErr ⟨.header, 2, u16be l, rfl⟩
  | parsing (.open e) => .openErr e.notif
  | parsing (.update e) => .updateErr e.notif
  | parsing (.notification e) => .notifErr e
  | parsing (.routeRefresh _) => .routeRefreshErr ⟨.routeRefresh, 1, [], rfl⟩

/-- `ConnectionState`, C:136-152 -/
inductive ConnState where
  | connected | openSent | openConfirm | established | terminate
  deriving DecidableEq, Repr

/-- `ConnectionConfig`, C:171-178; durations in seconds -/
structure ConnConfig where
  notifWithoutOpen : Bool
  openDelay : UInt16
  hold : UInt16
  holdLarge : UInt16
  keepAlive : UInt16
  deriving DecidableEq, Repr

/-- what happened on a connection (not part of the code) -/
inductive Act where
  | sent (m : Msg)
  | received (m : Msg)
  deriving DecidableEq

/-- `Connection`, C:276-317. `hold`, `keepAlive` and `openDelay` are the timers, `holdDuration` and
`keepAliveDuration` the durations in nanoseconds. `jitter` is in units of 2⁻²⁴. -/
structure Conn where
  state : ConnState
  active : Bool
  config : ConnConfig
  peerAsn : Option UInt32
  peerBgpId : Option UInt32
  sentCaps : Option (List Cap)
  receivedCaps : Option (List Cap)
  peerHold : Option UInt16
  keepAlive : Option Timer
  keepAliveDuration : Nat
  openDelay : Option Timer
  hold : Option Timer
  holdDuration : Nat
  jitter : Nat
  trace : List Act
  deriving DecidableEq

/-- `Connection::new`, C:326-364; `asn` is the configured AS number, or `none` with `allow_dynamic_as` -/
def Conn.new (active : Bool) (config : ConnConfig) (asn : Option UInt32) (jitter : Nat) : Conn where
  state := .connected
  active := active
  config := config
  peerAsn := asn
  peerBgpId := none
  sentCaps := none
  receivedCaps := none
  peerHold := none
  keepAlive := none
  keepAliveDuration := config.keepAlive.toNat * sec
  openDelay := none
  hold := none
  holdDuration := config.hold.toNat * sec
  jitter := jitter
  trace := []

/-- how a `send` (`SinkExt::send`: `poll_ready`, `start_send`, `poll_flush`) ends. `started` tells whether the message
was handed to the transport. -/
inductive SendOut where
  | ok
  | failed (started : Bool)
  | cancelled (started : Bool)
  deriving DecidableEq, Repr

/-- whether the message reached `start_send` -/
def SendOut.started : SendOut → Bool
  | ok => true
  | failed s => s
  | cancelled s => s

/-- the outcomes of the sends of one operation, in order -/
abbrev Net := Nat → SendOut

/-- `start_send`, C:1426-1464 -/
def Conn.startSend (now : Nat) (m : Msg) (c : Conn) : Conn :=
  let c := { c with trace := c.trace ++ [.sent m] }
  match m with
  | .open o => { c with sentCaps := some o.caps }
  | .update _ | .keepAlive => { c with keepAlive := c.keepAlive.map (·.reset now) }
  | .notification _ | .routeRefresh _ => c

/-- the connection after a `send` -/
def Conn.afterSend (o : SendOut) (now : Nat) (m : Msg) (c : Conn) : Conn :=
  if o.started then c.startSend now m else c

/-- `FsmStateError`, `fsm.rs:32-35`: a message could not be written, or a transition the FSM does not know -/
inductive FsmErr where
  | writing
  | invalidTransition
  deriving DecidableEq, Repr

/-- the outcome of an asynchronous function: its result, or the future was dropped while it was waiting -/
inductive Out (α : Type) where
  | ok (a : α)
  | err (e : FsmErr)
  | cancelled
  deriving DecidableEq

/-- `self.send(m).await?; …` -/
def Conn.sendThen (o : SendOut) (now : Nat) (m : Msg) (c : Conn) (k : Conn → Out ConnEvent × Conn) :
    Out ConnEvent × Conn :=
  match o with
  | .ok => k (c.afterSend o now m)
  | .failed _ => (.err .writing, c.afterSend o now m)
  | .cancelled _ => (.cancelled, c.afterSend o now m)

/-- `if let Err(_) = self.send(m).await { log }; …` -/
def Conn.trySend (o : SendOut) (now : Nat) (m : Msg) (c : Conn) (k : Conn → Out ConnEvent × Conn) :
    Out ConnEvent × Conn :=
  match o with
  | .ok | .failed _ => k (c.afterSend o now m)
  | .cancelled _ => (.cancelled, c.afterSend o now m)

/-- `read_open_msg`, C:417-423 -/
def Conn.readOpen (o : Open) (c : Conn) : Conn :=
  { c with peerAsn := some o.myAsn4, peerBgpId := some o.bgpId, receivedCaps := some o.caps, peerHold := some o.hold }

/-- `set_negotiated_timers`, C:425-444 -/
def Conn.negotiate (c : Conn) : Conn :=
  if c.config.hold = 0 then { c with holdDuration := 0, keepAliveDuration := 0 }
  else
    let h := match c.peerHold with
      | some r => (min c.config.hold.toNat r.toNat) * sec
      | none => c.config.holdLarge.toNat * sec
    { c with holdDuration := h, keepAliveDuration := h / 3 }

/-- `start_hold_timer`, C:447-458 -/
def Conn.startHold (now : Nat) (c : Conn) : Conn :=
  if c.config.holdLarge = 0 then c
  else { c with holdDuration := c.config.holdLarge.toNat * sec
                hold := some (.start (c.config.holdLarge.toNat * sec) now) }

/-- C:530-540 and C:622-632: start the keepalive and hold timers unless their durations are zero -/
def Conn.startTimers (now : Nat) (c : Conn) : Conn :=
  let c := if c.keepAliveDuration = 0 then c
    else { c with keepAlive := some (.start (c.keepAliveDuration * c.jitter / 2 ^ 24) now) }
  if c.holdDuration = 0 then c else { c with hold := some (.start c.holdDuration now) }

/-- `HoldTimerExpiredError::Unspecific { sub_code: 0 }` -/
def holdNotif : Notif := ⟨.holdTimer, 0, [], rfl⟩
/-- `ReceiveUnexpectedMessageInOpenSentState` -/
def fsmOpenSentNotif : Notif := ⟨.fsm, 1, [], rfl⟩
/-- `ReceiveUnexpectedMessageInOpenConfirmState` -/
def fsmOpenConfirmNotif : Notif := ⟨.fsm, 2, [], rfl⟩

/-- `self.state = s` -/
def Conn.to (s : ConnState) (c : Conn) : Conn := { c with state := s }

/-- `handle_connected_event`, C:495-600; `op` is the message `policy.open_message()` yields -/
def Conn.handleConnected (op : Open) (net : Net) (now : Nat) (ev : ConnEvent) (c : Conn) : Out ConnEvent × Conn :=
  match ev with
  | .delayOpenTimerExpires =>
    (c.startHold now).sendThen (net 0) now (.open op) fun c => (.ok ev, c.to .openSent)
  | .tcpRequestAcked | .tcpConfirmed =>
    if c.config.openDelay = 0 then
      (c.startHold now).sendThen (net 0) now (.open op) fun c => (.ok ev, c.to .openSent)
    else (.ok ev, { c with openDelay := some (.start (c.config.openDelay.toNat * sec) now) })
  | .openWithDelayTimer o =>
    let c := ((({ c with openDelay := none }).readOpen o).negotiate).startTimers now
    c.sendThen (net 0) now (.open op) fun c => c.sendThen (net 1) now .keepAlive fun c => (.ok ev, c.to .openConfirm)
  | .headerErr n | .openErr n =>
    if c.config.notifWithoutOpen then c.trySend (net 0) now (.notification n) fun c => (.ok ev, c.to .terminate)
    else (.ok ev, c.to .terminate)
  | .notifVerErr => (.ok ev, c.to .terminate)
  | .notifErr _ => (.ok ev, c)
  | .holdTimerExpires | .keepAliveTimerExpires | .tcpFails | .open _ | .notif _ | .keepAlive | .update ..
  | .updateErr _ | .routeRefresh _ | .routeRefreshErr _ => (.ok ev, c.to .terminate)

/-- `handle_open_sent_event`, C:602-696 -/
def Conn.handleOpenSent (net : Net) (now : Nat) (ev : ConnEvent) (c : Conn) : Out ConnEvent × Conn :=
  match ev with
  | .holdTimerExpires => c.sendThen (net 0) now (.notification holdNotif) fun c => (.ok ev, c.to .terminate)
  | .open o =>
    let c := ((({ c with openDelay := none }).readOpen o).negotiate).startTimers now
    c.sendThen (net 0) now .keepAlive fun c => (.ok ev, c.to .openConfirm)
  | .tcpFails => (.ok ev, c.to .terminate)
  | .headerErr n | .openErr n => c.trySend (net 0) now (.notification n) fun c => (.ok ev, c.to .terminate)
  | .notifErr _ => (.ok ev, c)
  | .notifVerErr => (.ok ev, c.to .terminate)
  | .keepAliveTimerExpires | .delayOpenTimerExpires | .openWithDelayTimer _ | .notif _ | .keepAlive | .update ..
  | .updateErr _ | .routeRefresh _ | .routeRefreshErr _ =>
    c.trySend (net 0) now (.notification fsmOpenSentNotif) fun c => (.ok ev, c.to .terminate)
  | .tcpRequestAcked | .tcpConfirmed => (.ok ev, c.to .terminate)

/-- `handle_open_confirm_event`, C:698-794. When the hold timer expires the state changes before the notification is
sent (C:710-711). -/
def Conn.handleOpenConfirm (net : Net) (now : Nat) (ev : ConnEvent) (c : Conn) : Out ConnEvent × Conn :=
  match ev with
  | .holdTimerExpires => (c.to .terminate).sendThen (net 0) now (.notification holdNotif) fun c => (.ok ev, c)
  | .keepAliveTimerExpires => c.sendThen (net 0) now .keepAlive fun c => (.ok ev, c)
  | .notifVerErr | .notif _ => (.ok ev, c.to .terminate)
  | .headerErr n | .openErr n => c.trySend (net 0) now (.notification n) fun c => (.ok ev, c.to .terminate)
  | .open _ => c.trySend (net 0) now (.notification fsmOpenConfirmNotif) fun c => (.ok ev, c.to .terminate)
  | .keepAlive => (.ok ev, { c with hold := c.hold.map (·.reset now), state := .established })
  | .tcpFails => (.ok ev, c.to .terminate)
  | .notifErr _ => (.ok ev, c)
  | .delayOpenTimerExpires | .openWithDelayTimer _ | .update .. | .updateErr _ | .routeRefresh _
  | .routeRefreshErr _ =>
    c.trySend (net 0) now (.notification fsmOpenConfirmNotif) fun c => (.ok ev, c.to .terminate)
  | .tcpRequestAcked | .tcpConfirmed => (.ok ev, c.to .terminate)

/-- `handle_established_event`, C:796-853 -/
def Conn.handleEstablished (net : Net) (now : Nat) (ev : ConnEvent) (c : Conn) : Out ConnEvent × Conn :=
  match ev with
  | .holdTimerExpires => c.trySend (net 0) now (.notification holdNotif) fun c => (.ok ev, c.to .terminate)
  | .keepAliveTimerExpires => c.sendThen (net 0) now .keepAlive fun c => (.ok ev, c)
  | .delayOpenTimerExpires | .open _ | .openWithDelayTimer _ | .headerErr _ | .openErr _ | .notifVerErr
  | .notif _ => (.ok ev, c.to .terminate)
  | .keepAlive => (.ok ev, { c with hold := c.hold.map (·.reset now) })
  | .update .. | .routeRefresh _ => (.ok ev, c)
  | .updateErr _ | .routeRefreshErr _ | .tcpFails | .tcpRequestAcked | .tcpConfirmed => (.ok ev, c.to .terminate)
  | .notifErr _ => (.ok ev, c)

/-- `handle_event`, C:460-493 -/
def Conn.handle (op : Open) (net : Net) (now : Nat) (ev : ConnEvent) (c : Conn) : Out ConnEvent × Conn :=
  match c.state with
  | .terminate => (.ok ev, c)
  | .connected => c.handleConnected op net now ev
  | .openSent => c.handleOpenSent net now ev
  | .openConfirm => c.handleOpenConfirm net now ev
  | .established => c.handleEstablished net now ev

/-! ## Messages to events -/

/-- `handle_open_message`, C:1207-1236 -/
def openEvent (o : Open) (peerAsn : Option UInt32) (delayRunning : Bool) : ConnEvent :=
  match peerAsn with
  | some a => if a ≠ o.myAsn4 then .openErr ⟨.openMsg, 2, u32be a, rfl⟩
    else if delayRunning then .openWithDelayTimer o else .open o
  | none => if delayRunning then .openWithDelayTimer o else .open o

/-- whether an NLRI list is empty -/
def nlriEmpty : NlriList → Bool
  | .uni4 l | .multi4 l | .uni6 l | .multi6 l => l.isEmpty
  | .labels4 l | .labels6 l => l.isEmpty
  | .vpn4 l | .vpn6 l => l.isEmpty
  | .evpn l => l.isEmpty
  | .rtm l => l.isEmpty
  | .ls l => l.isEmpty
  | .lsVpn l => l.isEmpty

/-- the loop of `end_of_rib`, `crates/bgp-pkt/src/update.rs:96-181`: `current` and `mp_unreach_count` -/
def eorLoop (current : Option AddressType) (count : Nat) : List PathAttr → Option AddressType
  | [] => current
  | a :: rest =>
    match a.value with
    | .mpReach _ => none
    | .mpUnreach u =>
      if count + 1 > 1 then none
      else match u with
        | .known l => eorLoop (if nlriEmpty l then some l.family else current) (count + 1) rest
        | .unknown .. => eorLoop none (count + 1) rest
    | _ => eorLoop current count rest

/-- `BgpUpdateMessage::end_of_rib`, `crates/bgp-pkt/src/update.rs:87-183` -/
def endOfRib (u : Update) : Option AddressType :=
  if !u.nlri.isEmpty || !u.withdrawn.isEmpty then none
  else if u.attrs.isEmpty then some .ipv4Unicast
  else eorLoop none 0 u.attrs

/-- the flags and counters of `handle_update_message`, C:1246-1250 -/
structure Seen where
  origin : Bool := false
  asPath : Bool := false
  nextHop : Bool := false
  mpReach : Nat := 0
  mpUnreach : Nat := 0
  deriving DecidableEq, Repr

/-- the loop of `handle_update_message`, C:1251-1268: it stops once ORIGIN and AS_PATH were seen -/
def seenLoop (s : Seen) : List PathAttr → Seen
  | [] => s
  | a :: rest =>
    if s.origin && s.asPath then s
    else match a.value with
      | .origin _ => seenLoop { s with origin := true } rest
      | .asPath _ | .as4Path _ => seenLoop { s with asPath := true } rest
      | .nextHop _ => seenLoop { s with nextHop := true } rest
      | .mpReach _ => seenLoop { s with mpReach := s.mpReach + 1 } rest
      | .mpUnreach _ => seenLoop { s with mpUnreach := s.mpUnreach + 1 } rest
      | _ => seenLoop s rest

/-- `MissingWellKnownAttribute` with the attribute type as data -/
def missingAttr (code : UInt8) : Notif := ⟨.updateMsg, 3, [code], rfl⟩

/-- `handle_update_message`, C:1238-1309 -/
def updateEvent (u : Update) (g : Ignored) : ConnEvent :=
  let eor := endOfRib u
  let s := seenLoop {} u.attrs
  if eor.isNone && !s.origin then .updateErr (missingAttr 1)
  else if eor.isNone && !s.asPath then .updateErr (missingAttr 2)
  else if eor.isNone && s.mpReach == 0 && s.mpUnreach == 0 && !s.nextHop && !u.nlri.isEmpty then
    .updateErr (missingAttr 3)
  else if decide (s.mpReach > 1) || decide (s.mpUnreach > 1) then .updateErr ⟨.updateMsg, 1, [], rfl⟩
  else .update u (updateTreatment g)

/-- what `poll_next` (C:1322-1409) finds ready: a timer, the end of the stream, or an outcome of the decoder. Of several
that are ready the code prefers the timers; here any of them may come first. -/
inductive ConnInput where
  | keepAliveTick
  | openDelayTick
  | holdTick
  | eof
  | decodeErr (e : DecErr)
  | message (m : Msg) (g : Ignored)
  deriving DecidableEq

/-- the event of a decoded message, C:1363-1401 -/
def Conn.messageEvent (m : Msg) (g : Ignored) (c : Conn) : ConnEvent :=
  match m with
  | .open o => openEvent o c.peerAsn c.openDelay.isSome
  | .update u => updateEvent u g
  | .notification n => if n.kind = .openMsg ∧ n.sub = 1 then .notifVerErr else .notif n
  | .routeRefresh r => .routeRefresh r
  | .keepAlive => .keepAlive

/-- the changes a received message makes before it is handled, C:1376-1377 -/
def Conn.receive (m : Msg) (c : Conn) : Conn :=
  let c := { c with trace := c.trace ++ [.received m] }
  match m with
  | .open o => { c with peerBgpId := some o.bgpId }
  | _ => c

/-- `poll_next` yielding an event, C:1322-1409; `none` when the input cannot occur: a timer that is not running or not
due -/
def Conn.poll (now : Nat) (i : ConnInput) (c : Conn) : Option (ConnEvent × Conn) :=
  match i with
  | .keepAliveTick =>
    match c.keepAlive with
    | some t => if t.next ≤ now then some (.keepAliveTimerExpires, { c with keepAlive := some t.tick }) else none
    | none => none
  | .openDelayTick =>
    match c.openDelay with
    | some t => if t.next ≤ now then some (.delayOpenTimerExpires, { c with openDelay := none }) else none
    | none => none
  | .holdTick =>
    match c.hold with
    | some t => if t.next ≤ now then some (.holdTimerExpires, { c with hold := some t.tick }) else none
    | none => none
  | .eof => some (.tcpFails, c)
  | .decodeErr e => some (e.event, c)
  | .message m g => some (c.messageEvent m g, c.receive m)

end Verif.Speaker
