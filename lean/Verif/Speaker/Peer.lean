import Verif.Speaker.Conn
/-!
# A BGP peer of the speaker

`crates/bgp-speaker/src/peer.rs` (P) and the task that runs it, `crates/bgp-speaker/src/peer_controller.rs` (K).

`Peer` holds the state. `Sys` adds the clock and how far `Peer::run` got, and `step` gives the steps the task of
`start_peer` can take: `run` may be dropped at any point where it waits, because the task runs it in a `select!`
against the channel of user requests (K:208-228).

* The policy is `EchoCapabilitiesPolicy` (P:85-227), the only implementation in the repository.
* `my_asn`, `peer_addr`, the peer key and `idle_hold_duration` are left out: nothing here depends on them.
* The random jitter is part of the input.
* Requests for statistics change nothing except that they drop `run`; they are the label `drop`.
* A rejected incoming connection (P:699-718) is left without a trace.
-/
namespace Verif.Speaker
open Verif Verif.Bgp

/-- `FsmState`, `fsm.rs:22-29` -/
inductive Fsm where
  | idle | connect | active | openSent | openConfirm | established
  deriving DecidableEq, Repr

/-- `PeerAdminEvents`, P:231-239; `accept` is `TcpConnectionConfirmed` with the jitter of the new connection -/
inductive Admin where
  | manualStart | manualStop | autoStart | autoStop
  | accept (jitter : Nat)
  deriving DecidableEq, Repr

/-- `BgpEvent`, E:102-314: the administrative events, and those of a connection (`From<ConnectionEvent>`, E:469-500) -/
inductive PeerEvent where
  | manualStart | manualStop | autoStart | autoStop | manualStartPassive | autoStartPassive
  | retryExpires
  | collisionDump
  | conn (e : ConnEvent)
  deriving DecidableEq

/-- `PeerProperties`, P:499-505 -/
structure PeerProps where
  peerAsn : UInt32
  myBgpId : UInt32
  dynamicAs : Bool
  deriving DecidableEq, Repr

/-- `PeerConfig`, P:340-353; durations in seconds -/
structure PeerConfig where
  notifWithoutOpen : Bool
  retry : UInt16
  openDelay : UInt16
  hold : UInt16
  holdLarge : UInt16
  keepAlive : UInt16
  passive : Bool
  collisionEstablished : Bool
  deriving DecidableEq, Repr

/-- `connect_retry_duration`, P:388-394: a millisecond for 0 -/
def PeerConfig.retryDuration (c : PeerConfig) : Nat := if c.retry = 0 then 1000000 else c.retry.toNat * sec

/-- `From<&PeerConfig> for ConnectionConfig`, C:199-210 -/
def PeerConfig.conn (c : PeerConfig) : ConnConfig :=
  ⟨c.notifWithoutOpen, c.openDelay, c.hold, c.holdLarge, c.keepAlive⟩

/-- `EchoCapabilitiesPolicy`, P:85-98 -/
structure Policy where
  myAsn : UInt32
  asn4Default : Bool
  myBgpId : UInt32
  remoteAs : Option UInt32
  hold : UInt16
  caps : List Cap
  reject : List Cap
  peerCaps : List Cap
  deriving DecidableEq, Repr

/-- the AS number in the fixed part of the OPEN, P:144-154: `AS_TRANS` for a number of four octets -/
def Policy.as2 (p : Policy) : UInt16 := if p.myAsn.toNat > 65535 then 23456 else UInt16.ofNat p.myAsn.toNat

/-- `open_message`, P:141-183 -/
def Policy.openMsg (p : Policy) : Open :=
  let asn4 := Cap.fourOctetAs p.myAsn
  let caps := if (p.asn4Default || p.as2 == 23456) && !p.caps.contains asn4 then asn4 :: p.caps else p.caps
  let caps := caps ++ p.peerCaps.filter fun c => !p.caps.contains c && !p.reject.contains c
  ⟨p.as2, p.hold, p.myBgpId, if caps.isEmpty then [] else [caps]⟩

/-- `pre_handle_connection_event_hook`, P:185-204 -/
def Policy.pre (ev : ConnEvent) (p : Policy) : Policy :=
  match ev with
  | .open o | .openWithDelayTimer o =>
    { p with remoteAs := some o.myAsn4, peerCaps := o.caps.filter fun c => c.code ≠ 65 }
  | _ => p

/-- `Peer`, P:542-565. `closed` is not part of the code: the main and tracked connections that were dropped, in
order. -/
structure Peer where
  props : PeerProps
  policy : Policy
  adminUp : Bool
  fsm : Fsm
  config : PeerConfig
  conn : Option Conn
  tracked : Option Conn
  retry : Option Timer
  counter : Nat
  allowed : Bool
  waiting : List Admin
  closed : List Conn
  deriving DecidableEq

/-- `Peer::new`, P:578-601 -/
def Peer.new (props : PeerProps) (config : PeerConfig) (policy : Policy) : Peer :=
  ⟨props, policy, false, .idle, config, none, none, none, 0, false, [], []⟩

namespace Peer

/-- `self.fsm_transition(s)`, P:631-643 -/
def to (s : Fsm) (p : Peer) : Peer := { p with fsm := s }
/-- `self.connection.take()` -/
def dropConn (p : Peer) : Peer := { p with conn := none, closed := p.closed ++ p.conn.toList }
/-- `self.tracked_connection.take()` when the connection taken is dropped -/
def dropTracked (p : Peer) : Peer := { p with tracked := none, closed := p.closed ++ p.tracked.toList }
/-- `self.connect_retry_timer.take()` -/
def stopRetry (p : Peer) : Peer := { p with retry := none }
/-- `self.connect_retry_timer.replace(interval)` -/
def startRetry (now : Nat) (p : Peer) : Peer := { p with retry := some (.start p.config.retryDuration now) }
/-- `self.stats.connect_retry_counter += 1` -/
def count (p : Peer) : Peer := { p with counter := p.counter + 1 }

/-- the FSM state `add_connection` and `handle_connection_event` give a connection -/
def fsmOf (before : Fsm) : ConnState → Fsm
  | .terminate | .connected => before
  | .openSent => .openSent
  | .openConfirm => .openConfirm
  | .established => .established

/-- `add_connection`, P:644-671. A connection that is replaced is dropped. -/
def addConnection (c : Conn) (p : Peer) : Peer :=
  if p.conn.isSome then { p.dropTracked with tracked := some c }
  else { p with fsm := fsmOf p.fsm c.state, conn := some c }

/-- `create_connection`, P:673-691 -/
def createConnection (active : Bool) (jitter : Nat) (p : Peer) : Conn :=
  Conn.new active p.config.conn (if p.props.dynamicAs then none else some p.props.peerAsn) jitter

/-- `accept_connection`, P:694-734; `Ok(None)` for a rejected connection -/
def accept (net : Net) (now jitter : Nat) (p : Peer) : Out (Option PeerEvent) × Peer :=
  if !p.adminUp || (p.conn.isSome && p.tracked.isSome)
      || (p.fsm == .established && !p.config.collisionEstablished) then
    if p.config.notifWithoutOpen then
      match net 0 with
      | .cancelled _ => (.cancelled, p)
      | _ => (.ok none, p)
    else (.ok none, p)
  else
    let p := p.stopRetry
    match (p.createConnection false jitter).handle p.policy.openMsg net now .tcpConfirmed with
    | (.ok e, c) => (.ok (some (.conn e)), p.addConnection c)
    | (.err e, _) => (.err e, p)
    | (.cancelled, _) => (.cancelled, p)

/-- `CeaseError::AdministrativeShutdown` -/
def shutdownNotif : Notif := ⟨.cease, 2, [], rfl⟩
/-- `CeaseError::ConnectionCollisionResolution` -/
def collisionNotif : Notif := ⟨.cease, 7, [], rfl⟩
/-- `OpenMessageError::BadBgpIdentifier` -/
def badIdNotif (id : UInt32) : Notif := ⟨.openMsg, 3, u32be id, rfl⟩

/-- `let _ = self.connection.send(m).await`: the outcome is ignored. `false` if the future was dropped here. -/
def sendMain (o : SendOut) (now : Nat) (m : Msg) (p : Peer) : Bool × Peer :=
  match p.conn with
  | none => (true, p)
  | some c => (match o with | .cancelled _ => false | _ => true, { p with conn := some (c.afterSend o now m) })

/-- `let _ = self.tracked_connection.send(m).await` -/
def sendTracked (o : SendOut) (now : Nat) (m : Msg) (p : Peer) : Bool × Peer :=
  match p.tracked with
  | none => (true, p)
  | some c => (match o with | .cancelled _ => false | _ => true, { p with tracked := some (c.afterSend o now m) })

/-- `shutdown`, P:796-822 -/
def shutdown (net : Net) (now : Nat) (p : Peer) : Out Unit × Peer :=
  match ({ p.stopRetry with adminUp := false }.to .idle).sendMain (net 0) now (.notification shutdownNotif) with
  | (false, p) => (.cancelled, p)
  | (true, p) =>
    match p.dropConn.sendTracked (net 1) now (.notification shutdownNotif) with
    | (false, p) => (.cancelled, p)
    | (true, p) => (.ok (), p.dropTracked)

/-- `start`, P:824-840 -/
def start (now : Nat) (p : Peer) : Peer :=
  let p := { p with adminUp := true, counter := 0 }
  if p.fsm ≠ .idle then p
  else if p.config.passive then p.to .active
  else { (p.startRetry now).to .connect with allowed := true }

/-- the start events of `run`, P:1550-1564 and P:1570-1584 -/
def startEvent (active passive : PeerEvent) (now : Nat) (p : Peer) : Option PeerEvent × Peer :=
  if p.fsm ≠ .idle then (none, p)
  else if p.config.passive then (some passive, (p.start now).startRetry now)
  else (some active, p.start now)

/-- an administrative event taken from the queue, P:1547-1599 -/
def admin (net : Net) (now : Nat) (a : Admin) (p : Peer) : Out (Option PeerEvent) × Peer :=
  match a with
  | .manualStart => let (e, p) := p.startEvent .manualStart .manualStartPassive now; (.ok e, p)
  | .manualStop =>
    match p.shutdown net now with
    | (.ok _, p) => (.ok (some .manualStop), { p with counter := 0 })
    | (.err e, p) => (.err e, p)
    | (.cancelled, p) => (.cancelled, p)
  | .autoStart => let (e, p) := p.startEvent .autoStart .autoStartPassive now; (.ok e, p)
  | .autoStop =>
    match p.shutdown net now with
    | (.ok _, p) => (.ok (some .autoStop), p.count)
    | (.err e, p) => (.err e, p)
    | (.cancelled, p) => (.cancelled, p)
  | .accept j => p.accept net now j

/-- `handle_active_connection`, P:842-871; `none` for a failed attempt -/
def connected (net : Net) (now : Nat) (r : Option Nat) (p : Peer) : Out PeerEvent × Peer :=
  match r with
  | some jitter =>
    let p := p.stopRetry
    match (p.createConnection true jitter).handle p.policy.openMsg net now .tcpRequestAcked with
    | (.ok e, c) => (.ok (.conn e), p.addConnection c)
    | (.err e, _) => (.err e, p)
    | (.cancelled, _) => (.cancelled, p)
  | none => (.ok (.conn .tcpFails), p.stopRetry)

/-- the transitions of the FSM, P:932-1304, by the state of the connection before and after it handled the event.
The connection after the event is in `p.conn`. -/
def transit (now : Nat) (before after : ConnState) (ev : ConnEvent) (p : Peer) : Out PeerEvent × Peer :=
  let bad : Out PeerEvent × Peer := (.err .invalidTransition, p)
  let delay : Bool := (p.conn.bind (·.openDelay)).isSome
  match before, after with
  | .connected, .connected =>
    match ev with
    | .tcpRequestAcked | .tcpConfirmed =>
      let p := p.stopRetry
      if delay then (.ok (.conn ev), p) else (.err .invalidTransition, p)
    | .notifErr _ => (.ok (.conn ev), p)
    | _ => bad
  | .connected, .openSent =>
    match ev with
    | .tcpRequestAcked | .tcpConfirmed => (.ok (.conn ev), p.stopRetry.to .openSent)
    | .delayOpenTimerExpires => (.ok (.conn ev), p.to .openSent)
    | _ => bad
  | .connected, .openConfirm =>
    match ev with
    | .open _ | .openWithDelayTimer _ => (.ok (.conn ev), p.stopRetry.to .openConfirm)
    | _ => bad
  | .connected, .established => bad
  | .connected, .terminate =>
    match ev with
    | .tcpFails =>
      if p.fsm = .connect ∧ delay then (.ok (.conn ev), ((p.startRetry now).to .active).dropConn)
      else
        let p := p.stopRetry
        let p := if p.fsm = .active then p.count else p
        (.ok (.conn ev), (p.to .idle).dropConn)
    | .headerErr _ | .openErr _ => (.ok (.conn ev), (p.dropConn.stopRetry.count).to .idle)
    | .notifVerErr =>
      let p := p.stopRetry
      let p := if delay then p else p.count
      (.ok (.conn ev), p.dropConn.to .idle)
    | .holdTimerExpires | .keepAliveTimerExpires | .open _ | .notif _ | .keepAlive | .update .. | .updateErr _
    | .routeRefresh _ | .routeRefreshErr _ => (.ok (.conn ev), (p.stopRetry.count.dropConn).to .idle)
    | _ => bad
  | .openSent, .connected => bad
  | .openSent, .openSent =>
    match ev with
    | .notifErr _ => (.ok (.conn ev), p)
    | _ => bad
  | .openSent, .openConfirm =>
    match ev with
    | .open _ => (.ok (.conn ev), p.stopRetry.to .openConfirm)
    | _ => bad
  | .openSent, .established => bad
  | .openSent, .terminate =>
    let p := p.dropConn
    match ev with
    | .holdTimerExpires => (.ok (.conn ev), p.stopRetry.count.to .idle)
    | .tcpFails => (.ok (.conn ev), (p.startRetry now).to .active)
    | .notifVerErr => (.ok (.conn ev), p.stopRetry.to .idle)
    | .headerErr _ | .openErr _ | .keepAliveTimerExpires | .delayOpenTimerExpires | .openWithDelayTimer _
    | .keepAlive | .notif _ | .update .. | .updateErr _ | .routeRefresh _ | .routeRefreshErr _ =>
      (.ok (.conn ev), p.stopRetry.count.to .idle)
    | _ => (.err .invalidTransition, p)
  | .openConfirm, .connected => bad
  | .openConfirm, .openSent => bad
  | .openConfirm, .openConfirm =>
    match ev with
    | .keepAliveTimerExpires | .notifErr _ => (.ok (.conn ev), p)
    | _ => bad
  | .openConfirm, .established =>
    match ev with
    | .keepAlive => (.ok (.conn ev), p.to .established)
    | _ => bad
  | .openConfirm, .terminate =>
    match ev with
    | .holdTimerExpires | .tcpFails | .open _ | .openErr _ | .headerErr _ | .delayOpenTimerExpires
    | .openWithDelayTimer _ | .notif _ | .update .. | .updateErr _ | .routeRefresh _ | .routeRefreshErr _ =>
      (.ok (.conn ev), (p.stopRetry.count.dropConn).to .idle)
    | .notifVerErr => (.ok (.conn ev), p.stopRetry.dropConn.to .idle)
    | _ => bad
  | .established, .connected => bad
  | .established, .openSent => bad
  | .established, .openConfirm => bad
  | .established, .established =>
    match ev with
    | .keepAliveTimerExpires | .keepAlive | .update .. | .routeRefresh _ | .notifErr _ => (.ok (.conn ev), p)
    | .notif _ | .notifVerErr => (.ok (.conn ev), (p.stopRetry.count.dropConn).to .idle)
    | _ => bad
  | .established, .terminate =>
    match ev with
    | .holdTimerExpires | .delayOpenTimerExpires | .tcpFails | .open _ | .openWithDelayTimer _ | .headerErr _
    | .openErr _ | .updateErr _ | .routeRefreshErr _ | .notif _ | .notifVerErr =>
      (.ok (.conn ev), (p.dropConn.stopRetry.count).to .idle)
    | _ => bad
  | .terminate, _ => bad

/-- `handle_connection_event`, P:908-1307 -/
def handleConnEvent (net : Net) (now : Nat) (ev : ConnEvent) (p : Peer) : Out PeerEvent × Peer :=
  match p.conn with
  | none =>
    (.ok (.conn .tcpFails), if p.fsm = .openSent then p.to .active else p.to .idle)
  | some c =>
    let p := { p with policy := p.policy.pre ev }
    match c.handle p.policy.openMsg net now ev with
    | (.ok e, c') => { p with conn := some c' }.transit now c.state c'.state e
    | (.err e, c') => (.err e, { p with conn := some c' })
    | (.cancelled, c') => (.cancelled, { p with conn := some c' })

/-- `CollisionCheckRet` -/
inductive Collision where
  | dropMain | dropTracked | invalidTracked (id : UInt32)
  deriving DecidableEq, Repr

/-- `check_connection_collision`, P:1379-1424. Both connections have the same `created` time (`ConnectionStats::default`),
so the comparison of times never holds. Identifiers are compared as IPv4 addresses. -/
def collision (myId : UInt32) (main tracked : Option Conn) : Option Collision :=
  match main.bind (·.peerBgpId), tracked.bind (·.peerBgpId) with
  | some m, some t =>
    if t ≠ m then some (.invalidTracked t)
    else if myId.toNat < m.toNat then some .dropMain
    else some .dropTracked
  | _, _ => none

/-- `fsm_state_from_tracked`, P:885-906 -/
def fsmOfTracked (c : Conn) : Option Fsm :=
  match c.state with
  | .connected | .terminate => none
  | .openSent => some .openSent
  | .openConfirm => some .openConfirm
  | .established => some .established

/-- `handle_connect_event` for `DropMain`, P:1495-1522. A connection that loses is dropped in any case. -/
def dropMain (net : Net) (now : Nat) (p : Peer) : Out PeerEvent × Peer :=
  match p.tracked with
  | none => (.ok .collisionDump, p)
  | some t =>
    match fsmOfTracked t with
    | none => (.err .invalidTransition, p.dropTracked.count)
    | some s =>
      let p := { p.count with tracked := none }.to s
      match p.sendMain (net 0) now (.notification collisionNotif) with
      | (false, p) => (.cancelled, { p.dropConn with closed := p.dropConn.closed ++ [t] })
      | (true, p) => (.ok .collisionDump, { p.dropConn with conn := some t })

/-- `handle_connect_event` for `DropTracked`, P:1523-1541 -/
def dropLoser (net : Net) (now : Nat) (p : Peer) : Out PeerEvent × Peer :=
  match p.sendTracked (net 0) now (.notification collisionNotif) with
  | (false, p) => (.cancelled, p.dropTracked)
  | (true, p) => (.ok .collisionDump, p.dropTracked)

/-- `send_bgp_message`, P:736-754; not cancelled, since the task does nothing else meanwhile (K:209) -/
def userSend (net : Net) (now : Nat) (m : Msg) (p : Peer) : Except FsmErr Unit × Peer :=
  let p := match p.tracked with
    | none => p
    | some c =>
      let p := { p with tracked := some (c.afterSend (net 0) now m) }
      if net 0 = SendOut.ok then p else p.dropTracked
  match p.conn with
  | none => (.ok (), p)
  | some c => (if net 1 = SendOut.ok then .ok () else .error .writing, { p with conn := some (c.afterSend (net 1) now m) })

end Peer

/-- how far `Peer::run` got -/
inductive Phase where
  /-- `run` is not running -/
  | outside
  /-- waiting in the `select!` (P:1600-1637). `hidden`: `next_connection_event` has given up the tracked connection
  (P:1452, P:1475). `blocked`: it is still sending to that connection. `connecting`: an attempt to connect is under
  way. -/
  | select (hidden blocked connecting : Bool)
  /-- the task of the peer has ended -/
  | dead
  deriving DecidableEq, Repr

/-- the state of the task of `start_peer`, K:190-230 -/
structure Sys where
  peer : Peer
  now : Nat
  phase : Phase
  deriving DecidableEq

/-- what can happen next -/
inductive Label where
  /-- time passes -/
  | time (dt : Nat)
  /-- an administrative request arrives -/
  | admin (a : Admin)
  /-- the user sends a message -/
  | user (m : Msg) (net : Net)
  /-- `run` is called: it takes an administrative event, or goes to wait -/
  | call (net : Net)
  /-- `run` is dropped while it waits -/
  | drop
  /-- the attempt to connect begins -/
  | connect
  /-- the attempt to connect succeeds (with the jitter of the connection) or fails -/
  | connected (r : Option Nat) (net : Net)
  /-- the connect retry timer ticks -/
  | retry
  /-- the main connection has an event -/
  | main (i : ConnInput) (net : Net)
  /-- the tracked connection has an event -/
  | tracked (i : ConnInput) (net : Net)

/-- what the user is told: the FSM state and the event, or the error that ends the peer (K:150-188) -/
inductive Report where
  | event (s : Fsm) (e : PeerEvent)
  | failed (e : FsmErr)
  deriving DecidableEq

/-- whether an outcome is a cancellation -/
def SendOut.isCancelled : SendOut → Bool
  | .cancelled _ => true
  | _ => false

namespace Sys

/-- `run` returned, or was dropped -/
def returned (now : Nat) : Out PeerEvent × Peer → Sys × Option Report
  | (.ok e, p) => (⟨p, now, .outside⟩, some (.event p.fsm e))
  | (.err e, p) => (⟨p, now, .dead⟩, some (.failed e))
  | (.cancelled, p) => (⟨p, now, .outside⟩, none)

/-- the collision check after an event, P:1443-1467 and P:1469-1489. `other` tells what happens without a collision. -/
def afterCheck (net : Net) (now : Nat) (hidden connecting : Bool) (p : Peer)
    (other : Peer → Sys × Option Report) : Sys × Option Report :=
  match Peer.collision p.props.myBgpId p.conn (if hidden then none else p.tracked) with
  | some .dropMain => returned now (p.dropMain net now)
  | some .dropTracked => returned now (p.dropLoser net now)
  | some (.invalidTracked id) =>
    let (done, p) := p.sendTracked (net 0) now (.notification (Peer.badIdNotif id))
    (⟨p, now, .select true (!done) connecting⟩, none)
  | none => other p

/-- one step of the task; `none` if the step is not possible -/
def step (l : Label) (s : Sys) : Option (Sys × Option Report) :=
  match l, s.phase with
  | .time dt, _ => some ({ s with now := s.now + dt }, none)
  | .admin a, .outside => some ({ s with peer := { s.peer with waiting := s.peer.waiting ++ [a] } }, none)
  | .user m net, .outside =>
    if (net 0).isCancelled || (net 1).isCancelled then none
    else match s.peer.userSend net s.now m with
      | (.ok _, p) => some ({ s with peer := p }, none)
      | (.error e, p) => some (⟨p, s.now, .dead⟩, some (.failed e))
  | .call net, .outside =>
    match s.peer.waiting.getLast? with
    | none => some ({ s with phase := .select false false false }, none)
    | some a =>
      match { s.peer with waiting := s.peer.waiting.dropLast }.admin net s.now a with
      | (.ok (some e), p) => some (returned s.now (.ok e, p))
      | (.ok none, p) => some (⟨p, s.now, .select false false false⟩, none)
      | (.err e, p) => some (returned s.now (.err e, p))
      | (.cancelled, p) => some (returned s.now (.cancelled, p))
  | .drop, .select .. => some ({ s with phase := .outside }, none)
  | .connect, .select h b false =>
    if s.peer.fsm = .connect ∧ s.peer.allowed then
      some ({ s with peer := { s.peer with allowed := false }, phase := .select h b true }, none)
    else none
  | .connected r net, .select _ _ true => some (returned s.now (s.peer.connected net s.now r))
  | .retry, .select .. =>
    match s.peer.retry with
    | some t =>
      if t.next ≤ s.now then
        let p := { s.peer with retry := some t.tick }
        let p := if p.fsm = .active then p.to .connect else p
        let p := { p with allowed := decide (p.fsm = Fsm.connect) }
        some (returned s.now (.ok .retryExpires, p.dropConn))
      else none
    | none => none
  | .main i net, .select h false conn =>
    match s.peer.conn with
    | none => none
    | some c =>
      match c.poll s.now i with
      | none => none
      | some (ev, c) =>
        some (afterCheck net s.now h conn { s.peer with conn := some c } fun p =>
          returned s.now (p.handleConnEvent net s.now ev))
  | .tracked i net, .select false false conn =>
    match s.peer.tracked with
    | none => none
    | some c =>
      if s.peer.fsm = .connect ∨ c.state = .openConfirm then none
      else match c.poll s.now i with
        | none => none
        | some (ev, c) =>
          let pol := s.peer.policy.pre ev
          match c.handle pol.openMsg net s.now ev with
          | (.cancelled, c) =>
            -- the future stays until another branch completes; nothing is lost by going on from here
            some ({ s with peer := { s.peer with policy := pol, tracked := some c } }, none)
          | (_, c) =>
            -- the sends of the connection come first, the one of the check is the third at most
            some (afterCheck (fun k => net (k + 2)) s.now false conn
              { s.peer with policy := pol, tracked := some c } fun p => (⟨p, s.now, .select false false conn⟩, none))
  | _, _ => none

/-- the task starts with `Peer::new` -/
def init (props : PeerProps) (config : PeerConfig) (policy : Policy) : Sys :=
  ⟨Peer.new props config policy, 0, .outside⟩

/-- an execution, with what was reported -/
inductive Exec : Sys → List (Label × Option Report) → Sys → Prop where
  | nil (s : Sys) : Exec s [] s
  | snoc {s t u : Sys} {tr : List (Label × Option Report)} {l : Label} {r : Option Report} :
    Exec s tr t → t.step l = some (u, r) → Exec s (tr ++ [(l, r)]) u

/-- the states an execution from the start can reach -/
def Reachable (s : Sys) : Prop := ∃ props config policy tr, Exec (init props config policy) tr s

end Sys
end Verif.Speaker
