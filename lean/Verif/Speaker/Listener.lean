import Verif.Speaker.Peer
import Verif.Collector.Lemmas
/-!
# Listening for connections of BGP peers

`crates/bgp-speaker/src/listener.rs` (N), with `crates/bgp-speaker/src/supervisor.rs` (V) and the handles of `crates/bgp-speaker/src/peer_controller.rs` (K).

`BgpListener::run` borrows the listener and the supervisor for as long as it runs, which is for ever, so that no one else changes them. What peers report, when they end and when connections come in are labels of steps. Addresses of
peers are numbers, ports and streams are one number. Tasks of peers are numbered from 0 in the order they are started.
-/
namespace Verif.Listener
open Verif Verif.Speaker
open Verif.Collector (put)

/-- a TCP connection: the address it is from, and which one it is -/
structure Conn where
  ip : Nat
  id : Nat
  deriving DecidableEq, Repr

/-- what the channel of events of a peer gives: `PeerStateResult` (K:35) or the end of the channel -/
inductive FromPeer where
  | event (s : Fsm)
  | error
  | closed
  deriving DecidableEq, Repr

/-- what is sent with a handle, K:275-294 -/
inductive ToPeer where
  | start
  | accept (c : Conn)
  deriving DecidableEq, Repr

/-- the task of a peer, K:207-231: what has been sent to it, and whether it has ended -/
structure Task where
  got : List ToPeer
  ended : Bool
  deriving DecidableEq, Repr

/-- where `accept_peer_connection` (N:94-153) waits: nowhere, in `rx.recv()` after the start (N:120), or in the loop (N:127-149) -/
inductive Phase where
  | listening
  | starting (c : Conn) (t : Nat)
  | negotiating (c : Conn) (t : Nat)
  deriving DecidableEq, Repr

/-- what became of a connection that was accepted: it was given to a peer, there is no such peer, there is one that cannot be reached from the listener, or giving it failed -/
inductive Fate where
  | given (t : Nat)
  | noPeer
  | taken
  | failed
  deriving DecidableEq, Repr

/-- a socket: connections that are not accepted yet, and whether its future is in `listen_futures` (N:169-172) -/
structure Socket where
  backlog : List Conn
  armed : Bool
  deriving DecidableEq, Repr

/-- the listener (N:66-73), the supervisor (V:41-45), the tasks, and what became of connections so far -/
structure St where
  sockets : List Socket
  known : List (Nat × Nat)
  owned : List (Nat × Nat)
  tasks : List Task
  phase : Phase
  log : List (Conn × Fate)
  deriving DecidableEq, Repr

/-- `UnboundedSender::send`, which fails if the task has ended -/
def St.send (s : St) (t : Nat) (m : ToPeer) : St × Bool :=
  match s.tasks[t]? with
  | some k => if k.ended then (s, false) else ({ s with tasks := s.tasks.set t { k with got := k.got ++ [m] } }, true)
  | none => (s, false)

/-- giving a connection to a peer, N:104-106 and N:121-126 -/
def St.give (s : St) (t : Nat) (c : Conn) : St :=
  let r := s.send t (.accept c)
  { r.1 with log := r.1.log ++ [(c, if r.2 then .given t else .failed)] }

/-- `accept_peer_connection` until it ends or waits, N:101-120; a task that has just been started takes what is sent to it -/
def St.take (dyn : Bool) (s : St) (c : Conn) : St :=
  match s.known.look c.ip with
  | some t => s.give t c
  | none =>
    if !dyn then { s with log := s.log ++ [(c, .noPeer)] }
    else
      -- `create_peer`, V:79-93
      match s.owned.look c.ip with
      | some _ => { s with log := s.log ++ [(c, .taken)] }
      | none => { s with owned := put s.owned c.ip s.tasks.length, tasks := s.tasks ++ [⟨[.start], false⟩], phase := .starting c s.tasks.length }

/-- new futures for all sockets, N:169-172 -/
def St.rearm (s : St) : St := { s with sockets := s.sockets.map fun k => { k with armed := true } }

/-- the end of the loop of N:174, when `listen_futures` is empty -/
def St.settle (s : St) : St :=
  if s.phase = .listening ∧ s.sockets.all (fun k => !k.armed) then s.rearm else s

/-- steps -/
inductive Label where
  /-- a connection is made to a socket -/
  | arrive (i : Nat) (c : Conn)
  /-- `listen_futures.next()` gives the next connection of a socket -/
  | accept (i : Nat)
  /-- it gives an error of a socket, which ends the loop of N:174 -/
  | acceptError (i : Nat)
  /-- the peer that is waited for reports -/
  | report (r : FromPeer)
  /-- the task of a peer ends -/
  | ends (t : Nat)
  deriving DecidableEq, Repr

/-- one step; there is none if what the label says cannot happen -/
def step (dyn : Bool) (s : St) : Label → Option St
  | .arrive i c =>
    match s.sockets[i]? with
    | some k => some { s with sockets := s.sockets.set i { k with backlog := k.backlog ++ [c] } }
    | none => none
  | .accept i =>
    match s.phase, s.sockets[i]? with
    | .listening, some ⟨c :: b, true⟩ => some (St.settle (St.take dyn { s with sockets := s.sockets.set i ⟨b, false⟩ } c))
    | _, _ => none
  | .acceptError i =>
    match s.phase, s.sockets[i]? with
    | .listening, some ⟨_, true⟩ => some s.rearm
    | _, _ => none
  | .report r =>
    match s.phase with
    | .listening => none
    | .starting c t =>
      -- N:120-126
      let s1 := s.give t c
      if (s.send t (.accept c)).2 then some { s1 with phase := .negotiating c t } else some (St.settle { s1 with phase := .listening })
    | .negotiating c t =>
      -- N:127-149
      match r with
      | .event .idle => some (St.settle { s with phase := .listening })
      | .event .openConfirm => some (St.settle { s with known := put s.known c.ip t, phase := .listening })
      | .event _ => some s
      | .error | .closed => some (St.settle { s with phase := .listening })
  | .ends t =>
    match s.tasks[t]? with
    | some k => some { s with tasks := s.tasks.set t { k with ended := true } }
    | none => none

/-- steps one after the other -/
def run (dyn : Bool) (s : St) : List Label → Option St
  | [] => some s
  | l :: ls =>
    match step dyn s l with
    | some s' => run dyn s' ls
    | none => none

/-- before `run`: peers that have been created and registered -/
structure Start (s : St) : Prop where
  phase : s.phase = .listening
  log : s.log = []
  fresh : ∀ k ∈ s.tasks, ∀ c, .accept c ∉ k.got
  known : ∀ x ∈ s.known, x.2 < s.tasks.length

/-! ## The supervisor -/

/-- `PeersSupervisor::create_peer`, V:79-93: the peers, or `PeerExists` -/
def createPeer (peers : List (Nat × Nat)) (k t : Nat) : Option (List (Nat × Nat)) :=
  match peers.look k with
  | some _ => none
  | none => some (put peers k t)

/-- `PeersSupervisor::remove_peer`, V:96-101: the peers, and the task whose controller is returned; it is sent `ManualStop` -/
def removePeer (peers : List (Nat × Nat)) (k : Nat) : List (Nat × Nat) × Option Nat := (Collector.del peers k, peers.look k)

/-- a task with its channel: what was sent and not taken, what was taken, and whether it has been aborted (K:242-246) -/
structure Mailbox where
  queue : List Admin
  taken : List Admin
  aborted : Bool
  deriving DecidableEq, Repr

/-- what happens to a task: it takes a message, K:212-218, or its controller is dropped, K:242-246 -/
inductive MailStep : Mailbox → Mailbox → Prop where
  | take (m : Admin) (q : List Admin) (d : List Admin) : MailStep ⟨m :: q, d, false⟩ ⟨q, d ++ [m], false⟩
  | drop (q d : List Admin) (b : Bool) : MailStep ⟨q, d, b⟩ ⟨q, d, true⟩

/-- `shutdown`, K:280-283 -/
def Mailbox.shutdown (m : Mailbox) : Mailbox := { m with queue := m.queue ++ [.manualStop] }

end Verif.Listener
