import Verif.Service.Datagram
/-! # The server of BMP and its handle

`H` is `crates/bmp-service/src/handle.rs` and `S` is `crates/bmp-service/src/server.rs`.

Tasks and callers of the handle run on several threads. A run is a list of atomic steps of them in any order: a step is
one access of an atomic value, one look at a `Notify`, or what a task does between two of these. The order in which
`select!` looks at what is ready is left to the list, but for that a loop that accepts or reads connections looks at the
signals first when it starts. Octets are left out: what a connection has is what its decoder gives. What is logged is
left out. -/

namespace Verif.BmpServer
open Verif Verif.Service

variable {π : Type}

/-- `NotifyOnce`, `H:23-51`. `owing` is true when a caller has set `triggered` and is yet to call
`Notify::notify_waiters`. `calls` is the number of calls of that, which tokio keeps in `Notify`. -/
structure Signal where
  triggered : Bool
  owing : Bool
  calls : Nat
  deriving DecidableEq

/-- `NotifyOnce::default` -/
def Signal.new : Signal := ⟨false, false, 0⟩

/-- the first access of `notify_waiters`, `H:35` -/
def Signal.set (s : Signal) : Signal := if s.triggered then s else { s with triggered := true, owing := true }

/-- the second one, by the caller that found that `triggered` was not set, `H:36` -/
def Signal.wake (s : Signal) : Signal := if s.owing then { s with owing := false, calls := s.calls + 1 } else s

/-- a caller of `notified`, `H:46-50`: before it looked at `triggered`; after it found that it is not set; with a
`Notified`, which has the number of calls when it was made; and when it returned -/
inductive Wait where
  | start
  | loaded
  | waiting (n : Nat)
  | over
  deriving DecidableEq

/-- the next access of `notified`, `H:47-48`. A `Notified` is ready when the number of calls is not what it was. -/
def Wait.poll (s : Signal) : Wait → Wait
  | .start => if s.triggered then .over else .loaded
  | .loaded => .waiting s.calls
  | .waiting n => if s.calls = n then .waiting n else .over
  | .over => .over

/-- the task has looked at the signal and waits for it -/
def Wait.pending : Wait → Bool
  | .waiting _ => true
  | _ => false

/-- what a decoder gives: a message, the end of the connection, or that it is malformed, `S:152`, `S:154`, `S:163` -/
inductive Item (π : Type) where
  | message (m : π)
  | eof
  | malformed
  deriving DecidableEq

/-- the last request of a connection, `S:155`, `S:167` -/
def Item.last : Item π → Bool
  | .message _ => false
  | _ => true

/-- what the service answers, `S:36-39`, `S:157-159` -/
inductive Answer where
  | go
  | close
  | failed
  deriving DecidableEq

/-- where a worker is: it reads; it waits for the service, with its last request or not; it has left and has its
`BmpServerHandleWatcher` yet to drop; it has taken the count to zero; it has seen that a graceful shutdown is asked for;
or it is gone -/
inductive Stage where
  | reading
  | calling (last : Bool)
  | leaving
  | checking
  | telling
  | gone
  deriving DecidableEq

/-- a worker with its connection, `S:93-107` -/
structure Conn (π : Type) where
  peer : Addr
  wait : Wait
  stage : Stage
  input : List (Item π)
  deriving DecidableEq

/-- it serves its connection -/
def Conn.live (k : Conn π) : Bool :=
  match k.stage with
  | .reading => true
  | .calling _ => true
  | _ => false

/-- where `serve` is: in its loop, with the calls that wait for the signals to shut down and to shut down gracefully; out
of its loop, `S:122-126`; waiting for connections to end, `H:126-138`; shutting down as the time is over; or returned,
with success or not -/
inductive Phase where
  | serving (sd gr : Wait)
  | closing
  | draining (w : Wait)
  | forcing
  | returned (ok : Bool)
  deriving DecidableEq

/-- the server with its handle, `H:61-68`. `limit` is whether there is a `graceful_shutdown_duration`. -/
structure Server (π : Type) where
  shutdown : Signal
  graceful : Signal
  ended : Signal
  count : Nat
  limit : Bool
  conns : List (Conn π)
  phase : Phase

/-- a server that listens, `S:72-77`, `H:71-89` -/
def Server.new (limit : Bool) : Server π := ⟨.new, .new, .new, 0, limit, [], .serving .start .start⟩

/-- one atomic step: of callers of the handle, of `serve`, or of a worker; or something arrives on a connection. `endWake`
is by the worker that was first to tell. -/
inductive Event (π : Type) where
  | shutdownSet
  | shutdownWake
  | gracefulSet
  | gracefulWake
  | endWake
  | serverPoll
  | gracefulPoll
  | accept (peer : Addr)
  | acceptFailed
  | count
  | endPoll
  | timeout
  | force
  | arrive (t : Nat) (i : Item π)
  | poll (t : Nat)
  | take (t : Nat) (ready : Bool)
  | answer (t : Nat) (a : Answer)
  | drop (t : Nat)
  | check (t : Nat)
  | tell (t : Nat)

/-- a worker does a step -/
def Server.worker (s : Server π) (t : Nat) (f : Conn π → Conn π) : Server π :=
  match s.conns[t]? with
  | some k => { s with conns := s.conns.set t (f k) }
  | none => s

/-- a worker looks at the signal to shut down, `S:99-101` -/
def Conn.polled (s : Signal) (k : Conn π) : Conn π :=
  if k.live then
    match k.wait.poll s with
    | .over => { k with wait := .over, stage := .leaving }
    | w => { k with wait := w }
  else k

/-- a worker takes what is next and calls the service, `S:152-158`, `S:163-166`, or leaves as the service is not ready -/
def Conn.taken (ready : Bool) (k : Conn π) : Conn π × Option (Item π) :=
  if k.stage = .reading ∧ k.wait.pending then
    match k.input with
    | [] => (k, none)
    | i :: rest => if ready then ({ k with stage := .calling i.last, input := rest }, some i) else ({ k with stage := .leaving, input := rest }, none)
  else (k, none)

/-- the service answers, `S:158-161`, `S:166-167` -/
def Conn.answered (a : Answer) (k : Conn π) : Conn π :=
  match k.stage with
  | .calling last => { k with stage := if last ∨ a ≠ .go then .leaving else .reading }
  | _ => k

/-- one step, `serve`, `S:60-129`, `handle_connection`, `S:138-171`, `wait_connections_end`, `H:126-138`, and `drop`,
`H:157-167`. The second part is a request to the service. -/
def Server.step (s : Server π) : Event π → Server π × Option (Nat × Item π)
  | .shutdownSet => ({ s with shutdown := s.shutdown.set }, none)
  | .shutdownWake => ({ s with shutdown := s.shutdown.wake }, none)
  | .gracefulSet => ({ s with graceful := s.graceful.set }, none)
  | .gracefulWake => ({ s with graceful := s.graceful.wake }, none)
  | .endWake => ({ s with ended := s.ended.wake }, none)
  | .serverPoll =>
    match s.phase with
    | .serving sd gr =>
      match sd.poll s.shutdown with
      | .over => ({ s with phase := .returned true }, none)
      | w => ({ s with phase := .serving w gr }, none)
    | _ => (s, none)
  | .gracefulPoll =>
    match s.phase with
    | .serving (.waiting n) gr =>
      match gr.poll s.graceful with
      | .over => ({ s with phase := .closing }, none)
      | w => ({ s with phase := .serving (.waiting n) w }, none)
    | _ => (s, none)
  | .accept peer =>
    match s.phase with
    | .serving (.waiting n) _ =>
      ({ s with phase := .serving (.waiting n) .start, count := s.count + 1, conns := s.conns ++ [⟨peer, .start, .reading, []⟩] }, none)
    | _ => (s, none)
  | .acceptFailed =>
    match s.phase with
    | .serving (.waiting _) _ => ({ s with phase := .returned false }, none)
    | _ => (s, none)
  | .count =>
    match s.phase with
    | .closing => ({ s with phase := if s.count = 0 then .returned true else .draining .start }, none)
    | _ => (s, none)
  | .endPoll =>
    match s.phase with
    | .draining w =>
      match w.poll s.ended with
      | .over => ({ s with phase := .returned true }, none)
      | w => ({ s with phase := .draining w }, none)
    | _ => (s, none)
  | .timeout =>
    match s.phase with
    | .draining _ => if s.limit then ({ s with phase := .forcing, shutdown := s.shutdown.set }, none) else (s, none)
    | _ => (s, none)
  | .force =>
    match s.phase with
    | .forcing => ({ s with phase := .returned true, shutdown := s.shutdown.wake }, none)
    | _ => (s, none)
  | .arrive t i => (s.worker t fun k => { k with input := k.input ++ [i] }, none)
  | .poll t => (s.worker t (Conn.polled s.shutdown), none)
  | .take t ready =>
    (s.worker t fun k => (k.taken ready).1, (s.conns[t]?.bind fun k => (k.taken ready).2).map fun i => (t, i))
  | .answer t a => (s.worker t (Conn.answered a), none)
  | .drop t =>
    match s.conns[t]? with
    | some k =>
      if k.stage = .leaving then
        ({ s with count := s.count - 1, conns := s.conns.set t { k with stage := if s.count - 1 = 0 then .checking else .gone } }, none)
      else (s, none)
    | none => (s, none)
  | .check t =>
    (s.worker t fun k =>
      if k.stage = .checking then { k with stage := if s.graceful.triggered then .telling else .gone } else k, none)
  | .tell t =>
    match s.conns[t]? with
    | some k =>
      if k.stage = .telling then
        ({ s with ended := s.ended.set, conns := s.conns.set t { k with stage := .gone } }, none)
      else (s, none)
    | none => (s, none)

/-- any number of steps -/
def Server.run (s : Server π) : List (Event π) → Server π × List (Nat × Item π)
  | [] => (s, [])
  | e :: es =>
    let (s', out) := s.step e
    let (s'', outs) := s'.run es
    (s'', out.toList ++ outs)

/-! ## Those who wait for a signal

`listening`, `wait_shutdown` and `wait_graceful_shutdown`, `H:95-117`, by any number of callers. -/

/-- a signal with all that have ever called `notified` -/
structure Lobby where
  signal : Signal
  waits : List Wait

/-- one access of a caller of `notify_waiters` or `notified` -/
inductive LobbyEvent where
  | set
  | wake
  | join
  | poll (w : Nat)
  deriving DecidableEq

/-- one access -/
def Lobby.step (l : Lobby) : LobbyEvent → Lobby
  | .set => { l with signal := l.signal.set }
  | .wake => { l with signal := l.signal.wake }
  | .join => { l with waits := l.waits ++ [.start] }
  | .poll w => { l with waits := l.waits.modify w (Wait.poll l.signal) }

/-- any number of accesses -/
def Lobby.run (l : Lobby) (es : List LobbyEvent) : Lobby := es.foldl Lobby.step l

/-- nobody waits -/
def Lobby.new : Lobby := ⟨.new, []⟩

end Verif.BmpServer
