import Verif.Service.Datagram

/-! The actor that accepts connections of BMP, and the tasks that read them. `A` is
`crates/bmp-service/src/actor.rs`.

The actor and its tasks run side by side. An event is what one of them does between two places where it waits: the actor
takes a command, a notice of a closed connection or a connection; a task takes an update of the subscribers, takes
something from its connection, or ends the send to one subscriber. Events are in any order; an event of a task that has
ended, or that waits for something else, does nothing. Whether the other side of a reply still listens changes nothing,
and is left out, as are the octets: what a task takes from its connection is what its decoder gives. The table of
subscribers has no order in the code and has that of the list here. The gauges and what is logged are left out. -/

namespace Verif.BmpService
open Verif Verif.Collector Verif.Service

variable {π : Type}

/-- subscribers with their channels, `A:204` -/
abbrev Subs := List (UInt32 × List Chan)

/-- the number of updates a task may be behind before they are overwritten, `A:232` -/
def updatesKept : Nat := 16

/-- the number of notices of closed connections the actor may have waiting, `A:233` -/
def noticesKept : Nat := 1000

/-- a task that reads a connection, `handle_connection`, `A:661-691`. `todo` has the subscribers that the message in
hand is still to be sent to. `pending` and `lagged` are its receiver of updates: those it did not take yet, and whether
some were overwritten. `running` is false when it has ended, or is aborted. -/
structure Task (π : Type) where
  peer : Addr
  view : Subs
  todo : List (UInt32 × List Chan × π)
  pending : List Subs
  lagged : Bool
  running : Bool

/-- `BmpActor`, `A:185-221`, with the tasks it has spawned, and the counters of `BmpActorStats`, `A:127-139`. A task is
known by its place in the list. `table` is `connection_tasks`. `over` is true when `run` has returned. -/
structure Actor (π : Type) where
  id : Nat
  addr : Addr
  next : UInt32
  subscribers : Subs
  tasks : List (Task π)
  table : List (Addr × Nat)
  notices : List Addr
  accepted : Nat
  closed : Nat
  received : Nat
  malformed : Nat
  sent : Nat
  dropped : Nat
  lost : Nat
  over : Bool

/-- `new`, `A:224-248` -/
def Actor.new (id : Nat) (addr : Addr) : Actor π := ⟨id, addr, 0, [], [], [], [], 0, 0, 0, 0, 0, 0, 0, false⟩

/-- the commands, `A:88-107` -/
inductive Command where
  | shutdown
  | subscribe (chans : List Chan)
  | unsubscribe (id : UInt32)
  | disconnect (peer : Addr)
  | localAddr
  | peers

/-- what happens next -/
inductive Event (π : Type) where
  | command (c : Command)
  | noCommands
  | notice
  | accept (peer : Addr)
  | acceptFailed
  | update (t : Nat)
  | message (t : Nat) (m : π)
  | send (t : Nat) (how : Sending)
  | malformed (t : Nat)
  | eof (t : Nat)

/-- what others see. `received` is what the counter of messages of the peer sees. -/
inductive Effect (π : Type) where
  | subscribed (actor : Nat) (sub : UInt32)
  | unsubscribed (sub : Option (Nat × UInt32))
  | disconnected (actor : Nat) (done : Bool)
  | localAddr (actor : Nat) (addr : Addr)
  | peers (actor : Nat) (l : List Addr)
  | stopping (actor : Nat)
  | received (t : Nat) (m : π)
  | offer (t : Nat) (sub : UInt32) (chan : Chan) (peer : Addr) (m : π) (how : Sending)
  deriving DecidableEq

/-- a task is given an update: the receiver of a `broadcast` channel keeps the last ones, `A:410`, `A:456` -/
def Task.tell (s : Subs) (k : Task π) : Task π :=
  let l := k.pending ++ [s]
  if l.length > updatesKept then { k with pending := l.drop (l.length - updatesKept), lagged := true }
  else { k with pending := l }

/-- `abort` of the task with the given place -/
def abort (ts : List (Task π)) (t : Nat) : List (Task π) := ts.modify t fun k => { k with running := false }

/-- `handle_command`, `A:311-395`, with the handlers it calls, `A:399-545`. The identifiers wrap, as they do without
checks for overflow. -/
def Actor.handle (a : Actor π) : Command → Actor π × List (Effect π)
  | .shutdown =>
    ({ a with tasks := a.table.foldl (fun ts e => abort ts e.2) a.tasks, table := [], over := true }, [.stopping a.id])
  | .subscribe chans =>
    let subs := put a.subscribers a.next chans
    ({ a with next := a.next + 1, subscribers := subs, tasks := a.tasks.map (·.tell subs) }, [.subscribed a.id a.next])
  | .unsubscribe id =>
    let subs := del a.subscribers id
    ({ a with subscribers := subs, tasks := a.tasks.map (·.tell subs) },
      [.unsubscribed ((a.subscribers.look id).map fun _ => (a.id, id))])
  | .disconnect peer =>
    match a.table.look peer with
    | some t => ({ a with table := del a.table peer, closed := a.closed + 1, tasks := abort a.tasks t }, [.disconnected a.id true])
    | none => (a, [.disconnected a.id false])
  | .localAddr => (a, [.localAddr a.id a.addr])
  | .peers => (a, [.peers a.id (a.table.map (·.1))])

/-- a connection that is taken, `A:914-966` -/
def Actor.accept (a : Actor π) (peer : Addr) : Actor π :=
  let a := match a.table.look peer with
    | some t => { a with table := del a.table peer, closed := a.closed + 1, tasks := abort a.tasks t }
    | none => a
  { a with
    tasks := a.tasks ++ [⟨peer, a.subscribers, [], [], false, true⟩]
    table := put a.table peer a.tasks.length
    accepted := a.accepted + 1 }

/-- a notice of a closed connection that is taken, `A:877-909` -/
def Actor.notice (a : Actor π) : Actor π :=
  match a.notices with
  | [] => a
  | peer :: rest =>
    match a.table.look peer with
    | some _ => { a with notices := rest, table := del a.table peer, closed := a.closed + 1 }
    | none => { a with notices := rest }

/-- a task gets out of its loop and sends its notice, `A:778-815` -/
def Actor.finish (a : Actor π) (t : Nat) (k : Task π) : Actor π :=
  let a := { a with tasks := a.tasks.set t { k with running := false } }
  if a.over then a
  else if a.notices.length < noticesKept then { a with notices := a.notices ++ [k.peer] }
  else { a with lost := a.lost + 1 }

/-- the channel of a subscriber, `A:564-572`: by the address and the port of the peer. `none` is the panic of a
remainder by zero. -/
def pick (hash : Addr → Nat) (peer : Addr) (chans : List Chan) : Option Chan :=
  if chans.length = 1 then chans[0]? else if chans.length = 0 then none else chans[hash peer % chans.length]?

/-- a task takes an update, or learns that some were overwritten or that there are no more, `A:696-727` -/
def Actor.update (a : Actor π) (t : Nat) (k : Task π) : Actor π :=
  if k.lagged then { a with tasks := a.tasks.set t { k with lagged := false } }
  else match k.pending with
    | s :: rest => { a with tasks := a.tasks.set t { k with view := s, pending := rest } }
    | [] => if a.over then a.finish t k else a

/-- a send to a subscriber ends, `send_to_subscribers`, `A:563-606` -/
def Actor.send (hash : Addr → Nat) (a : Actor π) (t : Nat) (k : Task π) (how : Sending) : Actor π × List (Effect π) :=
  match k.todo with
  | [] => (a, [])
  | (id, chans, m) :: rest =>
    match pick hash k.peer chans with
    | none => ({ a with tasks := a.tasks.set t { k with running := false } }, [])
    | some c =>
      let a := if how = .sent then { a with sent := a.sent + 1 } else { a with dropped := a.dropped + 1 }
      ({ a with tasks := a.tasks.set t { k with todo := rest } }, [.offer t id c k.peer m how])

/-- what a task does when it is idle: it waits for an update or for its connection, `A:693-777` -/
def Actor.idle (a : Actor π) (t : Nat) (f : Task π → Actor π × List (Effect π)) : Actor π × List (Effect π) :=
  match a.tasks[t]? with
  | some k => if k.running ∧ k.todo.isEmpty then f k else (a, [])
  | none => (a, [])

/-- one step of the actor, `run`, `A:832-1003`, or of a task, `handle_connection`, `A:661-815` -/
def Actor.step (hash : Addr → Nat) (a : Actor π) : Event π → Actor π × List (Effect π)
  | .command c => if a.over then (a, []) else a.handle c
  | .noCommands => if a.over then (a, []) else ({ a with over := true }, [])
  | .notice => if a.over then (a, []) else (a.notice, [])
  | .accept peer => if a.over then (a, []) else (a.accept peer, [])
  | .acceptFailed => (a, [])
  | .update t => a.idle t fun k => (a.update t k, [])
  | .message t m => a.idle t fun k =>
    ({ a with
        received := a.received + 1
        tasks := a.tasks.set t { k with todo := k.view.map fun e => (e.1, e.2, m) } }, [.received t m])
  | .send t how =>
    match a.tasks[t]? with
    | some k => if k.running then a.send hash t k how else (a, [])
    | none => (a, [])
  | .malformed t => a.idle t fun k => ({ a with malformed := a.malformed + 1 }.finish t k, [])
  | .eof t => a.idle t fun k => (a.finish t k, [])

/-- any number of steps -/
def Actor.run (hash : Addr → Nat) (a : Actor π) : List (Event π) → Actor π × List (Effect π)
  | [] => (a, [])
  | e :: es =>
    let (a, out) := a.step hash e
    let (a, out') := a.run hash es
    (a, out ++ out')

end Verif.BmpService
