import Verif.YangPush.Storage
import Verif.YangPush.Validation
/-!
# The actor of the cache of YANG libraries

`C` stands for `crates/yang-push/src/cache/actor.rs` and `F` for `crates/yang-push/src/cache/fetcher.rs`.

Those that ask are `S`; a send to one that is gone is a send. What a device answers, and when a worker ends, comes with the events. Metrics and the end of the actor are left out.
-/
namespace Verif.YangPush.Cache
open Collector

variable {A X S : Type}

/-- what a worker fetches, `F:418-457` -/
inductive Job (A X : Type) where
  | info (info : SubInfo A X)
  | id (collector : Sock A) (interface : Option String) (peer : Sock A) (id : UInt32)
  deriving DecidableEq, Repr

/-- `FetcherResult`, `F:45-48`, with the error left out -/
inductive FetchResult (A X : Type) where
  | failed (info : SubInfo A X)
  | fetched (info : SubInfo A X) (library : Library) (schemas : List (String × String))
  deriving DecidableEq, Repr

/-- the key that those who wait for a worker wait under, `C:811-815`, `C:962-971` -/
def Job.key : Job A X → Ident A X
  | .info i => i.ident
  | .id c f p n => (SubInfo.empty c f p n : SubInfo A X).ident

/-- what a worker may bring, `F:146-218` and `F:221-381`: the description that it was asked about, or one of the same subscription of the same peer -/
def Honest : Job A X → FetchResult A X → Prop
  | .info i, .failed j => j = i
  | .info i, .fetched j _ _ => j = i
  | .id c f p n, .failed j => j = .empty c f p n
  | .id c f p n, .fetched j _ _ => j.collector = c ∧ j.interface = f ∧ j.peer = p ∧ j.id = n

/-- what happens: `CacheLookupCommand`, `C:306-337`, with whether a worker is started in time or, for those with a one-shot channel, what it brings; a worker ends, with nothing
if it panicked, `C:565-576`; those that are closed are removed, `C:740-748`. Both lookups by content identifier are alike. -/
inductive Event (A X S : Type) where
  | lookupInfo (info : SubInfo A X) (s : S) (starts : Bool)
  | lookupInfoOnce (info : SubInfo A X) (s : S) (result : FetchResult A X)
  | lookupId (collector : Sock A) (interface : Option String) (peer : Sock A) (id : UInt32) (s : S) (starts : Bool)
  | lookupIdOnce (collector : Sock A) (interface : Option String) (peer : Sock A) (id : UInt32) (s : S) (result : FetchResult A X)
  | lookupContent (contentId : String) (s : S)
  | ended (job : Job A X) (result : Option (FetchResult A X))
  | cleanup (closed : List S)
  deriving DecidableEq, Repr

/-- what is sent: responses, `C:434-478`, `C:510-548`, those with a content identifier, `C:480-508`, `C:550-563`, and what is asked of devices -/
inductive Out (A X S : Type) where
  | answer (s : S) (resp : Response A X Ref)
  | content (s : S) (contentId : String) (r : Option Ref)
  | fetch (job : Job A X)
  deriving DecidableEq, Repr

/-- `CacheActor`, `C:422-431`, with the disk -/
structure State (A X S : Type) where
  store : LibCache A X
  disk : Disk A X
  pending : List (Ident A X × List S)
  workers : List (Job A X)

/-- `CacheResponse` for a library, `C:441-451` -/
def respond (info : SubInfo A X) (r : Option Ref) : Response A X Ref := ⟨r.map (·.contentId), info, r⟩

variable [DecidableEq A] [DecidableEq X] [DecidableEq S]

/-- `process_worker_result`, `C:577-738`, when the worker did not panic -/
def finish (c : State A X S) : FetchResult A X → State A X S × List (Out A X S)
  | .failed info =>
    ({ c with pending := del c.pending info.ident }, ((c.pending.look info.ident).getD []).map fun s => .answer s ⟨none, info, none⟩)
  | .fetched info l schemas =>
    let p := putLibrary c.store c.disk info l schemas
    let empty : Ident A X := (SubInfo.empty info.collector info.interface info.peer info.id : SubInfo A X).ident
    let rest := del c.pending info.ident
    ({ store := p.1, disk := p.2.1, pending := del rest empty, workers := c.workers },
      ((c.pending.look info.ident).getD [] ++ (rest.look empty).getD []).map fun s => .answer s (respond info p.2.2))

/-- a lookup that is not answered from the cache, `C:811-865` and `C:962-1022`: it waits, and a worker is started if nobody else waits -/
def enqueue (c : State A X S) (job : Job A X) (s : S) (starts : Bool) : State A X S × List (Out A X S) :=
  let entry := (c.pending.look job.key).getD []
  if entry.isEmpty then
    if starts then ({ c with pending := put c.pending job.key [s], workers := c.workers ++ [job] }, [.fetch job])
    else ({ c with pending := put c.pending job.key [] }, [])
  else ({ c with pending := put c.pending job.key (entry ++ [s]) }, [])

/-- the loop of `run`, `C:1135-1194`, with `process_request`, `C:778-1133` -/
def step (c : State A X S) : Event A X S → State A X S × List (Out A X S)
  | .lookupInfo info s starts =>
    match c.store.getInfo info with
    | some r => (c, [.answer s (respond info (some r))])
    | none => enqueue c (.info info) s starts
  | .lookupInfoOnce info s result =>
    match c.store.getInfo info with
    | some r => (c, [.answer s (respond info (some r))])
    | none => ((finish c result).1, .fetch (.info info) :: (finish c result).2 ++ [.answer s (respond info ((finish c result).1.store.getInfo info))])
  | .lookupId collector interface peer id s starts =>
    match c.store.getId peer.ip id with
    | some (info, r) => (c, [.answer s (respond info r)])
    | none => enqueue c (.id collector interface peer id) s starts
  | .lookupIdOnce collector interface peer id s result =>
    match c.store.getId peer.ip id with
    | some (info, r) => (c, [.answer s (respond info r)])
    | none => ((finish c result).1, .fetch (.id collector interface peer id) :: (finish c result).2)
  | .lookupContent contentId s => (c, [.content s contentId (c.store.getContent contentId)])
  | .ended job result =>
    if job ∈ c.workers then
      match result with
      | none => ({ c with workers := c.workers.erase job }, [])
      | some r => finish { c with workers := c.workers.erase job } r
    else (c, [])
  | .cleanup closed =>
    ({ c with pending := (c.pending.map fun x => (x.1, x.2.filter fun s => s ∉ closed)).filter fun x => !x.2.isEmpty }, [])

/-- the events one after the other -/
def run (c : State A X S) : List (Event A X S) → State A X S × List (Out A X S)
  | [] => (c, [])
  | e :: es => let p := step c e; let q := run p.1 es; (q.1, p.2 ++ q.2)

/-- an actor with nothing asked of it yet, over a cache -/
def State.start (c : LibCache A X) (d : Disk A X) : State A X S := ⟨c, d, [], []⟩

end Verif.YangPush.Cache
