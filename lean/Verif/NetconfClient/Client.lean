import Verif.NetconfXml.YangLib
/-!
# The NETCONF client and fetching of YANG libraries for subscriptions

`N` stands for `crates/netconf-proto/src/client.rs`, `F` for `crates/netconf-proto/src/yang_push/filters.rs`, `S` for `crates/netconf-proto/src/yang_push/subscription.rs` and `C` for
`crates/yang-push/src/cache/fetcher.rs`, `L` for `crates/netconf-proto/src/yanglib.rs` and `P` for `crates/netconf-proto/src/protocol.rs`.

A session is what the server sends, message by message, until it closes the connection, and how many messages can be sent before sending fails. How messages become bytes is not part of this model; what
comes of the data of subscriptions and filters is a parameter. Messages for the log are left out. A number of a message is a natural number here; in the code it is a `u32`, which starts with 10110.
-/
namespace Verif.NcClient
open Verif.Xml
open Verif.Collector (Text)

/-- what the stream of messages gives, `N:426-451` -/
inductive Incoming (D : Type) where
  | message (m : Message D YLib)
  /-- a message that cannot be decoded, or an error of the connection -/
  | failed

/-- `NetConfSshClientError`, `N:80-100`, without what it tells -/
inductive ClientErr where
  /-- sending or receiving failed, or the server closed the connection -/
  | io
  | unexpected
  | parsing
  | sessionId
  | hello
  deriving DecidableEq, Repr

/-- `NetConfSshClient`, `N:287-313`, with what is still to come from the server and what was sent. The fields for the YANG library and the filters are never set, `N:405-406`. -/
structure Session (D : Type) where
  inbox : List (Incoming D)
  /-- how many messages can still be sent -/
  room : Nat
  nextId : Nat
  sent : List (Message D YLib)

/-- something that is done in a session -/
def Client (D α : Type) := Session D → Except ClientErr α × Session D

instance {D : Type} : Monad (Client D) where
  pure a s := (.ok a, s)
  bind m f s := match m s with
    | (.ok a, s') => f a s'
    | (.error e, s') => (.error e, s')

/-- an error -/
def fail {D α : Type} (e : ClientErr) : Client D α := fun s => (.error e, s)

/-- `framed.send` -/
def send {D : Type} (m : Message D YLib) : Client D Unit := fun s =>
  match s.room with
  | 0 => (.error .io, s)
  | n + 1 => (.ok (), { s with room := n, sent := s.sent ++ [m] })

/-- `framed.next` with the errors of `N:366-371` and `N:431-449` -/
def receive {D : Type} : Client D (Message D YLib) := fun s =>
  match s.inbox with
  | [] => (.error .io, s)
  | .failed :: inbox => (.error .io, { s with inbox })
  | .message m :: inbox => (.ok m, { s with inbox })

/-- `exchange_hello`, `N:345-385`, with `base:1.1` announced: the identifier of the session and what the server can do -/
def exchangeHello {D : Type} (caps : List (Cap D)) : Client D (UInt32 × List (Cap D)) := do
  send (.hello ⟨none, caps⟩)
  match ← receive with
  | .hello h =>
    match h.sessionId with
    | some n => return (n, h.capabilities)
    | none => fail .sessionId
  | _ => fail .unexpected

/-- `next_message_id`, `N:333-337` -/
def nextMessageId {D : Type} : Client D Nat := fun s => (.ok s.nextId, { s with nextId := s.nextId + 1 })

/-- `rpc`, `N:410-424` -/
def rpc {D : Type} (op : RpcOp) : Client D Text := do
  let n ← nextMessageId
  send (.rpc ⟨decimal n, op⟩)
  return decimal n

/-- `rpc_reply`, `N:426-451` -/
def rpcReply {D : Type} : Client D (Reply YLib) := do
  match ← receive with
  | .reply r => return r
  | _ => fail .unexpected

/-- `validate_message_id`, `N:557-571` -/
def validateMessageId {D : Type} (id : Text) (r : Reply YLib) : Client D Unit := if id ≠ r.messageId.getD id then fail .unexpected else pure ()

/-- `responses`, `P:1283-1289` -/
def responses : ReplyContent YLib → Option (RpcResponse YLib)
  | .errorsAndData _ r => some r
  | .ok => none

/-- a request and what the server answers, as in `N:499-501`, `N:531-535`, `N:726-732` and `N:759-769` -/
def ask {D : Type} (op : RpcOp) : Client D (Option (RpcResponse YLib)) := do
  let id ← rpc op
  let r ← rpcReply
  validateMessageId id r
  return responses r.reply

/-- `get_schema`, `N:484-523` -/
def getSchema {D : Type} (name : Text) (version : Option Text) : Client D Text := do
  match ← ask (.wellKnown (.getSchema name version (some .yang))) with
  | some (.wellKnown (.yangSchema t)) => return t
  | _ => fail .unexpected

/-- `get_yang_library`, `N:526-554`; what is cached is never set -/
def getYangLibrary {D : Type} : Client D YLib := do
  match ← ask (.wellKnown .getYangLibrary) with
  | some (.wellKnown (.yangLibrary y)) => return y
  | _ => fail .unexpected

/-- `close`, `N:453-481`: the number of the message is not counted, and that of the answer is not looked at. What `framed.close` does is left out. -/
def closeSession {D : Type} : Client D Unit := do
  let n ← (fun s => (.ok s.nextId, s) : Client D Nat)
  send (.rpc ⟨decimal n, .raw [.empty ⟨none, "close-session"⟩ []]⟩)
  let r ← rpcReply
  match r.reply with
  | .ok => return ()
  | _ => fail .unexpected

/-- the namespaces with their prefixes that a filter has, `F:303-310`, and the rest of the filter -/
structure FilterSpec (R : Type) where
  namespaces : List (Text × Text)
  rest : R
  deriving DecidableEq, Repr

/-- `StreamSelectionFilterObjects` and `DatastoreSelectionFilterObjects`, `S:909-916` -/
inductive Selection (R : Type) where
  | byReference (name : Text)
  | within (filter : FilterSpec R)
  deriving DecidableEq, Repr

/-- `Target`, `S:128-167`, with what is looked at -/
inductive SubTarget (R : Type) where
  | stream (stream : Text) (filter : Selection R)
  | datastore (store : YStoreName) (selection : Selection R)
  deriving DecidableEq, Repr

/-- `YangPushModuleVersion`, `S:973-988` -/
structure ModuleVersion where
  name : Text
  revision : Option Text
  version : Option Text
  deriving DecidableEq, Repr

/-- `Subscription`, `S:49-98`, with what is looked at -/
structure Sub (R : Type) where
  target : SubTarget R
  modules : Option (List ModuleVersion)
  deriving DecidableEq, Repr

/-- how the data of a reply is read: subscriptions, `N:771-790`, and the map of the selection filters of `Filters`, `F:36-63` -/
structure Readers (R : Type) where
  subscription : List Raw → Option (Sub R)
  filters : List Raw → Option (List (Text × FilterSpec R))

/-- `get_yang_push_filters`, `N:716-747`; what is cached is never set. The content of the filter is given as the subtree that is asked for. -/
def getFilters {D R : Type} (rd : Readers R) : Client D (List (Text × FilterSpec R)) := do
  match ← ask (.wellKnown (.get (.subtree [.empty ⟨none, "filters"⟩ [⟨⟨none, "xmlns"⟩, some "urn:ietf:params:xml:ns:yang:ietf-subscribed-notifications".toList⟩]]))) with
  | some (.wellKnown (.data c)) =>
    match rd.filters c with
    | some f => return f
    | none => fail .parsing
  | _ => fail .unexpected

/-- the subtree that asks for a subscription, `N:759-766`, without the white space in it -/
def subscriptionSubtree (id : Nat) : List Raw :=
  [.start ⟨none, "subscriptions"⟩ [⟨⟨none, "xmlns"⟩, some "urn:ietf:params:xml:ns:yang:ietf-subscribed-notifications".toList⟩], .start ⟨none, "subscription"⟩ [], .start ⟨none, "id"⟩ [], .text (decimal id),
    .close ⟨none, "id"⟩, .close ⟨none, "subscription"⟩, .close ⟨none, "subscriptions"⟩]

/-- a reference to a filter of a datastore is replaced with the filter, `N:779-796`; one of a stream stays -/
def resolveReference {D R : Type} (rd : Readers R) (s : Sub R) : Client D (Sub R) :=
  match s.target with
  | .datastore store (.byReference name) => do
    let fs ← getFilters rd
    match fs.find? (fun f => f.1 = name) with
    | some f => return { s with target := .datastore store (.within f.2) }
    | none => return s
  | _ => pure s

/-- `get_yang_push_subscription_by_id`, `N:749-814` -/
def getSubscription {D R : Type} (rd : Readers R) (id : Nat) : Client D (Sub R) := do
  match ← ask (.wellKnown (.get (.subtree (subscriptionSubtree id)))) with
  | some (.wellKnown (.data c)) =>
    match rd.subscription c with
    | some s => resolveReference rd s
    | none => fail .parsing
  | _ => fail .unexpected

/-! ## Fetching -/

/-- the loop of `find_module_by_datastore_and_ns`, `L:120-131`, in which a set that is not listed ends the search -/
def YLib.findInSets (y : YLib) (ns : Text) : List Text → Option YModule
  | [] => none
  | n :: names =>
    match y.sets.find? (fun s => s.name = n) with
    | none => none
    | some s =>
      match s.modules.find? (fun m => m.uri = ns) with
      | some m => some m
      | none => findInSets y ns names

/-- `find_module_by_datastore_and_ns`, `L:113-133` -/
def YLib.findByStore (y : YLib) (d : YStoreName) (ns : Text) : Option YModule :=
  match y.stores.find? (fun s => s.name = d) with
  | none => none
  | some store =>
    match y.schemas.find? (fun s => s.name = store.schema) with
    | none => none
    | some schema => YLib.findInSets y ns schema.sets

/-- the error of fetching, with what is looked at -/
inductive FetchErr where
  | connect
  | timeout
  | client (e : ClientErr)
  | byReference (name : Text)
  | noModule (ns : Text)
  | target
  deriving DecidableEq, Repr

/-- the modules of the namespaces of a filter, `C:313-325` -/
def modulesOfNamespaces (y : YLib) (d : YStoreName) : List (Text × Text) → Except FetchErr (List ModuleVersion)
  | [] => .ok []
  | (_, ns) :: l =>
    match YLib.findByStore y d ns with
    | none => .error (.noModule ns)
    | some m =>
      match modulesOfNamespaces y d l with
      | .error e => .error e
      | .ok ms => .ok (⟨m.name, m.revision, none⟩ :: ms)

/-- the modules of a subscription, `C:276-327` -/
def modulesOf {R : Type} (y : YLib) (s : Sub R) : Except FetchErr (List ModuleVersion) :=
  match s.modules with
  | some ms => .ok ms
  | none =>
    match s.target with
    | .stream _ (.byReference n) => .error (.byReference n)
    | .stream _ (.within f) => modulesOfNamespaces y .running f.namespaces
    | .datastore _ (.byReference n) => .error (.byReference n)
    | .datastore d (.within f) => modulesOfNamespaces y d f.namespaces

/-- the names of the modules that are loaded, `C:329-332` -/
def seedOf (ms : List ModuleVersion) : List Text :=
  if ms.any fun m => m.name = "ietf-subscribed-notifications".toList then ms.map (·.name) else ms.map (·.name) ++ ["ietf-subscribed-notifications".toList]

/-- what is known of a subscription after it was fetched, `SubscriptionInfo::new`, `C:354-367`, with what is looked at -/
structure Fetched (R L : Type) where
  id : Nat
  target : SubTarget R
  modules : List ModuleVersion
  contentId : Text
  loaded : L
  deriving DecidableEq, Repr

/-- errors of the client are errors of fetching -/
def lifted {D α : Type} (m : Client D α) (s : Session D) : Except FetchErr α × Session D :=
  match m s with
  | (.ok a, s') => (.ok a, s')
  | (.error e, s') => (.error (.client e), s')

/-- `fetch_from_device_by_id`, `C:221-380`, in a session that is established, with `load_from_modules` as `load`; how closing the session ends does not matter. The target
of the subscription can be turned into that of a notification, or not, `C:346-353`. -/
def fetchById {D R L : Type} (rd : Readers R) (load : List Text → Client D L) (targetOk : SubTarget R → Bool) (id : Nat) (s : Session D) : Except FetchErr (Fetched R L) × Session D :=
  match lifted (getSubscription rd id) s with
  | (.error e, s) => (.error e, s)
  | (.ok sub, s) =>
    match lifted getYangLibrary s with
    | (.error e, s) => (.error e, s)
    | (.ok y, s) =>
      match modulesOf y sub with
      | .error e => (.error e, s)
      | .ok ms =>
        match lifted (load (seedOf ms)) s with
        | (.error e, s) => (.error e, s)
        | (.ok l, s) =>
          let s := (closeSession s).2
          if targetOk sub.target then (.ok ⟨id, sub.target, ms, y.contentId, l⟩, s) else (.error .target, s)

/-- what comes of connecting to a device, `C:180-190`, `C:262-271` -/
inductive Connecting (D : Type) where
  | connected (s : Session D)
  | refused
  | late

/-- an attempt -/
def attempt {D R L : Type} (rd : Readers R) (load : List Text → Client D L) (targetOk : SubTarget R → Bool) (id : Nat) : Connecting D → Except FetchErr (Fetched R L)
  | .connected s => (fetchById rd load targetOk id s).1
  | .refused => .error .connect
  | .late => .error .timeout

/-- the time to wait before an attempt, in milliseconds, for a number between 0 and 1000 that is drawn, `C:396-402`; times are whole milliseconds here and floating-point numbers in the code -/
def delay (maxBackoff attempt drawn : Nat) : Nat :=
  let capped := min (1000 * 2 ^ (attempt - 1)) maxBackoff
  capped / 2 + capped / 2 * drawn / 1000

/-- the loop of `with_retry`, `C:387-413`, with what each attempt comes to and what is drawn, over the attempts that are left: the result, and the times that were waited -/
def retryFrom {α : Type} (maxBackoff : Nat) (op : Nat → Except FetchErr α) (drawn : Nat → Nat) : Nat → Nat → Except FetchErr α × List Nat
  | i, 0 => (op i, if i = 0 then [] else [delay maxBackoff i (drawn i)])
  | i, left + 1 =>
    let waited := if i = 0 then [] else [delay maxBackoff i (drawn i)]
    match op i with
    | .ok a => (.ok a, waited)
    | .error _ => ((retryFrom maxBackoff op drawn (i + 1) left).1, waited ++ (retryFrom maxBackoff op drawn (i + 1) left).2)

/-- `with_retry` -/
def withRetry {α : Type} (maxRetries maxBackoff : Nat) (op : Nat → Except FetchErr α) (drawn : Nat → Nat) : Except FetchErr α × List Nat := retryFrom maxBackoff op drawn 0 maxRetries

end Verif.NcClient
