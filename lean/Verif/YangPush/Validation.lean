import Verif.Collector.Types
import Verif.YangPush.Types
/-!
# The validation of YANG push notifications

`V` stands for `crates/yang-push/src/validation/mod.rs`. `A` are addresses, `X` JSON values, `P` packets, `L` references to YANG libraries and `C` contexts of schemas. What
comes from outside is a parameter, see `Env`: how packets are decoded, how schemas are loaded and whether they allow a payload. Messages are taken to be received by
what is next: when they are not the actor ends, `V:1054-1086`, and nothing more is sent. Counters and what is only logged are left out, but packets that are dropped with a
warning are an output.
-/
namespace Verif.YangPush
open Collector

/-- `UdpNotifRequest`, `crates/udp-notif-service/src/lib.rs:42-76`: a packet, where it came from and where it came to -/
structure Request (A P : Type) where
  collector : Sock A
  interface : Option String
  peer : Sock A
  packet : P
  deriving DecidableEq, Repr

/-- `CacheResponse`, `crates/yang-push/src/cache/actor.rs:390-394` -/
structure Response (A X L : Type) where
  contentId : Option String
  info : SubInfo A X
  library : Option L
  deriving DecidableEq, Repr

/-- what comes from outside: `UdpNotifPacketDecoded::try_from`, `V:530`; `Context::new_from_yang_library_file`, `V:931-936`; whether `DataTree::parse_string`, `V:699-705`, and
`DataTree::parse_op_string`, `V:738-744`, succeed; and the limits, `V:280-281` -/
structure Env (X P L C : Type) where
  decode : P → Option (Decoded X)
  load : L → Option C
  parse : C → P → Bool
  parseOp : C → P → Bool
  maxPeer : Nat
  maxSub : Nat

/-- `CachedSubscription`, `V:136-142` -/
structure CachedSub (A X P C : Type) where
  contentId : Option String
  info : SubInfo A X
  ctx : Option C
  packets : List (Request A P)

/-- `CachedPeerSubscriptions`, `V:144-147` -/
abbrev PeerSubs (A X P C : Type) := List (UInt32 × CachedSub A X P C)

/-- `peer_cache`, `V:282` -/
abbrev PeerCache (A X P C : Type) := List (A × PeerSubs A X P C)

/-- why a packet is dropped: `V:556-569`, `V:867-875`, `V:435-450`, `V:453-466`, `V:706-723` with `V:745-754` -/
inductive DropReason where
  | undecodable
  | noSubscription
  | subscriptionFull
  | peerFull
  | invalid
  deriving DecidableEq, Repr

/-- what the actor sends: lookups to the cache, `V:809-827`, `V:854-863`, what is forwarded, `V:648-668`, and the warnings that a packet is dropped -/
inductive Output (A X P : Type) where
  | lookupInfo (info : SubInfo A X)
  | lookupId (collector : Sock A) (interface : Option String) (peer : Sock A) (id : UInt32)
  | forward (contentId : Option String) (info : SubInfo A X) (decoded : Decoded X)
  | dropped (reason : DropReason) (request : Request A P)
  deriving DecidableEq, Repr

variable {A X P L C : Type}

/-- the notifications that start or modify a subscription, `V:351-356` -/
def Contents.starts : Contents X → Option (Started X)
  | .started s => some s
  | .modified s => some s
  | _ => none

/-- `build_subscription_info`, `V:985-1034` -/
def buildInfo (r : Request A P) (s : Started X) : Option (SubInfo A X) :=
  match s.modules with
  | none => none
  | some modules => some {
      collector := r.collector
      interface := r.interface
      peer := r.peer
      id := s.id
      target := s.target
      stopTime := s.stopTime
      transport := s.transport
      encoding := s.encoding
      purpose := s.purpose
      trigger := s.trigger
      models := modules ++ [⟨"ietf-subscribed-notifications", none, none⟩]
      contentId := s.contentId.getD "" }

section
variable [DecidableEq A]

/-- what is cached for a subscription of a peer, `V:380-387`, `V:390-397` -/
def PeerCache.entry (c : PeerCache A X P C) (ip : A) (id : UInt32) : Option (CachedSub A X P C) := (c.look ip).bind (·.look id)

/-- to change what is cached for a subscription of a peer, both of which are made when they are not there, `V:418-433`, `V:603-612` -/
def PeerCache.set (c : PeerCache A X P C) (ip : A) (id : UInt32) (e : CachedSub A X P C) : PeerCache A X P C := put c ip (put ((c.look ip).getD []) id e)

/-- an entry as it is made, `V:428-433`, `V:607-612` -/
def CachedSub.fresh (info : SubInfo A X) : CachedSub A X P C where
  contentId := none
  info
  ctx := none
  packets := []

/-- the packets that are cached for a peer, `V:419-423` -/
def PeerSubs.total (subs : PeerSubs A X P C) : Nat := (subs.map fun x => x.2.packets.length).sum

/-- `cache_packet`, `V:407-482` -/
def cachePacket (env : Env X P L C) (c : PeerCache A X P C) (info : SubInfo A X) (r : Request A P) : PeerCache A X P C × List (Output A X P) :=
  let total := ((c.look r.peer.ip).getD []).total
  let e := (c.entry r.peer.ip info.id).getD (.fresh info)
  if e.packets.length > env.maxSub then (c.set r.peer.ip info.id e, [.dropped .subscriptionFull r])
  else if total > env.maxPeer then (c.set r.peer.ip info.id e, [.dropped .peerFull r])
  else (c.set r.peer.ip info.id { e with packets := e.packets ++ [r] }, [])

/-- `validate_message`, `V:684-769` -/
def validate (env : Env X P L C) (ctx : C) (legacy : Bool) (packet : P) : Bool := if !legacy then env.parse ctx packet else env.parseOp ctx packet
end

variable [DecidableEq A] [DecidableEq X]

/-- `check_subscription_new`, `V:298-322` -/
def checkNew (c : PeerCache A X P C) (ip : A) (info : SubInfo A X) : PeerCache A X P C :=
  match c.look ip with
  | none => c
  | some subs =>
    let different := ((subs.look info.id).map fun x => !x.info.same info).getD true
    let subs := if different then del subs info.id else subs
    if subs.isEmpty then del c ip else put c ip subs

/-- the first half of `get_subscription_info`, `V:351-388` -/
def findInfo (c : PeerCache A X P C) (r : Request A P) (k : Contents X) : PeerCache A X P C × Option (SubInfo A X) :=
  match k.starts with
  | some s =>
    match buildInfo r s with
    | some info => (checkNew c r.peer.ip info, some info)
    | none => (c, none)
  | none => (c, (c.entry r.peer.ip k.id).map (·.info))

/-- the second half of `get_subscription_info`, `V:389-404`: whether there is an entry for the subscription, and its content identifier, which is `none` as long as it is not
known -/
def cachedContentId (c : PeerCache A X P C) (r : Request A P) (k : Contents X) (info : SubInfo A X) : Option (Option String) :=
  ((c.entry r.peer.ip k.id).filter fun x => x.info.same info).map (·.contentId)

/-- `extract_subscription_info`, `V:773-878`, which begins with `V:337-349` -/
def extract (env : Env X P L C) (c : PeerCache A X P C) (r : Request A P) (d : Decoded X) :
    PeerCache A X P C × List (Output A X P) × Option (SubInfo A X) :=
  match d.contents with
  | none => (c, [.dropped .noSubscription r], none)
  | some k =>
    match findInfo c r k with
    | (c, some info) =>
      match cachedContentId c r k info with
      | some _ => (c, [], some info)
      | none => ((cachePacket env c info r).1, .lookupInfo info :: (cachePacket env c info r).2, none)
    | (c, none) =>
      let info := SubInfo.empty r.collector r.interface r.peer k.id
      ((cachePacket env c info r).1, .lookupId r.collector r.interface r.peer k.id :: (cachePacket env c info r).2, none)

/-- the end of `process_udp_notif_msg`, `V:603-681` -/
def finish (env : Env X P L C) (c : PeerCache A X P C) (r : Request A P) (d : Decoded X) (info : SubInfo A X) :
    PeerCache A X P C × List (Output A X P) :=
  let e := (c.entry r.peer.ip info.id).getD (.fresh info)
  (c.set r.peer.ip info.id e,
    match e.contentId, e.ctx, info.isEmpty with
    | some contentId, some ctx, false => if validate env ctx d.legacy r.packet then [.forward (some contentId) info d] else [.dropped .invalid r]
    | _, _, _ => [.forward none info d])

/-- `process_udp_notif_msg`, `V:574-682` -/
def process (env : Env X P L C) (c : PeerCache A X P C) (r : Request A P) : PeerCache A X P C × List (Output A X P) :=
  match env.decode r.packet with
  | none => (c, [.dropped .undecodable r])
  | some d =>
    match extract env c r d with
    | (c, outs, none) => (c, outs)
    | (c, outs, some info) => ((finish env c r d info).1, outs ++ (finish env c r d info).2)

/-- the loop over packets that were cached, `V:964-981` -/
def processAll (env : Env X P L C) : PeerCache A X P C → List (Request A P) → PeerCache A X P C × List (Output A X P)
  | c, [] => (c, [])
  | c, r :: rs => ((processAll env (process env c r).1 rs).1, (process env c r).2 ++ (processAll env (process env c r).1 rs).2)

/-- what an entry becomes with a response, `V:927-963` -/
def CachedSub.answered (env : Env X P L C) (resp : Response A X L) : CachedSub A X P C where
  contentId := if resp.library.isSome then resp.contentId else none
  info := resp.info
  ctx := resp.library.bind env.load
  packets := []

/-- `process_cache_response`, `V:880-983` -/
def respond (env : Env X P L C) (c : PeerCache A X P C) (resp : Response A X L) : PeerCache A X P C × List (Output A X P) :=
  match c.entry resp.info.peer.ip resp.info.id with
  | none => (c, [])
  | some e => processAll env (c.set resp.info.peer.ip resp.info.id (.answered env resp)) e.packets

/-- what the actor receives -/
inductive Event (A X P L : Type) where
  | packet (r : Request A P)
  | response (resp : Response A X L)
  deriving DecidableEq, Repr

/-- one turn of `run`, `V:1036-1089` -/
def step (env : Env X P L C) (c : PeerCache A X P C) : Event A X P L → PeerCache A X P C × List (Output A X P)
  | .packet r => process env c r
  | .response resp => respond env c resp

/-- `run`, `V:1036-1089`: what is cached after the events, and what was sent. The actor begins with nothing, `V:1129`. -/
def validationRun (env : Env X P L C) (c : PeerCache A X P C) : List (Event A X P L) → PeerCache A X P C × List (Output A X P)
  | [] => (c, [])
  | e :: es => ((validationRun env (step env c e).1 es).1, (step env c e).2 ++ (validationRun env (step env c e).1 es).2)

end Verif.YangPush
