/-!
# Notifications and subscriptions of YANG push

`N` stands for `crates/udp-notif-pkt/src/notification.rs`, `D` for `crates/udp-notif-pkt/src/decoded.rs`, `S` for `crates/yang-push/src/cache/storage.rs`, `I` for
`crates/netconf-proto/src/yang_push/identities.rs` and `U` for `crates/netconf-proto/src/yang_push/subscription.rs`. `A` are addresses, `X` are JSON values, times are
integers.
-/
namespace Verif.YangPush

/-- an address with a port -/
structure Sock (A : Type) where
  ip : A
  port : UInt16
  deriving DecidableEq, Repr

/-- `Target`, `N:761-790` -/
structure Target (X : Type) where
  stream : Option String := none
  streamSubtree : Option X := none
  streamXpath : Option String := none
  replayStart : Option Int := none
  datastore : Option String := none
  datastoreSubtree : Option X := none
  datastoreXpath : Option String := none
  deriving DecidableEq, Repr

/-- `Transport`, `I:80-95` -/
inductive Transport where
  | udpNotif
  | httpsNotif
  | unknown
  deriving DecidableEq, Repr

/-- `Encoding`, `I:138-155` -/
inductive Encoding where
  | xml
  | json
  | cbor
  | unknown
  deriving DecidableEq, Repr

/-- `ChangeType`, `I:204-210` -/
inductive ChangeType where
  | create
  | delete
  | insert
  | move
  | replace
  deriving DecidableEq, Repr

/-- `UpdateTrigger`, `U:187-210`; that of telemetry messages, `crates/yang-push/src/model/telemetry.rs:459-483`, has the same fields -/
inductive UpdateTrigger where
  | periodic (period : Option UInt32) (anchor : Option Int)
  | onChange (dampening : Option UInt32) (sync : Option Bool) (excluded : Option (List ChangeType))
  deriving DecidableEq, Repr

/-- `YangPushModuleVersion`, `U:974-988` -/
structure ModuleVersion where
  name : String
  revision : Option String
  version : Option String
  deriving DecidableEq, Repr

/-- `SubscriptionInfo`, `S:783-811` -/
structure SubInfo (A X : Type) where
  collector : Sock A
  interface : Option String
  peer : Sock A
  id : UInt32
  target : Target X
  stopTime : Option Int
  transport : Option Transport
  encoding : Option Encoding
  purpose : Option String
  trigger : Option UpdateTrigger
  models : List ModuleVersion
  contentId : String
  deriving DecidableEq, Repr

/-- `SubscriptionStartedModified`, `N:410-460`, with the fields that are used -/
structure Started (X : Type) where
  id : UInt32
  target : Target X
  stopTime : Option Int
  transport : Option Transport
  encoding : Option Encoding
  purpose : Option String
  trigger : Option UpdateTrigger
  modules : Option (List ModuleVersion)
  contentId : Option String
  deriving DecidableEq, Repr

/-- `NotificationVariant`, `N:359-374`: of those that neither start nor modify a subscription only the subscription matters -/
inductive Contents (X : Type) where
  | started (s : Started X)
  | modified (s : Started X)
  | terminated (id : UInt32)
  | update (id : UInt32)
  | changeUpdate (id : UInt32)
  deriving DecidableEq, Repr

/-- `subscription_id`, `N:377-387` -/
def Contents.id {X : Type} : Contents X → UInt32
  | .started s => s.id
  | .modified s => s.id
  | .terminated i => i
  | .update i => i
  | .changeUpdate i => i

/-- `UdpNotifPacketDecoded`, `D:80-87`, with `UdpNotifPayload`, `D:63-70`: whether the notification is a legacy one, its time and contents, and `json`, the payload as
it is serialized again -/
structure Decoded (X : Type) where
  publisher : UInt32
  message : UInt32
  legacy : Bool
  eventTime : Int
  contents : Option (Contents X)
  json : X
  deriving DecidableEq, Repr

variable {A X : Type}

/-- `SubscriptionInfo::new_empty`, `S:876-896` -/
def SubInfo.empty (collector : Sock A) (interface : Option String) (peer : Sock A) (id : UInt32) : SubInfo A X where
  collector
  interface
  peer
  id
  target := { datastore := some "EMPTY", datastoreXpath := some "EMPTY" }
  stopTime := none
  transport := none
  encoding := none
  purpose := none
  trigger := none
  models := []
  contentId := "EMPTY"

/-- `SubscriptionInfo::is_empty`, `S:898-900` -/
def SubInfo.isEmpty (i : SubInfo A X) : Bool := i.contentId == "EMPTY"

/-- `SubscriptionInfo::eq`, `S:826-840`: the port of the peer, the collector and the interface do not count -/
def SubInfo.same [DecidableEq A] [DecidableEq X] (a b : SubInfo A X) : Bool :=
  a.peer.ip = b.peer.ip ∧ a.id = b.id ∧ a.target = b.target ∧ a.stopTime = b.stopTime ∧ a.transport = b.transport ∧ a.encoding = b.encoding ∧
    a.purpose = b.purpose ∧ a.trigger = b.trigger ∧ a.models = b.models ∧ a.contentId = b.contentId

end Verif.YangPush
