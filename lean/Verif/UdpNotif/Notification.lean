import Verif.UdpNotif.Json
/-!
# Notifications of YANG-Push

`A` is `crates/udp-notif-pkt/src/notification.rs`, `D` is `crates/udp-notif-pkt/src/decoded.rs`, `S` is `crates/netconf-proto/src/yang_push/subscription.rs`, `I` is `crates/netconf-proto/src/yang_push/identities.rs`, `F` is
`crates/netconf-proto/src/yang_push/filters.rs`. What the derived implementations of `Serialize` and `Deserialize` do is modelled.
-/
namespace Verif.Notif

/-- `Transport`, I:80-95 -/
inductive Transport where
  | udp | https | unknown
  deriving DecidableEq, Repr

/-- its name, I:83-93; any other text is `Unknown` (`serde(other)`) -/
def Transport.ofName (s : String) : Transport := if s = "ietf-udp-notif-transport:udp-notif" then .udp else if s = "ietf-https-notif:https" then .https else .unknown
/-- I:83-93 -/
def Transport.name : Transport → String
  | .udp => "ietf-udp-notif-transport:udp-notif"
  | .https => "ietf-https-notif:https"
  | .unknown => "unknown"

/-- `Encoding`, I:138-155 -/
inductive Encoding where
  | xml | json | cbor | unknown
  deriving DecidableEq, Repr

/-- names and aliases, I:139-153 -/
def Encoding.ofName (s : String) : Encoding :=
  if s = "ietf-subscribed-notifications:encode-xml" ∨ s = "encode-xml" then .xml
  else if s = "ietf-subscribed-notifications:encode-json" ∨ s = "encode-json" then .json
  else if s = "ietf-udp-notif-transport:encode-cbor" ∨ s = "encode-cbor" then .cbor
  else .unknown
/-- I:139-153 -/
def Encoding.name : Encoding → String
  | .xml => "ietf-subscribed-notifications:encode-xml"
  | .json => "ietf-subscribed-notifications:encode-json"
  | .cbor => "ietf-udp-notif-transport:encode-cbor"
  | .unknown => "unknown"

/-- `ChangeType`, I:202-210 -/
inductive Change where
  | create | delete | insert | move | replace
  deriving DecidableEq, Repr

/-- I:203: names in lower case -/
def Change.name : Change → String
  | .create => "create"
  | .delete => "delete"
  | .insert => "insert"
  | .move => "move"
  | .replace => "replace"
/-- I:203: no other names -/
def Change.ofName (s : String) : Option Change :=
  if s = "create" then some .create else if s = "delete" then some .delete else if s = "insert" then some .insert else if s = "move" then some .move else if s = "replace" then some .replace else none

/-- `YangPushModuleVersion`, S:974-988 -/
structure Version where
  name : String
  revision : Option String
  version : Option String
  deriving DecidableEq, Repr

/-- S:972-988, with the aliases; `serde` reads structures that have no flattened fields also of arrays -/
def readVersion : Json → Option Version
  | .obj m => (readReq readStr ["name", "module-name"] m).bind fun n => (readOpt readStr ["revision"] m).bind fun r => (readOpt readStr ["version", "revision-label"] m).map fun v => ⟨n, r, v⟩
  | .arr [n, r, v] => (readStr n).bind fun n => (readNull readStr r).bind fun r => (readNull readStr v).map fun v => ⟨n, r, v⟩
  | _ => none

/-- S:972-988 -/
def writeVersion (v : Version) : Json := .obj ([("name", .str v.name)] ++ putOpt "revision" .str v.revision ++ putOpt "version" .str v.version)

/-- `UpdateTrigger`, S:187-210 -/
inductive Trigger where
  | periodic (period : Option Nat) (anchor : Option Nat)
  | onChange (dampening : Option Nat) (sync : Option Bool) (excluded : Option (List Change))
  deriving DecidableEq, Repr

/-- names of the variants, S:188 and S:198 -/
def triggerNames : List String := ["ietf-yang-push:periodic", "ietf-yang-push:on-change"]

/-- `ChangeType` -/
def readChange (j : Json) : Option Change := (readUnit j).bind Change.ofName

/-- S:187-210 -/
def readTrigger (d : Dates) (x : String × Json) : Option Trigger :=
  if x.1 = "ietf-yang-push:periodic" then
    match x.2 with
    | .obj m => (readOpt (readNat 4294967296) ["period"] m).bind fun p => (readOpt d.read ["anchor-time"] m).map fun a => .periodic p a
    | .arr [p, a] => (readNull (readNat 4294967296) p).bind fun p => (readNull d.read a).map fun a => .periodic p a
    | _ => none
  else if x.1 = "ietf-yang-push:on-change" then
    match x.2 with
    | .obj m => (readOpt (readNat 4294967296) ["dampening-period"] m).bind fun p => (readOpt readBool ["sync-on-start"] m).bind fun s => (readOpt (readArr readChange) ["excluded-change"] m).map fun e => .onChange p s e
    | .arr [p, s, e] => (readNull (readNat 4294967296) p).bind fun p => (readNull readBool s).bind fun s => (readNull (readArr readChange) e).map fun e => .onChange p s e
    | _ => none
  else none

/-- a number -/
def natJson (n : Nat) : Json := .int n

/-- S:187-210, flattened: a member with the name of the variant -/
def writeTrigger (d : Dates) : Trigger → String × Json
  | .periodic p a => ("ietf-yang-push:periodic", .obj (putOpt "period" natJson p ++ putOpt "anchor-time" (fun t => .str (d.text t)) a))
  | .onChange p s e => ("ietf-yang-push:on-change", .obj (putOpt "dampening-period" natJson p ++ putOpt "sync-on-start" .bool s ++ putOpt "excluded-change" (fun l => .arr (l.map fun c => .str c.name)) e))

/-- `Target`, A:761-790 -/
structure Target where
  stream : Option String
  streamSubtree : Option Json
  streamXpath : Option String
  replayStart : Option Nat
  datastore : Option String
  datastoreSubtree : Option Json
  datastoreXpath : Option String

/-- names of its fields, A:763-789 -/
def targetNames : List String := ["stream", "stream-subtree-filter", "stream-xpath-filter", "replay-start-time", "ietf-yang-push:datastore", "datastore-subtree-filter", "ietf-yang-push:datastore-xpath-filter"]

/-- A:761-790, flattened: of the members that are left those with these names -/
def readTarget (d : Dates) (m : Members) : Option Target :=
  (readOpt readStr ["stream"] m).bind fun a => (readOpt readAny ["stream-subtree-filter"] m).bind fun b => (readOpt readStr ["stream-xpath-filter"] m).bind fun c => (readOpt d.read ["replay-start-time"] m).bind fun e =>
  (readOpt readStr ["ietf-yang-push:datastore"] m).bind fun f => (readOpt readAny ["datastore-subtree-filter"] m).bind fun g => (readOpt readStr ["ietf-yang-push:datastore-xpath-filter"] m).map fun h => ⟨a, b, c, e, f, g, h⟩

/-- A:761-790 -/
def writeTarget (d : Dates) (t : Target) : Members :=
  putOpt "stream" .str t.stream ++ putOpt "stream-subtree-filter" id t.streamSubtree ++ putOpt "stream-xpath-filter" .str t.streamXpath ++ putOpt "replay-start-time" (fun t => .str (d.text t)) t.replayStart ++
  putOpt "ietf-yang-push:datastore" .str t.datastore ++ putOpt "datastore-subtree-filter" id t.datastoreSubtree ++ putOpt "ietf-yang-push:datastore-xpath-filter" .str t.datastoreXpath

/-- `Target::is_datastore_only`, A:881-889 -/
def Target.datastoreOnly (t : Target) : Bool :=
  t.stream.isNone && t.streamSubtree.isNone && t.streamXpath.isNone && t.replayStart.isNone && (t.datastore.isSome || t.datastoreSubtree.isSome || t.datastoreXpath.isSome)

/-- `SubscriptionStartedModified`, A:409-460 -/
structure Started where
  id : Nat
  target : Target
  stopTime : Option Nat
  dscp : Option Nat
  weighting : Option Nat
  dependency : Option Nat
  transport : Option Transport
  encoding : Option Encoding
  purpose : Option String
  publishers : Option (List Nat)
  trigger : Option Trigger
  versions : Option (List Version)
  contentId : Option String
  extra : Json

/-- names of its fields that are not flattened, A:411-456 -/
def startedNames : List String := ["id", "stop-time", "dscp", "weighting", "dependency", "transport", "encoding", "purpose", "ietf-distributed-notif:message-publisher-id", "ietf-yang-push-revision:module-version",
  "ietf-yang-push-revision:yang-library-content-id"]

/-- what is left of the members for the flattened `extra_fields`, and the trigger: A:413-459 in the order of the fields -/
def startedRest (d : Dates) (m : Members) : Option Trigger × Members := readFlat triggerNames (readTrigger d) (without targetNames (without startedNames m))

/-- A:409-460 -/
def readStarted (d : Dates) : Json → Option Started
  | .obj m =>
    (readReq (readNat 4294967296) ["id"] m).bind fun id => (readOpt d.read ["stop-time"] m).bind fun stop => (readOpt (readNat 256) ["dscp"] m).bind fun dscp => (readOpt (readNat 256) ["weighting"] m).bind fun weight =>
    (readOpt (readNat 4294967296) ["dependency"] m).bind fun dep => (readOpt (fun j => (readUnit j).map Transport.ofName) ["transport"] m).bind fun tr => (readOpt (fun j => (readUnit j).map Encoding.ofName) ["encoding"] m).bind fun enc =>
    (readOpt readStr ["purpose"] m).bind fun pur => (readOpt (readArr (readNat 4294967296)) ["ietf-distributed-notif:message-publisher-id"] m).bind fun pubs =>
    (readOpt (readArr readVersion) ["ietf-yang-push-revision:module-version"] m).bind fun vs => (readOpt readStr ["ietf-yang-push-revision:yang-library-content-id"] m).bind fun cid =>
    (readTarget d (without startedNames m)).map fun tg =>
    { id := id, target := tg, stopTime := stop, dscp := dscp, weighting := weight, dependency := dep, transport := tr, encoding := enc, purpose := pur, publishers := pubs, trigger := (startedRest d m).1, versions := vs, contentId := cid,
      extra := norm (.obj (startedRest d m).2) }
  | _ => none

/-- A:409-460, in the order of the fields -/
def writeStarted (d : Dates) (s : Started) : Option Json :=
  (flatMembers s.extra).map fun x => .obj ([("id", natJson s.id)] ++ writeTarget d s.target ++ putOpt "stop-time" (fun t => .str (d.text t)) s.stopTime ++ putOpt "dscp" natJson s.dscp ++ putOpt "weighting" natJson s.weighting ++
    putOpt "dependency" natJson s.dependency ++ putOpt "transport" (fun t => .str t.name) s.transport ++ putOpt "encoding" (fun t => .str t.name) s.encoding ++ putOpt "purpose" .str s.purpose ++
    putOpt "ietf-distributed-notif:message-publisher-id" (fun l => .arr (l.map natJson)) s.publishers ++ (s.trigger.map (writeTrigger d)).toList ++
    putOpt "ietf-yang-push-revision:module-version" (fun l => .arr (l.map writeVersion)) s.versions ++ putOpt "ietf-yang-push-revision:yang-library-content-id" .str s.contentId ++ x)

/-- `SubscriptionTerminated`, A:663-671 -/
structure Terminated where
  id : Nat
  reason : String
  extra : Json

/-- `YangPushUpdate` and `YangPushChangeUpdate`, A:697-706 and A:730-739 -/
structure Update where
  id : Nat
  contents : Json
  extra : Json

/-- A:663-671 -/
def readTerminated : Json → Option Terminated
  | .obj m => (readReq (readNat 4294967296) ["id"] m).bind fun i => (readReq readStr ["reason"] m).map fun r => ⟨i, r, norm (.obj (without ["id", "reason"] m))⟩
  | _ => none

/-- A:663-671 -/
def writeTerminated (t : Terminated) : Option Json := (flatMembers t.extra).map fun x => .obj ([("id", natJson t.id), ("reason", .str t.reason)] ++ x)

/-- A:697-706 and A:730-739, where the second field has another name -/
def readUpdate (name : String) : Json → Option Update
  | .obj m => (readReq (readNat 4294967296) ["id"] m).bind fun i => (readReq readAny [name] m).map fun c => ⟨i, c, norm (.obj (without ["id", name] m))⟩
  | _ => none

/-- A:697-706 and A:730-739 -/
def writeUpdate (name : String) (u : Update) : Option Json := (flatMembers u.extra).map fun x => .obj ([("id", natJson u.id), (name, u.contents)] ++ x)

/-- `NotificationVariant`, A:358-374 -/
inductive Variant where
  | started (s : Started)
  | modified (s : Started)
  | terminated (t : Terminated)
  | update (u : Update)
  | change (u : Update)

/-- their names, A:360-373 -/
def variantNames : List String := ["ietf-subscribed-notifications:subscription-started", "ietf-subscribed-notifications:subscription-modified", "ietf-subscribed-notifications:subscription-terminated", "ietf-yang-push:push-update",
  "ietf-yang-push:push-change-update"]

/-- `NotificationVariant::subscription_id`, A:377-387 -/
def Variant.id : Variant → Nat
  | .started s => s.id
  | .modified s => s.id
  | .terminated t => t.id
  | .update u => u.id
  | .change u => u.id

/-- `NotificationVariant::notification_type`, A:389-403, as the number of the variant -/
def Variant.kind : Variant → Nat
  | .started _ => 0
  | .modified _ => 1
  | .terminated _ => 2
  | .update _ => 3
  | .change _ => 4

/-- a member with the name of a variant, A:358-374 -/
def readVariant (d : Dates) (x : String × Json) : Option Variant :=
  if x.1 = "ietf-subscribed-notifications:subscription-started" then (readStarted d x.2).map .started
  else if x.1 = "ietf-subscribed-notifications:subscription-modified" then (readStarted d x.2).map .modified
  else if x.1 = "ietf-subscribed-notifications:subscription-terminated" then (readTerminated x.2).map .terminated
  else if x.1 = "ietf-yang-push:push-update" then (readUpdate "datastore-contents" x.2).map .update
  else if x.1 = "ietf-yang-push:push-change-update" then (readUpdate "datastore-changes" x.2).map .change
  else none

/-- A:358-374 -/
def writeVariant (d : Dates) : Variant → Option (String × Json)
  | .started s => (writeStarted d s).map fun j => ("ietf-subscribed-notifications:subscription-started", j)
  | .modified s => (writeStarted d s).map fun j => ("ietf-subscribed-notifications:subscription-modified", j)
  | .terminated t => (writeTerminated t).map fun j => ("ietf-subscribed-notifications:subscription-terminated", j)
  | .update u => (writeUpdate "datastore-contents" u).map fun j => ("ietf-yang-push:push-update", j)
  | .change u => (writeUpdate "datastore-changes" u).map fun j => ("ietf-yang-push:push-change-update", j)

/-- an enumeration on its own: an object with one member -/
def readTagged (p : String × Json → Option α) : Json → Option α
  | .obj [x] => p x
  | _ => none

/-- `NotificationEnvelope`, A:228-247 -/
structure Envelope where
  time : Nat
  hostname : Option String
  sequence : Option Nat
  contents : Option Variant
  extra : Json

/-- names of its fields with the alias, A:230-246 -/
def envelopeNames : List String := ["event-time", "hostname", "sequence-number", "contents", "notification-contents"]

/-- A:228-247 -/
def readEnvelope (d : Dates) : Json → Option Envelope
  | .obj m => (readReq d.read ["event-time"] m).bind fun t => (readOpt readStr ["hostname"] m).bind fun h => (readOpt (readNat 4294967296) ["sequence-number"] m).bind fun s =>
    (readOpt (readTagged (readVariant d)) ["contents", "notification-contents"] m).map fun c => ⟨t, h, s, c, norm (.obj (without envelopeNames m))⟩
  | _ => none

/-- the notification of a wrapper is written: nothing if there is none -/
def writeContents (d : Dates) : Option Variant → Option (Option (String × Json))
  | none => some none
  | some v => (writeVariant d v).map some

/-- A:228-247 -/
def writeEnvelope (d : Dates) (e : Envelope) : Option Json :=
  (writeContents d e.contents).bind fun c => (flatMembers e.extra).map fun x =>
    .obj ([("event-time", .str (d.text e.time))] ++ putOpt "hostname" .str e.hostname ++ putOpt "sequence-number" natJson e.sequence ++ putOpt "contents" (fun y => .obj [y]) c ++ x)

/-- `NotificationLegacy`, A:299-313 -/
structure Legacy where
  time : Nat
  sysName : Option String
  notification : Option Variant
  extra : Json

/-- names of its fields that are not flattened, A:300-306 -/
def legacyNames : List String := ["eventTime", "ietf-notification-sequencing:sysName"]

/-- the notification, and what is left, A:308-312 -/
def legacyRest (d : Dates) (m : Members) : Option Variant × Members := readFlat variantNames (readVariant d) (without legacyNames m)

/-- A:299-313 -/
def readLegacy (d : Dates) : Json → Option Legacy
  | .obj m => (readReq d.read ["eventTime"] m).bind fun t => (readOpt readStr ["ietf-notification-sequencing:sysName"] m).map fun h => ⟨t, h, (legacyRest d m).1, norm (.obj (legacyRest d m).2)⟩
  | _ => none

/-- A:299-313 -/
def writeLegacy (d : Dates) (e : Legacy) : Option Json :=
  (writeContents d e.notification).bind fun c => (flatMembers e.extra).map fun x =>
    .obj ([("eventTime", .str (d.text e.time))] ++ putOpt "ietf-notification-sequencing:sysName" .str e.sysName ++ c.toList ++ x)

/-- `UdpNotifPayload`, D:66-72 -/
inductive Payload where
  | envelope (e : Envelope)
  | legacy (l : Legacy)

/-- D:64-72 -/
def readPayload (d : Dates) : Json → Option Payload :=
  readTagged fun x =>
    if x.1 = "ietf-yp-notification:envelope" then (readEnvelope d x.2).map .envelope
    else if x.1 = "ietf-notification:notification" then (readLegacy d x.2).map .legacy
    else none

/-- D:64-72 -/
def writePayload (d : Dates) : Payload → Option Json
  | .envelope e => (writeEnvelope d e).map fun j => .obj [("ietf-yp-notification:envelope", j)]
  | .legacy l => (writeLegacy d l).map fun j => .obj [("ietf-notification:notification", j)]

/-- `notification_contents`, D:75-80 -/
def Payload.notification : Payload → Option Variant
  | .envelope e => e.contents
  | .legacy l => l.notification

/-- `MediaType`, as far as `try_from` tells them apart, D:186-197 -/
inductive Media where
  | json | cbor | other
  deriving DecidableEq, Repr

/-- what is wrong with a packet, D:148-152 -/
inductive DecodeErr where
  | media | decoder
  deriving DecidableEq, Repr

/-- `TryFrom<&UdpNotifPacket> for UdpNotifPacketDecoded`, D:182-207: the payload. The two readers of octets are parameters: JSON is read as it is, CBOR is read to a `Value` first. -/
def decodePayload (d : Dates) (json cbor : List UInt8 → Option Json) (m : Media) (b : List UInt8) : Except DecodeErr Payload :=
  match m with
  | .json => match (json b).bind (readPayload d) with | some p => .ok p | none => .error .decoder
  | .cbor => match (cbor b).bind fun j => readPayload d (norm j) with | some p => .ok p | none => .error .decoder
  | .other => .error .media

/-! ## Subscriptions of NETCONF -/

/-- `StreamFilterSpec` or `DatastoreFilterSpec`, F:298-301 and F:481-487, with the namespaces of prefixes, F:351-354, F:414-417, F:537-540 -/
inductive FilterSpec where
  | subtree (namespaces : List (String × String)) (s : String)
  | xpath (namespaces : List (String × String)) (p : String)
  deriving DecidableEq, Repr

/-- `StreamSelectionFilterObjects`, F:672-679, and `DatastoreSelectionFilterObjects`, S:909-916 -/
inductive Selection where
  | byReference (name : String)
  | within (f : FilterSpec)
  deriving DecidableEq, Repr

/-- `subscription::Target`, S:127-167; the datastore is what its `to_string` gives -/
inductive NcTarget where
  | stream (stream : String) (filter : Selection) (replayStart : Option Nat) (configuredReplay : Bool)
  | datastore (name : String) (selection : Selection)
  deriving DecidableEq, Repr

/-- `Subscription`, S:49-99; the state that is configured is a number -/
structure NcSubscription where
  id : Nat
  target : NcTarget
  stopTime : Option Nat
  dscp : Option Nat
  weighting : Option Nat
  dependency : Option Nat
  transport : Option Transport
  encoding : Option Encoding
  purpose : Option String
  state : Option Nat
  publishers : Option (List Nat)
  trigger : Option Trigger
  versions : Option (List Version)
  contentId : Option String

/-- `SubscriptionConvertError`, A:557-570 -/
inductive ConvertErr where
  | streamReference (s : String) | streamSubtree (s : String) | datastoreReference (s : String) | datastoreSubtree (s : String)
  deriving DecidableEq, Repr

/-- `TryFrom<subscription::Target> for Target`, A:572-636 -/
def targetOf : NcTarget → Except ConvertErr Target
  | .stream _ (.byReference n) _ _ => .error (.streamReference n)
  | .stream _ (.within (.subtree _ t)) _ _ => .error (.streamSubtree t)
  | .stream s (.within (.xpath _ p)) r _ => .ok ⟨some s, none, some p, r, none, none, none⟩
  | .datastore _ (.byReference n) => .error (.datastoreReference n)
  | .datastore _ (.within (.subtree _ t)) => .error (.datastoreSubtree t)
  | .datastore n (.within (.xpath _ p)) => .ok ⟨none, none, none, none, some n, none, some p⟩

/-- `TryFrom<Subscription> for SubscriptionStartedModified`, A:638-661 -/
def startedOf (s : NcSubscription) : Except ConvertErr Started :=
  match targetOf s.target with
  | .error e => .error e
  | .ok t => .ok ⟨s.id, t, s.stopTime, s.dscp, s.weighting, s.dependency, s.transport, s.encoding, s.purpose, s.publishers, s.trigger, s.versions, s.contentId, .obj []⟩

/-- `StreamTarget::xml_deserialize`, S:353, and `Subscription::xml_deserialize`, S:873-874: the filter if there is none -/
def streamFilter (f : Option Selection) : Selection := f.getD (.byReference "")

end Verif.Notif
