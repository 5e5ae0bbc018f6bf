import Verif.Collector.YangLabels
import Verif.YangPush.Types
/-!
# The messages that YANG push notifications become

`E` stands for `crates/collector/src/yang_push/enrichment.rs` and `T` for `crates/yang-push/src/model/telemetry.rs`. Serializing a payload again is taken to succeed, and
messages are taken to be received by what is next.
-/
namespace Verif.Collector
open YangPush

/-- `FilterSpec`, `T:394-406` -/
structure FilterSpec (X : Type) where
  stream : Option String
  datastore : Option String
  xpath : Option String
  subtree : Option X
  deriving DecidableEq, Repr

/-- `YangPushSubscriptionMetadata`, `T:294-322` -/
structure SubMeta (X : Type) where
  id : Option UInt32
  filter : FilterSpec X
  stopTime : Option Int
  transport : Option Transport
  encoding : Option Encoding
  purpose : Option String
  trigger : Option UpdateTrigger
  modules : List ModuleVersion
  contentId : Option String
  deriving DecidableEq, Repr

/-- `TelemetryMessage`, `T:73-89`, with `TelemetryMessageMetadata`, `T:204-237`, and `NetworkOperatorMetadata`, `T:510-514`. `M` are manifests. What is always the same is left
out: the event is a log entry, the protocol is YANG push, and there is neither a manifest of the node, nor a sequence number, nor an address of the collector. -/
structure Telemetry (A X V M : Type) where
  nodeTime : Option Int
  collectionTime : Int
  exportAddress : A
  exportPort : Option UInt16
  subscription : Option (SubMeta X)
  collectorManifest : Option M
  labels : Option (List (Label V))
  payload : Option X

variable {A X V M : Type} [DecidableEq A]

/-- `FilterSpec::from`, `T:436-455` -/
def FilterSpec.ofTarget (t : Target X) : FilterSpec X where
  stream := t.stream
  datastore := t.datastore
  xpath := t.streamXpath <|> t.datastoreXpath
  subtree := t.streamSubtree <|> t.datastoreSubtree

/-- `YangPushSubscriptionMetadata::from`, `T:376-390` -/
def SubMeta.ofInfo (i : SubInfo A X) : SubMeta X where
  id := some i.id
  filter := .ofTarget i.target
  stopTime := i.stopTime
  transport := some .udpNotif
  encoding := some .json
  purpose := i.purpose
  trigger := i.trigger
  modules := i.models
  contentId := some i.contentId

/-- `process_decoded_udp_notif_packet`, `E:338-412`, for a notification with contents: `now` is the time, `labels` are those of the address of the peer -/
def telemetryOf (manifest : M) (now : Int) (labels : Option (List (Label V))) (info : SubInfo A X) (d : Decoded X) : Telemetry A X V M where
  nodeTime := some d.eventTime
  collectionTime := now
  exportAddress := info.peer.ip
  exportPort := some info.peer.port
  subscription := if !info.isEmpty then some (.ofInfo info) else none
  collectorManifest := some manifest
  labels
  payload := some d.json

/-- what arrives, in the order in which it is taken: operations and notifications, with the identifier of the schemas that they were validated with -/
inductive LabelEvent (A X V : Type) where
  | op (o : LabelOp A V)
  | notification (contentId : Option String) (info : SubInfo A X) (d : Decoded X)

/-- the loop of `run`, `E:416-505`, from a state -/
inductive Telemetries (manifest : M) : List (A × LabelMap V) → List (LabelEvent A X V) → List (Option String × SubInfo A X × Telemetry A X V M) → Prop where
  | nil {c} : Telemetries manifest c [] []
  | op {c o es outs} : Telemetries manifest (applyLabels c o) es outs → Telemetries manifest c (.op o :: es) outs
  | skip {c cid info d es outs} : d.contents = none → Telemetries manifest c es outs → Telemetries manifest c (.notification cid info d :: es) outs
  | send {c cid info d es outs labels} (now : Int) : d.contents ≠ none → LabelsOf c info.peer.ip labels → Telemetries manifest c es outs →
      Telemetries manifest c (.notification cid info d :: es) ((cid, info, telemetryOf manifest now labels info d) :: outs)

end Verif.Collector
