import Verif.UdpNotif.Json
/-!
# Records that JSON publishers make of messages

`L` stands for `crates/collector/src/lib.rs`. How `serde` writes messages, how payloads are read, and how addresses are written are parameters. Kinds of errors are left out.
-/
namespace Verif.JsonRecords
open Verif.Notif

/-- `MediaType`, `crates/udp-notif-pkt/src/raw.rs:56-73` -/
inductive Media where
  | reserved
  | json
  | xml
  | cbor
  | unknown (n : UInt8)
  | priv (n : UInt8)
  deriving DecidableEq, Repr

/-- a message, from which address it came, its media type and its payload; `doc` is what `serde_json::to_value` gives, if it does not fail -/
structure Msg where
  peer : String
  media : Media
  payload : List UInt8
  doc : Option Json

/-- how payloads are read: `serde_json::from_slice`, `str::from_utf8` and `ciborium::de::from_reader` -/
structure Readers where
  json : List UInt8 → Option Json
  utf8 : List UInt8 → Option String
  cbor : List UInt8 → Option Json

/-- the payload in the record, `L:899-920` -/
def payloadOf (r : Readers) (m : Msg) : Option Json :=
  match m.media with
  | .json => r.json m.payload
  | .xml => (r.utf8 m.payload).map .str
  | .cbor => r.cbor m.payload
  | _ => none

/-- a key and a value -/
abbrev Record := Json × Json

/-- `serialize_udp_notif`, `L:884-926` -/
def rawNotification (r : Readers) (m : Msg) (writer : String) : Option Record :=
  match m.doc with
  | none => none
  | some (.obj o) => (payloadOf r m).map fun p => (.str m.peer, .obj (insertM (insertM o "writer_id" (.str writer)) "payload" p))
  | some d => some (.str m.peer, d)

/-- `serialize_telemetry_json`, `serialize_flow_req`, `serialize_flow` and `serialize_bmp`, `L:928-994`: the writer is not looked at -/
def plain (m : Msg) (_writer : String) : Option Record := m.doc.map fun d => (.str m.peer, d)

end Verif.JsonRecords
