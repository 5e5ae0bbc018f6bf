import Verif.Pcap.Reader
import Verif.Core.Stream
import Verif.Collector.Types
import Verif.Bgp.Codec
import Verif.Bmp.Codec
import Verif.Flow.Codec
import Verif.UdpNotif.Model
/-!
# Decoding captures

`crates/pcap-decoder/src/lib.rs` (`L`), `handlers/mod.rs` (`M`) and the handlers of the protocols. The file that is written is the list of its lines, a
line is a value (`J`) and not its text; errors of opening and writing files are left out.
-/
namespace Verif.Pcap
open Verif Collector

variable {σ ε α : Type}

/-- how the decoding of a payload ends: `stuck` is a message that takes nothing off the buffer, with which the loop goes on with as much to do -/
inductive Stop where
  | done | panic | stuck
  deriving DecidableEq, Repr

/-- `decode_buffer`, `M:36-60`: the results that are pushed (messages and errors, in order), how it ends, the codec and the buffer. -/
def decodeBuffer (d : Decode σ ε α) (s : σ) (b : Bytes) : List (Res ε α) × Stop × σ × Bytes :=
  if b = [] then ([], .done, s, b)
  else match d s b with
    | (.wait, s', b') => ([], .done, s', b')
    | (.out (.ok x), s', b') =>
      if b'.length < b.length then
        let r := decodeBuffer d s' b'
        (.ok x :: r.1, r.2)
      else ([.ok x], .stuck, s', b')
    | (.out (.err e), s', _) => ([.err e], .done, s', [])
    | (.out (.fault _), s', b') => ([], .panic, s', b')
  termination_by b.length

/-- a handler: the protocol of the packets and the destination ports it decodes, a new codec, `decode` of the codec, and what becomes of a result as a
line (which may panic). `codec := c` is what `exporter_peers.entry(flow_key).or_insert` puts in. -/
structure Handler (σ ε α J : Type) where
  proto : Transport
  ports : List UInt16
  init : σ
  dec : Decode σ ε α
  line : Flow → Res ε α → Res Empty J

/-- `exporter_peers`: by flow, the codec and the buffer -/
abbrev Peers (σ : Type) := List (Flow × (σ × Bytes))

/-- the codec and the buffer of a flow, which are new when it has none -/
def Handler.entry {J : Type} (h : Handler σ ε α J) (t : Peers σ) (k : Flow) : σ × Bytes := (t.look k).getD (h.init, [])

/-- `ProtocolHandler::decode`: `bgp.rs:40-75`, `bmp.rs:37-59`, `flow.rs:37-59`, `udp_notif.rs:38-62`, which are the same but for the protocol and the
codec. `None` is an empty list. -/
def Handler.decode {J : Type} (h : Handler σ ε α J) (i : Item) (t : Peers σ) : List (Res ε α) × Stop × Peers σ :=
  if i.proto = h.proto ∧ i.flow.dport ∈ h.ports then
    let c := h.entry t i.flow
    let r := decodeBuffer h.dec c.1 (c.2 ++ i.payload)
    (r.1, r.2.1, put t i.flow r.2.2)
  else ([], .done, t)

/-- how a run ends: `finished` is `Ok(())` -/
inductive End where
  | finished | panicked | stuck
  deriving DecidableEq, Repr

/-- the lines written for the results of one packet, `L:109-121`, until one of them panics; with `show_frame_number` the number is part of the line -/
def writeLines {J : Type} (f : Res ε α → Res Empty J) (number : Option Nat) : List (Res ε α) → List (Option Nat × J) × Bool
  | [] => ([], true)
  | r :: rs =>
    match f r with
    | .ok j =>
      let w := writeLines f number rs
      ((number, j) :: w.1, w.2)
    | _ => ([], false)

/-- `Config`, `L:36-43`: what matters here -/
structure Config where
  inputSize : Option Nat
  showFrame : Bool
  deriving DecidableEq, Repr

/-- `if let Some(max) = config.input_size && frame_counter > max`, `L:100-104` -/
def Config.over (c : Config) (frame : Nat) : Bool :=
  match c.inputSize with
  | none => false
  | some m => decide (frame > m)

/-- the loop of `load_pcap_and_process`, `L:97-123`, and its end: what was written is also in the file after a panic, because the writer is flushed when
it is dropped. -/
def process {J : Type} (lib : Lib) (c : Config) (h : Handler σ ε α J) (it : Iter) (t : Peers σ) : List (Option Nat × J) × End :=
  match hn : it.next lib with
  | (.ok none, _) => ([], .finished)
  | (.ok (some i), it') =>
    if c.over it'.frames then ([], .finished)
    else
      match h.decode i t with
      | (rs, .done, t') =>
        match writeLines (h.line i.flow) (if c.showFrame then some it'.frames else none) rs with
        | (ls, true) =>
          let r := process lib c h it' t'
          (ls ++ r.1, r.2)
        | (ls, false) => (ls, .panicked)
      | (_, .panic, _) => ([], .panicked)
      | (_, .stuck, _) => ([], .stuck)
  | (_, _) => ([], .panicked)
  termination_by it.events.length
  decreasing_by exact nextFrom_lt hn

/-- `load_pcap_and_process`, `L:65-127` -/
def load {J : Type} (lib : Lib) (c : Config) (h : Handler σ ε α J) (es : List Event) : List (Option Nat × J) × End :=
  process lib c h (.new es) []

/-! ## The handlers -/

/-- a line of JSON for BGP: a message with its flow, the notice that errors were ignored, or an error -/
inductive BgpLine where
  | message (flow : Flow) (m : Bgp.Msg)
  | unexpected
  | error (e : Bgp.MsgErr)

/-- `BgpProtocolHandler::serialize`, `bgp.rs:77-94` -/
def bgpLine (k : Flow) : Res Bgp.MsgErr (Bgp.Msg × Bgp.Ignored) → Res Empty BgpLine
  | .ok (m, g) => if g = .none then .ok (.message k m) else .ok .unexpected
  | .err e => .ok (.error e)
  | .fault f => .fault f

/-- `BgpProtocolHandler`, `bgp.rs:27-95`; the context has four octets of AS numbers, no ADD-PATH, no labels, and fails on all errors -/
def bgpHandler (ports : List UInt16) : Handler Bgp.Codec Bgp.MsgErr (Bgp.Msg × Bgp.Ignored) BgpLine :=
  ⟨.tcp, ports, .newFromCtx true ⟨⟨true, fun _ => none, fun _ => none⟩, true, true, true, true⟩, Bgp.Codec.decode, bgpLine⟩

/-- a line of JSON for the other protocols: a message with its flow, or an error -/
inductive Line (ε α : Type) where
  | message (flow : Flow) (m : α)
  | error (e : ε)
  deriving DecidableEq, Repr

/-- `BmpProtocolHandler::serialize`, `bmp.rs:61-72`, `FlowProtocolHandler::serialize`, `flow.rs:61-72` -/
def plainLine (k : Flow) : Res ε α → Res Empty (Line ε α)
  | .ok m => .ok (.message k m)
  | .err e => .ok (.error e)
  | .fault f => .fault f

/-- `BmpProtocolHandler`, `bmp.rs:26-73` -/
def bmpHandler (ord : Nat → Bmp.Order) (ports : List UInt16) : Handler Bmp.Codec Bmp.BmpErr Bmp.BmpMsg (Line Bmp.BmpErr Bmp.BmpMsg) :=
  ⟨.tcp, ports, .new, Bmp.Codec.decode ord, plainLine⟩

/-- `FlowProtocolHandler`, `flow.rs:26-74` -/
def flowHandler (reg : Flow.Registry) (ports : List UInt16) : Handler Flow.FlowCodec Flow.FlowErr Flow.FlowInfo (Line Flow.FlowErr Flow.FlowInfo) :=
  ⟨.udp, ports, .new, Flow.FlowCodec.decode reg, plainLine⟩

/-- the `decode` of UDP-notif in the form of the other codecs. The second part of the state counts the calls; `clock n` is `Instant::now()` at the
`n`-th, which matters only for the clean-up that the handler never asks for. -/
def udpNotifDecode (clock : Nat → Nat) : Decode (UdpNotif.Codec × Nat) UdpNotif.CodecError UdpNotif.Packet := fun s b =>
  match UdpNotif.decode s.1 (clock s.2) b with
  | (.ok none, c, b') => (.wait, (c, s.2 + 1), b')
  | (.ok (some p), c, b') => (.out (.ok p), (c, s.2 + 1), b')
  | (.err e, c, b') => (.out (.err e), (c, s.2 + 1), b')
  | (.fault f, c, b') => (.out (.fault f), (c, s.2 + 1), b')

/-- the libraries for payloads: whether octets are JSON, UTF-8, CBOR; `J` is a JSON value -/
structure Payloads (J : Type) where
  json : Bytes → Option J
  utf8 : Bytes → Option J
  cbor : Bytes → Option J

/-- a line of JSON for UDP-notif: the packet with its flow, with the payload in its place when the media type is known, or an error -/
inductive NotifLine (J : Type) where
  | message (flow : Flow) (p : UdpNotif.Packet) (payload : Option J)
  | error (e : UdpNotif.CodecError)

/-- an option whose code has no name is in the packet -/
def hasUnknownOption (p : UdpNotif.Packet) : Bool :=
  (List.range 256).any fun v => (p.options (.unknown (UInt8.ofNat v))).isSome

/-- what takes the place of the payload, `udp_notif.rs:72-102`: `none` is the panic of an `expect`. The options are a map by their codes, and
`serde_json` refuses keys that are not strings or numbers, such as `Unknown(u8)`. -/
def readable {J : Type} (x : Payloads J) (p : UdpNotif.Packet) : Option (Option J) :=
  if hasUnknownOption p then none
  else match p.mediaType with
  | .yangDataJson => (x.json p.payload).map some
  | .yangDataXml => (x.utf8 p.payload).map some
  | .yangDataCbor => (x.cbor p.payload).map some
  | _ => some none

/-- `UdpNotifProtocolHandler::serialize`, `udp_notif.rs:64-107` -/
def notifLine {J : Type} (x : Payloads J) (k : Flow) : Res UdpNotif.CodecError UdpNotif.Packet → Res Empty (NotifLine J)
  | .ok p =>
    match readable x p with
    | some j => .ok (.message k p j)
    | none => .fault .panic
  | .err e => .ok (.error e)
  | .fault f => .fault f

/-- `UdpNotifProtocolHandler`, `udp_notif.rs:25-108` -/
def udpNotifHandler {J : Type} (clock : Nat → Nat) (x : Payloads J) (ports : List UInt16) :
    Handler (UdpNotif.Codec × Nat) UdpNotif.CodecError UdpNotif.Packet (NotifLine J) :=
  ⟨.udp, ports, (.new, 0), udpNotifDecode clock, notifLine x⟩

end Verif.Pcap
