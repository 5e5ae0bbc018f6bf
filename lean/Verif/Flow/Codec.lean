import Verif.Flow.Packet
import Verif.Core.Stream
/-!
# The codec of flow packets

`C` stands for `crates/flow-pkt/src/codec.rs`.
-/
namespace Verif.Flow

/-- `FlowInfo`, `crates/flow-pkt/src/lib.rs:59-62` -/
inductive FlowInfo where
  | ipfix (p : IpfixPacket)
  | netflow (p : NetflowPacket)
  deriving DecidableEq, Repr

/-- `FlowInfoCodec`, `C:68-73` -/
structure FlowCodec where
  netflow : Templates ScopeSpec
  ipfix : Templates Spec

/-- `FlowInfoCodec::new`, `C:76-81` -/
def FlowCodec.new : FlowCodec := ⟨HMap.empty, HMap.empty⟩

/-- `FlowInfoCodecDecoderError`, `C:37-57`; input/output errors do not occur in `decode` -/
inductive FlowErr where
  | ipfix (e : PacketErr)
  | netflow (e : PacketErr)
  | unsupportedVersion (v : UInt16)
  deriving DecidableEq, Repr

/-- `parse_ipfix`, `C:143-163`. The reader starts at offset 0, so that `cur.offset()` is the number of octets read. -/
def parseIpfix (reg : Registry) (length : Nat) (m : Templates Spec) (buf : Bytes) :
    Res FlowErr FlowInfo × Templates Spec × Bytes :=
  match IpfixPacket.parse reg (.new buf, m) with
  | (.ok p, (r, m')) => (.ok (.ipfix p), m', buf.drop r.offset)
  | (.err e, (_, m')) => (.err (.ipfix e), m', buf.drop (if length < 5 then 5 else length))
  | (.fault x, (_, m')) => (.fault x, m', buf)

/-- `parse_netflow_v9`, `C:166-187` -/
def parseNetflow (reg : Registry) (m : Templates ScopeSpec) (buf : Bytes) :
    Res FlowErr FlowInfo × Templates ScopeSpec × Bytes :=
  match NetflowPacket.parse reg (.new buf, m) with
  | (.ok p, (r, m')) => (.ok (.netflow p), m', buf.drop r.offset)
  | (.err e, (_, m')) => (.err (.netflow e), m', [])
  | (.fault x, (_, m')) => (.fault x, m', buf)

/-- `FlowInfoCodec::decode`, `C:194-219` -/
def FlowCodec.decode (reg : Registry) : Decode FlowCodec FlowErr FlowInfo := fun c buf =>
  if buf.length < 16 then (.wait, c, buf)
  else
    let version := u16of (buf.take 2)
    let length := (u16of ((buf.drop 2).take 2)).toNat
    if buf.length < length then (.wait, c, buf)
    else if version = 10 then
      let (x, m, b) := parseIpfix reg length c.ipfix buf
      (.out x, { c with ipfix := m }, b)
    else if version = 9 then
      let (x, m, b) := parseNetflow reg c.netflow buf
      (.out x, { c with netflow := m }, b)
    else (.out (.err (.unsupportedVersion version)), c, [])

/-- `Encoder<FlowInfo>::encode`, `C:104-140`: the octets appended to the buffer. The codec is not changed. -/
def FlowCodec.encode (c : FlowCodec) : FlowInfo → Res FieldWriteErr Bytes
  | .ipfix p => p.write c.ipfix
  | .netflow p => p.write c.netflow false

end Verif.Flow
