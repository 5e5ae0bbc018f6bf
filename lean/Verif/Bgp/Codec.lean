import Verif.Core.Logs
import Verif.Core.Stream
import Verif.Bgp.MsgFrame
import Verif.Bgp.MsgSafe
/-!
# The BGP stream codec

`crates/bgp-pkt/src/codec.rs`. Tracing is left out.
-/
namespace Verif.Bgp
open Verif CParser

/-- `BgpCodec`, codec.rs:35-40; the list of ignored errors is the mutable part of its `BgpParsingContext` -/
structure Codec where
  sent : Option Bool
  recv : Option Bool
  ctx : MsgCtx
  ignored : Ignored

/-- the `ctx` of `BgpCodec::new`, codec.rs:47-55 -/
def codecCtx : MsgCtx := ⟨⟨true, fun _ => none, fun _ => none⟩, false, false, false, false⟩
/-- `BgpParsingContext::default`, `D/mod.rs:206-210` -/
def defaultCtx : MsgCtx := ⟨⟨true, fun _ => none, fun _ => none⟩, true, true, true, true⟩
/-- `BgpCodec::new`, codec.rs:43-57 -/
def Codec.new (asn4 : Bool) : Codec := ⟨some asn4, some asn4, codecCtx, .none⟩
/-- `BgpCodec::new_from_ctx`, codec.rs:59-65, with a context that has recorded nothing -/
def Codec.newFromCtx (asn4 : Bool) (ctx : MsgCtx) : Codec := ⟨some asn4, some asn4, ctx, .none⟩
/-- `BgpCodec::default`, codec.rs:35, used by `BgpCodecInitializer::new`, codec.rs:68-72 -/
def Codec.default : Codec := ⟨none, none, defaultCtx, .none⟩

/-- `matches!(cap, BgpCapability::FourOctetAs(_))`, codec.rs:115 and 144 -/
def Cap.isAsn4 : Cap → Bool
  | .fourOctetAs _ => true
  | _ => false

/-- codec.rs:112-115 and 141-144 -/
def Open.hasAsn4 (m : Open) : Bool := m.caps.any Cap.isAsn4

/-- codec.rs:106 -/
def Codec.asn4 (s : Codec) : Bool := s.recv.getD false && s.sent.getD false

/-- `set_asn4`, `D/mod.rs:129-131` -/
def MsgCtx.setAsn4 (c : MsgCtx) (b : Bool) : MsgCtx := { c with attr := { c.attr with asn4 := b } }

/-- `u16::from_be_bytes([buf[16], buf[17]]) as usize`, codec.rs:98; there are at least 19 octets -/
def declared (b : Bytes) : Nat := (u16of ((b.drop 16).take 2)).toNat

/-- codec.rs:110-120: `asn4_received` after a message -/
def Codec.received (s : Codec) : Msg → Option Bool
  | .open m => some m.hasAsn4
  | _ => s.recv

/-- `BgpCodec::decode`, codec.rs:94-133 -/
def Codec.decode : Decode Codec MsgErr (Msg × Ignored) := fun s b =>
  if 19 ≤ b.length then
    let n := declared b
    if b.length < n then (.wait, s, b)
    else
      let ctx := s.ctx.setAsn4 s.asn4
      match parseMsg ctx (⟨b.take n, 0⟩, s.ignored) with
      | (.ok m, (_, g)) => (.out (.ok (m, g)), { s with recv := s.received m, ctx := ctx, ignored := .none }, b.drop n)
      | (.err e, (_, g)) => (.out (.err e), { s with ctx := ctx, ignored := g }, b.drop n)
      | (.fault x, (_, g)) => (.out (.fault x), { s with ctx := ctx, ignored := g }, b.drop n)
  else (.wait, s, b)

/-- `BgpCodec::encode`, codec.rs:136-150: the flag is set before the message is written, also when writing fails -/
def Codec.encode (s : Codec) (m : Msg) : Res MsgWriteErr Bytes × Codec :=
  (m.write, match m with | .open o => { s with sent := some o.hasAsn4 } | _ => s)

end Verif.Bgp
