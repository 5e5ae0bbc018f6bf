import Verif.Core.Stream
import Verif.Bmp.Msg
/-!
# The BMP stream codec and what it learns about the monitored peers

`crates/bmp-pkt/src/codec.rs`. Tracing is left out.
-/
namespace Verif.Bmp
open Verif Bgp

/-! ## What a Peer Up says -/

/-- the ADD-PATH families of the capabilities of an OPEN, `codec.rs:70-80, 127` -/
def addPathsOf : List Cap → List AddPathFamily
  | [] => []
  | .addPath l :: cs => l ++ addPathsOf cs
  | _ :: cs => addPathsOf cs

/-- the label counts of the capabilities of an OPEN, `codec.rs:81-91, 140, 142` -/
def labelsOf : List Cap → List MultipleLabel
  | [] => []
  | .multipleLabels l :: cs => l ++ labelsOf cs
  | _ :: cs => labelsOf cs

/-- `add_path_flags`, `codec.rs:130-136`: send and receive of each family; the last of several entries counts -/
def apFlags (l : List AddPathFamily) : HMap AddressType (Bool × Bool) :=
  l.foldl (fun m f => m.insert f.family (f.send, f.receive)) .empty

/-- `common_multiple_labels_caps`, `codec.rs:139-146`, in some order -/
def commonLabels (sent received : List MultipleLabel) : List MultipleLabel :=
  sent.eraseDups.filter (· ∈ received)

/-- an order in which a `HashSet` may be iterated -/
structure Order where
  run : List MultipleLabel → List MultipleLabel
  perm : ∀ l, (run l).Perm l

/-- `codec.rs:177-189, 219-231`: families that both sides list -/
def AttrCtx.negotiate (c : AttrCtx) (out : Bool) (loc rem : HMap AddressType (Bool × Bool)) : AttrCtx :=
  { c with addPath := fun t =>
    match loc t, rem t with
    | some l, some r => some (if out then l.1 && r.2 else r.1 && l.2)
    | _, _ => c.addPath t }

/-- `add_path_mut().clear()` and `multiple_labels_mut().clear()`, `codec.rs:161-164` -/
def AttrCtx.clear (c : AttrCtx) : AttrCtx := { c with addPath := fun _ => none, labels := fun _ => none }

/-- a change of the capabilities in a context -/
def PeerCtx.mapAttr (f : AttrCtx → AttrCtx) (c : PeerCtx) : PeerCtx := { c with ctx := { c.ctx with attr := f c.ctx.attr } }

/-- the second key, `codec.rs:205-211` -/
def PeerHeader.otherKey (h : PeerHeader) (bgpId : UInt32) : PeerKey := { h.key with bgpId := bgpId }

/-- what is learned from the two OPENs, `codec.rs:177-199` and `219-241` -/
def learn (out : Bool) (loc rem : List Cap) (labels : List MultipleLabel) (c : AttrCtx) : AttrCtx :=
  AttrCtx.update (AttrCtx.negotiate c out (apFlags (addPathsOf loc)) (apFlags (addPathsOf rem))) out (.multipleLabels labels)

/-- `handle_peer_up`, `codec.rs:106-242`, once the OPENs are there; `labels` is the common set in its order -/
def Peers.up (g : Peers) (h : PeerHeader) (sent received : Open) (labels : List MultipleLabel) : Peers :=
  let f := learn h.type.adjRibOut sent.caps received.caps labels
  if h.type.kind = .locRib then g.insert h.key ((g.at h.key).mapAttr f)
  else
    let g : Peers := g.insert h.key ((g.at h.key).mapAttr fun c => f (AttrCtx.clear c))
    let k := h.otherKey received.bgpId
    g.insert k ((g.at k).mapAttr f)

/-- `handle_peer_up`, `codec.rs:106-242` -/
def Peers.peerUp (ord : Order) (g : Peers) (u : PeerUp) : Peers :=
  match u.sent, u.received with
  | .open s, .open r => g.up u.header s r (ord.run (commonLabels (labelsOf s.caps) (labelsOf r.caps)))
  | _, _ => g

section
variable {R D : Type}
/-- `BmpParsingContext::update`, `codec.rs:244-269`, which is the same for both versions -/
def Peers.update (ord : Order) (down : D → PeerHeader) (g : Peers) : Value R D → Peers
  | .peerDown d => g.erase (down d).key
  | .termination _ => .empty
  | .peerUp u => g.peerUp ord u
  | _ => g
end

/-- `BmpParsingContext::update`, `codec.rs:105-270` -/
def Peers.updateMsg (ord : Order) (g : Peers) : BmpMsg → Peers
  | .v3 v => g.update ord Down3.header v
  | .v4 v => g.update ord Down4.header v

/-! ## The codec -/

/-- `BmpCodec`, `codec.rs:58-64`; for the order of hash sets, `sets` counts the messages so far -/
structure Codec where
  inMessage : Bool
  peers : Peers
  sets : Nat

/-- `BmpCodec::default` -/
def Codec.new : Codec := ⟨false, .empty, 0⟩

/-- the length in the header at the start of the buffer, `codec.rs:303-307` -/
def declared (b : Bytes) : UInt32 := u32of ((b.drop 1).take 4)

/-- `codec.rs:326-345`, once the frame is complete -/
def Codec.frame (ord : Order) (s : Codec) (f : Bytes) : Res BmpErr BmpMsg × Codec :=
  match parseBmp (⟨f, 0⟩, s.peers) with
  | (.ok m, (_, g)) => (.ok m, ⟨false, g.updateMsg ord m, s.sets + 1⟩)
  | (.err e, (_, g)) => (.err e, ⟨false, g, s.sets⟩)
  | (.fault x, (_, g)) => (.fault x, ⟨false, g, s.sets⟩)

/-- `BmpCodec::decode`, `codec.rs:288-349`. Indexing outside of the buffer is a panic.
`ord n` is the order in which the hash set of the `n`-th message is iterated. -/
def Codec.decode (ord : Nat → Order) : Decode Codec BmpErr BmpMsg := fun s b =>
  if s.inMessage || decide (5 ≤ b.length) then
    match b.head? with
    | none => (.out (.fault .panic), s, b)
    | some v =>
      if (Version.ofCode v).isNone then (.out (.err (.version 0 v)), s, b.drop 1)
      else if b.length < 5 then (.out (.fault .panic), s, b)
      else
        let n := declared b
        if n.toNat < 5 then (.out (.err (.length 1 n)), { s with inMessage := false }, b.drop 5)
        else if b.length < n.toNat then (.wait, { s with inMessage := true }, b)
        else
          let x := s.frame (ord s.sets) (b.take n.toNat)
          (.out x.1, x.2, b.drop n.toNat)
  else (.wait, s, b)

/-- `BmpCodec::encode`, `codec.rs:273-282` -/
def Codec.encode (s : Codec) (m : BmpMsg) : Res WErr Bytes × Codec := (m.write, s)

end Verif.Bmp
