import Verif.UdpNotif.Model
/-!
# UDP-notif: vocabulary of the property statements
-/
namespace Verif.UdpNotif
open Verif

/-- What a packet must satisfy to be representable on the wire. -/
structure Opt.WF (o : Opt) : Prop where
  number : ∀ n l, o = .segment n l → n.toNat < 2 ^ 15
  typ : ∀ t v, o = .unknown t v → t ≠ 1 ∧ t ≠ 2

structure MediaType.WF (m : MediaType) : Prop where
  unk : ∀ v, m = .unknown v → 4 ≤ v.toNat ∧ v.toNat < 16
  prv : ∀ v, m = .priv v → v.toNat < 16

structure Packet.WF (p : Packet) : Prop where
  media : p.mediaType.WF
  keyed : ∀ k o, p.options k = some o → o.code = k
  opts : ∀ k o, p.options k = some o → o.WF

/-- the packet last received under segment number `i` -/
def lastOf (arr : List (Nat × Packet)) (i : Nat) : Option Packet :=
  (arr.reverse.find? (fun x => x.1 = i)).map Prod.snd

/-- `p` is segment `i` of a message of `n + 1` segments with key `key` -/
structure IsSegment (key : Key) (n i : Nat) (p : Packet) : Prop where
  key : (p.publisherId, p.messageId) = key
  le : i ≤ n
  opt : p.options .segment = some (.segment (UInt16.ofNat i) (decide (i = n)))

/-- the segments of the message, in segment order -/
def segmentsOf (n : Nat) (arr : List (Nat × Packet)) : List Packet :=
  (List.range (n + 1)).filterMap (lastOf arr)

/-- the message a packet belongs to -/
def Packet.key (p : Packet) : Key := (p.publisherId, p.messageId)

/-- Hand a sequence of datagrams (with their arrival times) to the collector, each in its own buffer.
A panic ends the run. -/
def feed (c : Codec) : List (Nat × Bytes) → Res Empty (List (Option Packet)) × Codec
  | [] => (.ok [], c)
  | (now, d) :: rest =>
    match actorStep c now d with
    | (.ok o, c') =>
      match feed c' rest with
      | (.ok os, c'') => (.ok (o :: os), c'')
      | (.err e, c'') => (.err e, c'')
      | (.fault f, c'') => (.fault f, c'')
    | (.err e, c') => (.err e, c')
    | (.fault f, c') => (.fault f, c')

/-- packets of message `key` among what was delivered -/
def deliveriesOf (key : Key) (os : List (Option Packet)) : List Packet :=
  (os.filterMap id).filter (fun p => p.key = key)

/-- codec states reachable from a fresh one by datagrams and clean-ups of timed-out messages -/
inductive Reach : Codec → Prop where
  | new : Reach Codec.new
  | step {c : Codec} (now : Nat) (d : Bytes) : Reach c → Reach (decode c now d).2.1
  | cleanup {c : Codec} (now timeout : Nat) : Reach c → Reach (c.cleanup now timeout)

/-- An arriving datagram, seen from message `key`: one of its segments (encoded with some order of the
options), or anything else. -/
inductive Arrival where
  | seg (now i : Nat) (p : Packet) (order : List (OptCode × Opt)) (data : Bytes)
  | other (now : Nat) (data : Bytes)

def Arrival.datagram : Arrival → Nat × Bytes
  | .seg now _ _ _ d => (now, d)
  | .other now d => (now, d)

/-- the segments among the arrivals, in arrival order -/
def segsIn (as : List Arrival) : List (Nat × Packet) :=
  as.filterMap fun
    | .seg _ i p _ _ => some (i, p)
    | .other _ _ => none

end Verif.UdpNotif
