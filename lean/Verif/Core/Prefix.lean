import Verif.Core.Reader
/-!
# IP prefixes and tagged IP addresses (`crates/parse-utils/src/common.rs`)
-/
namespace Verif

/-- `ipnet::Ipv4Net` (`w = 4`) / `ipnet::Ipv6Net` (`w = 16`): the octets of the address, host bits
included, and the prefix length. -/
structure Net where
  octets : Bytes
  plen : UInt8
  deriving DecidableEq, Repr

/-- What the Rust types guarantee of a value of type `Ipv4Net`/`Ipv6Net`. -/
structure Net.WF (w : Nat) (n : Net) : Prop where
  len : n.octets.length = w
  plen : n.plen.toNat ≤ 8 * w

/-- `Ipv4PrefixParsingError` / `Ipv6PrefixParsingError`, `crates/parse-utils/src/common.rs:26-33, 76-83` -/
inductive PrefixError where
  | parse (e : ParseError)
  | invalidPrefixLen (offset : Nat) (plen : UInt8)
  deriving DecidableEq, Repr

/-- `u8::div_ceil(8)` (`crates/bgp-pkt/src/wire/serializer/mod.rs:43-45` `round_len`). -/
def roundLen (n : UInt8) : Nat := (n.toNat + 7) / 8

/-- The local `prefix_size` of `crates/parse-utils/src/common.rs:46-50` and `:96-100`. -/
def prefixSize (plen : UInt8) : Nat := if plen.toNat ≥ 255 - 7 then 255 else roundLen plen

/-- `ParseFromWithTwoInputs for Ipv4Net`, `crates/parse-utils/src/common.rs:38-63` with `w = 4`, and for
`Ipv6Net`, `:88-114` with `w = 16`. `Ipv4Net::new` fails iff the prefix length exceeds the width. -/
def parseNetBody (w : Nat) (plen : UInt8) (off : Nat) : Parser PrefixError Net := do
  let p ← Parser.mapErr PrefixError.parse (readBytes (min (prefixSize plen) w))
  let octets := p ++ List.replicate (w - p.length) 0
  if plen.toNat ≤ 8 * w then pure ⟨octets, plen⟩
  else Parser.fail (.invalidPrefixLen off plen)

/-- `ParseFrom for Ipv4Net`, `crates/parse-utils/src/common.rs:69-73`; `Ipv6Net`, `:120-124` -/
def parseNet (w : Nat) : Parser PrefixError Net := do
  let off ← Parser.getOffset
  let plen ← Parser.mapErr PrefixError.parse readU8
  parseNetBody w plen off

/-- Clear the bits of a big-endian bit string from bit `n` on. -/
def maskOctets : Nat → Bytes → Bytes
  | _, [] => []
  | n, b :: bs =>
    UInt8.ofNat (b.toNat / 2 ^ (8 - n) * 2 ^ (8 - n)) :: maskOctets (n - 8) bs

/-- Set the bits of a big-endian bit string from bit `n` on. -/
def fillOctets : Nat → Bytes → Bytes
  | _, [] => []
  | n, b :: bs =>
    UInt8.ofNat (b.toNat / 2 ^ (8 - n) * 2 ^ (8 - n) + (2 ^ (8 - n) - 1)) :: fillOctets (n - 8) bs

/-- `ipnet::IpvNNet::network()`: host bits cleared. -/
def Net.network (n : Net) : Bytes := maskOctets n.plen.toNat n.octets
/-- `ipnet::IpvNNet::broadcast()`: host bits set. -/
def Net.broadcast (n : Net) : Bytes := fillOctets n.plen.toNat n.octets

/-- The common body of the prefix writers: `crates/bgp-pkt/src/wire/serializer/nlri/nlri.rs:171-176`
(`Ipv6Unicast`), `:221-226` (`Ipv6Multicast`), `:317-322` (`Ipv4Unicast`), `:367-372`
(`Ipv4Multicast`): length octet, then the first `round_len` octets of `network()`. -/
def writeNet (n : Net) : Bytes := n.plen :: n.network.take (roundLen n.plen)

/-- `len()` of the same types. -/
def lenNet (n : Net) : Nat := 1 + roundLen n.plen

/-- `std::net::IpAddr` -/
inductive IpAddr where
  | v4 (a : UInt32)
  | v6 (a : BitVec 128)
  deriving DecidableEq, Repr

/-- `IpAddrParsingError`, `crates/parse-utils/src/common.rs:127-134` -/
inductive IpAddrError where
  | parse (e : ParseError)
  | invalidLength (offset : Nat) (length : UInt8)
  deriving DecidableEq, Repr

/-- `ParseFrom for IpAddr`, `crates/parse-utils/src/common.rs:138-155` -/
def parseIpAddr : Parser IpAddrError IpAddr := do
  let off ← Parser.getOffset
  let l ← Parser.mapErr IpAddrError.parse readU8
  if l = 4 then
    let a ← Parser.mapErr IpAddrError.parse readU32
    pure (.v4 a)
  else if l = 16 then
    let a ← Parser.mapErr IpAddrError.parse readU128
    pure (.v6 a)
  else Parser.fail (.invalidLength off l)

/-- `WritablePdu for IpAddr::write`, `crates/bgp-pkt/src/wire/serializer/mod.rs:143-155` -/
def writeIpAddr : IpAddr → Bytes
  | .v4 a => 4 :: u32be a
  | .v6 a => 16 :: u128be a

/-- `WritablePdu for IpAddr::len`, `crates/bgp-pkt/src/wire/serializer/mod.rs:135-141` -/
def lenIpAddr : IpAddr → Nat
  | .v4 _ => 4
  | .v6 _ => 16

@[simp] theorem length_maskOctets (n : Nat) (l : Bytes) : (maskOctets n l).length = l.length := by
  induction l generalizing n with
  | nil => rfl
  | cons b bs ih => simp [maskOctets, ih]

@[simp] theorem length_fillOctets (n : Nat) (l : Bytes) : (fillOctets n l).length = l.length := by
  induction l generalizing n with
  | nil => rfl
  | cons b bs ih => simp [fillOctets, ih]

theorem maskOctets_drop (n k : Nat) (l : Bytes) :
    (maskOctets n l).drop k = maskOctets (n - 8 * k) (l.drop k) := by
  induction k generalizing n l with
  | zero => simp
  | succ k ih =>
    cases l with
    | nil => simp [maskOctets]
    | cons b bs => simp only [maskOctets, List.drop_succ_cons, ih]; congr 1; omega

theorem maskOctets_zero (l : Bytes) : maskOctets 0 l = List.replicate l.length 0 := by
  induction l with
  | nil => rfl
  | cons b bs ih =>
    simp only [maskOctets, List.length_cons, List.replicate_succ, Nat.sub_zero, Nat.zero_sub, ih]
    have : b.toNat / 2 ^ 8 = 0 := Nat.div_eq_of_lt b.toNat_lt
    rw [this]; rfl

/-- past the rounded length a masked address is zero -/
theorem network_split (w : Nat) (n : Net) (h : n.WF w) :
    n.network = n.network.take (roundLen n.plen) ++ List.replicate (w - roundLen n.plen) 0 := by
  refine (List.take_append_drop (roundLen n.plen) n.network).symm.trans ?_
  congr 1
  rw [Net.network, maskOctets_drop]
  have : n.plen.toNat - 8 * roundLen n.plen = 0 := by unfold roundLen; omega
  rw [this, maskOctets_zero, List.length_drop, h.len]

theorem roundLen_le (w : Nat) (p : UInt8) (h : p.toNat ≤ 8 * w) : roundLen p ≤ w := by
  unfold roundLen; omega

theorem prefixSize_eq (w : Nat) (p : UInt8) (hw : w ≤ 16) (h : p.toNat ≤ 8 * w) :
    min (prefixSize p) w = roundLen p := by
  have := roundLen_le w p h
  unfold prefixSize
  rw [if_neg (by omega)]; omega

theorem UInt8.mask_idem (b : UInt8) (k : Nat) :
    UInt8.ofNat ((UInt8.ofNat (b.toNat / 2 ^ k * 2 ^ k)).toNat / 2 ^ k * 2 ^ k) =
      UInt8.ofNat (b.toNat / 2 ^ k * 2 ^ k) := by
  have hb : b.toNat / 2 ^ k * 2 ^ k < 256 :=
    Nat.lt_of_le_of_lt (Nat.div_mul_le_self _ _) b.toNat_lt
  rw [UInt8.toNat_ofNat', Nat.mod_eq_of_lt hb, Nat.mul_div_cancel _ (Nat.pow_pos (by decide))]

theorem maskOctets_idem (n : Nat) (l : Bytes) : maskOctets n (maskOctets n l) = maskOctets n l := by
  induction l generalizing n with
  | nil => rfl
  | cons b bs ih => simp only [maskOctets, ih]; congr 1; exact UInt8.mask_idem _ _

end Verif
