import Verif.Core.RoundTrip
import Verif.Core.Safe
import Verif.Core.Inv
/-!
# Address families (`crates/iana/src/address_family.rs`)
-/
namespace Verif.Bgp
open Verif

/-- `AddressFamily::from_repr`: the codes the enum defines, `address_family.rs:48-166` (1–31 and
16384–16399, without gaps). An `AddressFamily` value is represented by its code. -/
def afiKnown (c : UInt16) : Bool :=
  (1 ≤ c.toNat && c.toNat ≤ 31) || (16384 ≤ c.toNat && c.toNat ≤ 16399)

/-- `AddressFamily` -/
abbrev Afi := { c : UInt16 // afiKnown c = true }

/-- `TryFrom<u16> for AddressFamily`, `address_family.rs:179-189` -/
def afiOf (c : UInt16) : Option Afi := if h : afiKnown c = true then some ⟨c, h⟩ else none

/-- the codes of `SubsequentAddressFamily`, `address_family.rs:196-318` -/
def safiCodes : List UInt8 :=
  [1, 2, 4, 5, 6, 8, 9, 64, 65, 66, 67, 68, 69, 70, 71, 72, 73, 74, 75, 76, 77, 78, 79, 128, 129, 132,
   133, 134, 140, 241, 242, 243, 244, 245, 246, 247, 248, 249, 250, 251, 252, 253, 254]

/-- `SubsequentAddressFamily` -/
abbrev Safi := { c : UInt8 // safiCodes.contains c = true }

/-- `TryFrom<u8> for SubsequentAddressFamily`, `address_family.rs:330-340` -/
def safiOf (c : UInt8) : Option Safi := if h : safiCodes.contains c = true then some ⟨c, h⟩ else none

/-- `AddressType`, `address_family.rs:349-371` -/
inductive AddressType where
  | ipv4Unicast | ipv4Multicast | ipv4MplsLabeledVpn | ipv4MulticastBgpMplsVpn | ipv4Bgp4over6
  | ipv4FlowSpec | ipv4FlowSpecL3Vpn | ipv4NlriMplsLabels
  | ipv6Unicast | ipv6Multicast | ipv6MplsLabeledVpn | ipv6MulticastBgpMplsVpn | ipv6Bgp6over4
  | ipv6FlowSpec | ipv6FlowSpecL3Vpn | ipv6NlriMplsLabels
  | l2VpnBgpEvpn | l2VpnVpls | bgpLs | bgpLsVpn | routeTargetConstrains
  deriving DecidableEq, Repr

namespace AddressType

/-- `address_family()`, `address_family.rs:402-430`, as its wire code -/
def afi : AddressType → UInt16
  | ipv4Unicast | ipv4Multicast | ipv4MplsLabeledVpn | ipv4MulticastBgpMplsVpn | ipv4Bgp4over6
  | ipv4FlowSpec | ipv4FlowSpecL3Vpn | ipv4NlriMplsLabels => 1
  | ipv6Unicast | ipv6Multicast | ipv6MplsLabeledVpn | ipv6MulticastBgpMplsVpn | ipv6Bgp6over4
  | ipv6FlowSpec | ipv6FlowSpecL3Vpn | ipv6NlriMplsLabels => 2
  | l2VpnBgpEvpn | l2VpnVpls => 25
  | bgpLs | bgpLsVpn => 16388
  | routeTargetConstrains => 1

/-- `subsequent_address_family()`, `address_family.rs:432-461`, as its wire code -/
def safi : AddressType → UInt8
  | ipv4Unicast => 1 | ipv4Multicast => 2 | ipv4MplsLabeledVpn => 128
  | ipv4MulticastBgpMplsVpn => 129 | ipv4Bgp4over6 => 67 | ipv4FlowSpec => 133
  | ipv4FlowSpecL3Vpn => 134 | ipv4NlriMplsLabels => 4
  | ipv6Unicast => 1 | ipv6Multicast => 2 | ipv6MplsLabeledVpn => 128
  | ipv6MulticastBgpMplsVpn => 129 | ipv6Bgp6over4 => 68 | ipv6FlowSpec => 133
  | ipv6FlowSpecL3Vpn => 134 | ipv6NlriMplsLabels => 4
  | l2VpnBgpEvpn => 70 | l2VpnVpls => 65 | bgpLs => 71 | bgpLsVpn => 72
  | routeTargetConstrains => 132

/-- the arms of the `match` in `from_afi_safi` -/
def table : List (UInt16 × UInt8 × AddressType) :=
  [(1, 1, ipv4Unicast), (1, 2, ipv4Multicast), (1, 128, ipv4MplsLabeledVpn),
   (1, 129, ipv4MulticastBgpMplsVpn), (1, 67, ipv4Bgp4over6), (1, 133, ipv4FlowSpec),
   (1, 134, ipv4FlowSpecL3Vpn), (1, 4, ipv4NlriMplsLabels),
   (2, 1, ipv6Unicast), (2, 2, ipv6Multicast), (2, 128, ipv6MplsLabeledVpn),
   (2, 129, ipv6MulticastBgpMplsVpn), (2, 68, ipv6Bgp6over4), (2, 133, ipv6FlowSpec),
   (2, 134, ipv6FlowSpecL3Vpn), (2, 4, ipv6NlriMplsLabels),
   (25, 70, l2VpnBgpEvpn), (25, 65, l2VpnVpls), (16388, 71, bgpLs), (16388, 72, bgpLsVpn),
   (1, 132, routeTargetConstrains)]

/-- `from_afi_safi`, `address_family.rs:463-513`: the first arm that matches -/
def ofAfiSafi (a : Afi) (s : Safi) : Option AddressType :=
  (table.find? fun e => e.1 == a.val && e.2.1 == s.val).map (·.2.2)

end AddressType

/-- The `UndefinedAddressFamily` / `UndefinedSubsequentAddressFamily` / `AddressTypeError` / `Parse` variants
that every deserializer reading an AFI/SAFI pair declares in its own error enum. -/
inductive FamErr where
  | parse (e : ParseError)
  | undefAfi (offset : Nat) (afi : UInt16)
  | undefSafi (offset : Nat) (safi : UInt8)
  | addressType (offset : Nat) (afi : UInt16) (safi : UInt8)
  deriving DecidableEq, Repr

/-- `AddressFamily::try_from(cur.read_u16_be()?).map_err(.. offset: cur.offset() - 2 ..)?` -/
def readAfi : Parser FamErr Afi := do
  let a ← Parser.mapErr .parse readU16
  let o ← Parser.getOffset
  Parser.ofOption (.undefAfi (o - 2) a) (afiOf a)

/-- `SubsequentAddressFamily::try_from(cur.read_u8()?).map_err(.. offset: cur.offset() - 1 ..)?` -/
def readSafi : Parser FamErr Safi := do
  let s ← Parser.mapErr .parse readU8
  let o ← Parser.getOffset
  Parser.ofOption (.undefSafi (o - 1) s) (safiOf s)

/-- AFI (2 octets) and SAFI (1 octet) in a row, then `AddressType::from_afi_safi`, as in
`crates/bgp-pkt/src/wire/deserializer/capabilities.rs:506-530` (LLGR), `:559-581` (graceful restart),
`:627-650` (ADD-PATH), `:760-781` (multiple labels; its offsets are those of the first octet, the same). -/
def readFamily : Parser FamErr AddressType := do
  let a ← readAfi
  let s ← readSafi
  let o ← Parser.getOffset
  Parser.ofOption (.addressType (o - 3) a.val s.val) (AddressType.ofAfiSafi a s)

theorem afiOf_val (a : Afi) : afiOf a.val = some a := by simp [afiOf, a.property]
theorem safiOf_val (s : Safi) : safiOf s.val = some s := by rw [safiOf, dif_pos s.property]
theorem afiOf_eq_some {c : UInt16} {a : Afi} : afiOf c = some a ↔ c = a.val := by
  constructor
  · intro h
    unfold afiOf at h
    split at h
    · simp only [Option.some.injEq] at h; rw [← h]
    · simp at h
  · rintro rfl; exact afiOf_val a
theorem safiOf_eq_some {c : UInt8} {a : Safi} : safiOf c = some a ↔ c = a.val := by
  constructor
  · intro h
    unfold safiOf at h
    split at h
    · simp only [Option.some.injEq] at h; rw [← h]
    · simp at h
  · rintro rfl; exact safiOf_val a

namespace AddressType
theorem afi_known (t : AddressType) : afiKnown t.afi = true := by cases t <;> decide
theorem safi_known (t : AddressType) : safiCodes.contains t.safi = true := by cases t <;> decide
/-- the `AddressFamily` of an address type -/
def afi' (t : AddressType) : Afi := ⟨t.afi, t.afi_known⟩
/-- the `SubsequentAddressFamily` of an address type -/
def safi' (t : AddressType) : Safi := ⟨t.safi, t.safi_known⟩
theorem ofAfiSafi_self (t : AddressType) : ofAfiSafi t.afi' t.safi' = some t := by cases t <;> decide
theorem ofAfiSafi_eq_some {a : Afi} {s : Safi} {t : AddressType} :
    ofAfiSafi a s = some t ↔ a.val = t.afi ∧ s.val = t.safi := by
  constructor
  · intro h
    unfold ofAfiSafi at h
    rw [Option.map_eq_some_iff] at h
    obtain ⟨e, he, rfl⟩ := h
    have hp := List.find?_some he
    have hm := List.mem_of_find?_eq_some he
    simp only [Bool.and_eq_true, beq_iff_eq] at hp
    have key : ∀ e ∈ table, e.1 = e.2.2.afi ∧ e.2.1 = e.2.2.safi := by decide
    rw [← hp.1, ← hp.2]; exact key e hm
  · rintro ⟨h1, h2⟩
    have : a = t.afi' := Subtype.ext h1
    have h' : s = t.safi' := Subtype.ext h2
    rw [this, h']; exact ofAfiSafi_self t
end AddressType

theorem reads_afi (a : Afi) : Reads readAfi a (u16be a.val) := by
  unfold readAfi
  refine (((reads_u16 a.val).mapErr _).bind (Reads.getOffset fun o => Reads.ofOption (afiOf_val a))).congr rfl ?_
  simp
theorem reads_safi (s : Safi) : Reads readSafi s [s.val] := by
  unfold readSafi
  exact ((reads_u8 s.val).mapErr _).bind (Reads.getOffset fun o => Reads.ofOption (safiOf_val s))
theorem reads_family (t : AddressType) : Reads readFamily t (u16be t.afi ++ [t.safi]) := by
  unfold readFamily
  exact (reads_afi t.afi').bind ((reads_safi t.safi').bind
    (Reads.getOffset fun o => Reads.ofOption t.ofAfiSafi_self))

theorem safe_readAfi : Parser.Safe 2 readAfi := by
  unfold readAfi
  refine Parser.safe_bind_l (Parser.safe_mapErr _ safe_readU16) fun _ => ?_
  psafe
theorem safe_readSafi : Parser.Safe 1 readSafi := by
  unfold readSafi
  refine Parser.safe_bind_l (Parser.safe_mapErr _ safe_readU8) fun _ => ?_
  psafe
theorem safe_readFamily : Parser.Safe 3 readFamily := by
  unfold readFamily
  refine Parser.safe_bind (k := 1) safe_readAfi fun _ => Parser.safe_bind_l safe_readSafi fun _ => ?_
  psafe

end Verif.Bgp
