import Verif.Bgp.CapsLemmas
/-!
# C13: BGP capabilities
-/
namespace Verif.Props
open Verif Verif.Bgp

/-- **C13.** A capability that fits its wire format is written as code, length octet and value, the length octet
is the number of value octets, `len()` is the number of octets written, and decoding what was written gives the
same capability back, leaving whatever follows. -/
theorem c13_roundtrip_partial (c : Cap) (h : c.Fits) :
    ∃ v : Bytes, v.length ≤ 255 ∧ c.write = .ok (c.code :: UInt8.ofNat v.length :: v) ∧
      c.len = 2 + v.length ∧
      ∀ rest o, parseCap ⟨c.code :: UInt8.ofNat v.length :: v ++ rest, o⟩ = (.ok c, ⟨rest, o + c.len⟩) := by
  obtain ⟨v, hv, hw, hr⟩ := cap_roundtrip c h
  have hl := cap_len c (by rintro l rfl; exact h) hw
  refine ⟨v, hv, hw, by simp at hl; omega, fun rest o => ?_⟩
  rw [hr.run, hl]

/-- a host name, a graceful restart with two families and an unknown code satisfy the hypothesis -/
example : (Cap.fqdn "router-é" "example.org").Fits ∧
    (Cap.gracefulRestart true false 120 [⟨true, .ipv4Unicast⟩, ⟨false, .ipv6Unicast⟩]).Fits ∧
    (Cap.unrecognized 3 [1, 2, 3]).Fits := by
  refine ⟨?_, ?_, ?_⟩
  · show 2 + (utf8 "router-é").length + (utf8 "example.org").length ≤ 255
    decide
  · exact ⟨by decide, by decide⟩
  · exact ⟨by decide, by decide, by decide⟩

/-- **C13 (the accepted values).** `Fits` leaves out only what the wire format cannot carry: every capability the
decoder returns, other than multiple labels, fits, hence re-encodes and decodes to itself. -/
theorem c13_decoded_fits_partial (r r' : Reader) (c : Cap) (h : parseCap r = (.ok c, r'))
    (hm : ∀ l, c ≠ .multipleLabels l) : c.Fits := by
  exact decoded_fits h hm

example : ∃ r r' c, parseCap r = (.ok c, r') ∧ ∀ l, c ≠ .multipleLabels l :=
  ⟨⟨[65, 4, 0, 1, 0, 0, 7], 0⟩, _, .fourOctetAs 65536, rfl, by simp⟩

/-- **C13 is false for the multiple-labels capability**: it is written without a length octet, so `len()` is one
more than the octets written, and decoding two capabilities from the concatenation of their encodings fails. -/
theorem c13_multipleLabels_disproved :
    ∃ (c : Cap) (w : Bytes), c.write = .ok w ∧ w.length ≠ c.len ∧
      ∃ (d : Cap) (wd : Bytes), d.write = .ok wd ∧ d.Fits ∧
        (parseCap ⟨w ++ wd, 0⟩).1.isErr = true := by
  refine ⟨.multipleLabels [⟨.ipv4NlriMplsLabels, 2⟩], _, rfl, by decide, .routeRefresh, _, rfl, trivial, ?_⟩
  decide

/-- **C13 is false for oversized values**: a value of 256 octets or more is written without an error, with a
length octet that is not the number of value octets. -/
theorem c13_oversize_disproved (v : Bytes) (hv : 255 < v.length) (code : UInt8) :
    ∃ w : Bytes, (Cap.unrecognized code v).write = .ok (code :: w ++ v) ∧
      ∃ n : UInt8, w = [n] ∧ n.toNat ≠ v.length := by
  refine ⟨[UInt8.ofNat v.length], rfl, _, rfl, ?_⟩
  rw [UInt8.toNat_ofNat']; omega

end Verif.Props
