import Verif.Core.Prefix
/-!
# C03, C04 — IP prefixes and tagged addresses
-/
namespace Verif.Props
open Verif

/-- Number of octets a prefix of `p` bits occupies (specification; `⌈p/8⌉`). -/
def ceilOctets (p : Nat) : Nat := if p % 8 = 0 then p / 8 else p / 8 + 1

theorem roundLen_eq_ceil (p : UInt8) : roundLen p = ceilOctets p.toNat := by
  unfold roundLen ceilOctets; split <;> omega

/-- **C03 (exact acceptance).** Decoding an IPv4 (`w = 4`) or IPv6 (`w = 16`) prefix succeeds iff the
length octet is at most `8w` and the octets it announces are there; the result is those octets,
zero-filled, with that length, and exactly `1 + ⌈len/8⌉` octets are consumed. -/
theorem c03_accept (w : Nat) (hw : w = 4 ∨ w = 16) (r r' : Reader) (n : Net) :
    parseNet w r = (.ok n, r') ↔
      ∃ (plen : UInt8) (pre rest : Bytes), r.buf = plen :: (pre ++ rest) ∧ plen.toNat ≤ 8 * w ∧
        pre.length = ceilOctets plen.toNat ∧
        n = ⟨pre ++ List.replicate (w - pre.length) 0, plen⟩ ∧
        r' = ⟨rest, r.offset + 1 + ceilOctets plen.toNat⟩ := by
  have hw16 : w ≤ 16 := by omega
  rcases r with ⟨_ | ⟨plen, bs⟩, off⟩
  · simp [parseNet]
  · simp only [parseNet, parseNetBody, Parser.bind_run, Parser.getOffset_run, Parser.mapErr_run,
      readU8_cons, Res.mapErr_ok]
    by_cases hp : plen.toNat ≤ 8 * w
    · rw [prefixSize_eq w plen hw16 hp]
      by_cases hl : roundLen plen ≤ bs.length
      · simp only [readBytes, hl, ↓reduceIte, Res.mapErr_ok, hp, Parser.pure_run, List.length_take,
          Nat.min_eq_left hl]
        constructor
        · intro h
          simp only [Prod.mk.injEq, Res.ok.injEq] at h
          refine ⟨plen, bs.take (roundLen plen), bs.drop (roundLen plen), by simp, hp, ?_, ?_, ?_⟩
          · rw [← roundLen_eq_ceil]; simp [hl]
          · rw [← h.1]; simp [Nat.min_eq_left hl]
          · rw [← h.2, ← roundLen_eq_ceil]
        · rintro ⟨p, pre, rest, hb, hp', hpre, rfl, rfl⟩
          simp only [List.cons.injEq] at hb
          obtain ⟨rfl, rfl⟩ := hb
          rw [← roundLen_eq_ceil] at *
          simp only [← hpre, List.take_left', List.drop_left']
      · simp only [readBytes, hl, ↓reduceIte, Res.mapErr_err]
        constructor
        · intro h; simp at h
        · rintro ⟨p, pre, rest, hb, hp', hpre, -, -⟩
          simp only [List.cons.injEq] at hb
          obtain ⟨rfl, rfl⟩ := hb
          rw [← roundLen_eq_ceil] at hpre
          simp [hpre] at hl
    · constructor
      · intro h
        exfalso
        revert h
        unfold readBytes
        by_cases hl : min (prefixSize plen) w ≤ bs.length
        · simp [hl, hp]
        · simp [hl]
      · rintro ⟨p, pre, rest, hb, hp', -⟩
        simp only [List.cons.injEq] at hb
        obtain ⟨rfl, -⟩ := hb
        exact absurd hp' hp

/-- **C03 (rejection).** A length octet beyond the width is reported with its own offset and value as
soon as enough octets follow, and never panics. -/
theorem c03_reject (w : Nat) (hw : w = 4 ∨ w = 16) (plen : UInt8) (bs : Bytes) (o : Nat)
    (hp : 8 * w < plen.toNat) :
    (parseNet w ⟨plen :: bs, o⟩).1 =
      if w ≤ bs.length then .err (.invalidPrefixLen o plen)
      else .err (.parse (.eof (o + 1) w bs.length)) := by
  have hsz : min (prefixSize plen) w = w := by
    unfold prefixSize roundLen; split <;> omega
  have hp' : ¬ plen.toNat ≤ 8 * w := by omega
  simp only [parseNet, parseNetBody, Parser.bind_run, Parser.getOffset_run, Parser.mapErr_run,
    readU8_cons, Res.mapErr_ok, hsz, readBytes]
  by_cases hl : w ≤ bs.length <;> simp [hl, hp']

/-- **C03 (round-trip).** Writing any prefix and decoding it yields the prefix with its host bits
cleared, leaving the following bytes; `len()` is the number of octets written. -/
theorem c03_roundtrip (w : Nat) (hw : w = 4 ∨ w = 16) (n : Net) (h : n.WF w) (rest : Bytes) (o : Nat) :
    parseNet w ⟨writeNet n ++ rest, o⟩ = (.ok ⟨n.network, n.plen⟩, ⟨rest, o + lenNet n⟩) ∧
    (writeNet n).length = lenNet n := by
  have hrl := roundLen_le w n.plen h.plen
  have hlen : (n.network.take (roundLen n.plen)).length = roundLen n.plen := by
    simp [Net.network, h.len, hrl]
  refine ⟨?_, by simp [writeNet, lenNet, hlen]; omega⟩
  rw [c03_accept w hw]
  refine ⟨n.plen, n.network.take (roundLen n.plen), rest, rfl, h.plen, ?_, ?_, ?_⟩
  · rw [hlen, roundLen_eq_ceil]
  · rw [hlen]; exact congrArg (Net.mk · n.plen) (network_split w n h)
  · simp [lenNet, roundLen_eq_ceil, Nat.add_assoc]

/-- A prefix without host bits survives the round trip unchanged. -/
theorem c03_roundtrip_canonical (w : Nat) (hw : w = 4 ∨ w = 16) (n : Net) (h : n.WF w)
    (hc : n.network = n.octets) (rest : Bytes) (o : Nat) :
    parseNet w ⟨writeNet n ++ rest, o⟩ = (.ok n, ⟨rest, o + lenNet n⟩) := by
  rw [(c03_roundtrip w hw n h rest o).1, hc]

example : parseNet 4 ⟨[19, 10, 0, 32, 0xFF], 3⟩ = (.ok ⟨[10, 0, 32, 0], 19⟩, ⟨[0xFF], 7⟩) := by decide
example : Net.WF 4 ⟨[10, 0, 33, 7], 19⟩ := ⟨by decide, by decide⟩
example : writeNet ⟨[10, 0, 33, 7], 19⟩ = [19, 10, 0, 32] := by decide
example : (⟨[10, 0, 32, 0], 19⟩ : Net).network = [10, 0, 32, 0] := by decide

/-- **C04 (round-trip).** -/
theorem c04_roundtrip_partial (a : IpAddr) (rest : Bytes) (o : Nat) :
    parseIpAddr ⟨writeIpAddr a ++ rest, o⟩ = (.ok a, ⟨rest, o + (writeIpAddr a).length⟩) := by
  cases a <;> simp [writeIpAddr, parseIpAddr]

/-- **C04 (exact acceptance).** Exactly the tags 4 and 16 are accepted. -/
theorem c04_accept_partial (r : Reader) :
    (parseIpAddr r).1.isOk = true ↔
      ∃ bs, (r.buf = 4 :: bs ∧ 4 ≤ bs.length) ∨ (r.buf = 16 :: bs ∧ 16 ≤ bs.length) := by
  rcases r with ⟨_ | ⟨l, bs⟩, off⟩
  · simp [parseIpAddr]
  · by_cases h4 : l = 4
    · subst h4
      by_cases hl : 4 ≤ bs.length <;> simp [parseIpAddr, readU32, readArray, hl]
    · by_cases h16 : l = 16
      · subst h16
        by_cases hl : 16 ≤ bs.length <;> simp [parseIpAddr, readU128, readArray, hl]
      · simp [parseIpAddr, h4, h16]

/-- **C04 (size accounting) is false of the code**: `len()` omits the tag octet. -/
theorem c04_len_wrong (a : IpAddr) : lenIpAddr a + 1 = (writeIpAddr a).length := by
  cases a <;> simp [lenIpAddr, writeIpAddr]

theorem c04_len_disproved : ¬ ∀ a : IpAddr, lenIpAddr a = (writeIpAddr a).length := by
  intro h; have := h (.v4 0); revert this; decide

example : writeIpAddr (.v4 0x0A000001) = [4, 10, 0, 0, 1] := by decide

end Verif.Props
