import Verif.Flow.FieldLemmas
import Verif.Props.ParseUtils
import Verif.Bgp.CapsLemmas
/-!
# What the values of flow records mean (C75)

`Means` is read off RFC 7011, section 6: integers and addresses are in network order, also when they are sent with fewer
octets than their type has, a boolean is 1 for true and 2 for false, times count seconds or milliseconds since 1970, and
those with a fraction are NTP timestamps, which count since 1900.
-/
namespace Verif.Props
open Verif Verif.Flow Verif.Parser

/-- the instant an NTP timestamp stands for, as the nearest nanoseconds: RFC 7011, section 6.1.9 and 6.1.10 -/
def ntpInstant (b : Bytes) (t : Time) : Prop :=
  t.secs = (beVal (b.take 4) : Int) - 2208988800 ∧
    (t.nanos = beVal (b.drop 4) * 1000000000 / 4294967296 ∨ t.nanos = beVal (b.drop 4) * 1000000000 / 4294967296 + 1)

/-- what the content `b` of a field of kind `k` stands for -/
def Means : Kind → Bytes → Value → Prop
  | .octetArray, b, .octetArray x => x = b
  | .mpls, b, .mpls x => b.length = 3 ∧ x.toNat = beVal b
  | .unsigned8, b, .unsigned8 x => b.length = 1 ∧ x.toNat = beVal b
  | .unsigned16, b, .unsigned16 x => x.toNat = beVal b
  | .tcpControlBits, b, .tcpControlBits x => x.toNat = beVal b
  | .unsigned32, b, .unsigned32 x => x.toNat = beVal b
  | .unsigned64, b, .unsigned64 x => x.toNat = beVal b
  | .unsigned256, b, .unsigned256 x => x.toNat = beVal b
  | .signed32, b, .signed32 x => x.toInt = signedVal b
  | .float64, b, .float64 x => b.length = 8 ∧ x.toNat = beVal b
  | .boolean, b, .boolean x => b = [if x then 1 else 2]
  | .macAddress, b, .macAddress x => b.length = 6 ∧ x.toNat = beVal b
  | .string, b, .string x => Bgp.utf8 x = b
  | .seconds, b, .seconds t => b.length = 4 ∧ t.secs = beVal b ∧ t.nanos = 0
  | .millis, b, .millis t => b.length = 8 ∧ t.secs * 1000 + (t.nanos / 1000000 : Nat) = beVal b ∧
      t.nanos < 1000000000 ∧ t.nanos % 1000000 = 0
  | .micros, b, .micros t => ntpInstant b t
  | .nanos, b, .nanos t => ntpInstant b t
  | .ipv4, b, .ipv4 x => b.length = 4 ∧ x.toNat = beVal b
  | .ipv6, b, .ipv6 x => b.length = 16 ∧ x.toNat = beVal b
  | .basicList, b, .basicList x => x = b
  | .subTemplateList, b, .subTemplateList x => x = b
  | .subTemplateMultiList, b, .subTemplateMultiList x => x = b
  | _, _, _ => False

/-- the contents for which the code keeps to it -/
def Plain : Kind → Bytes → Prop
  | .boolean, b => b = [1]
  | .tcpControlBits, b => beVal b < 256
  | .unsigned256, b => b.length = 32
  | .millis, b => beVal b < 2 ^ 63
  | .micros, _ => False
  | .nanos, _ => False
  | _, _ => True

/-- a string that is shorter than its fixed length is filled with zeros, and what follows the first zero is filling -/
def unpadded : Kind → Bytes → Bytes
  | .string, b => b.takeWhile (· ≠ 0)
  | _, b => b

/-- RFC 7011, section 7: how a content is sent when its length is variable -/
def varFrame (b : Bytes) : Bytes :=
  if b.length < 255 then UInt8.ofNat b.length :: b else 255 :: u16be (UInt16.ofNat b.length) ++ b

theorem exactly_ok {n : Nat} {length : UInt16} {r r' : Reader} (h : exactly n length r = (.ok (), r')) :
    length.toNat = n ∧ r' = r := by
  by_cases hc : length.toNat = n
  · rw [exactly, if_neg (by simpa using hc)] at h; exact ⟨hc, (pure_eq_ok.mp h).2.symm⟩
  · rw [exactly, if_pos (by simpa using hc)] at h
    obtain ⟨_, _, _, h2⟩ := bind_eq_ok.mp h
    exact (fail_eq_ok.mp h2).elim

theorem atMost_ok {n : Nat} {length : UInt16} {r r' : Reader} (h : atMost n length r = (.ok (), r')) :
    length.toNat ≤ n ∧ r' = r := by
  by_cases hc : n < length.toNat
  · rw [atMost, if_pos hc] at h
    obtain ⟨_, _, _, h2⟩ := bind_eq_ok.mp h
    exact (fail_eq_ok.mp h2).elim
  · rw [atMost, if_neg hc] at h; exact ⟨by omega, (pure_eq_ok.mp h).2.symm⟩

theorem readOctets_fixed {length : UInt16} {r r' : Reader} {x : Bytes} (hl : length ≠ 65535)
    (h : readOctets length r = (.ok x, r')) : readBytes length.toNat r = (.ok x, r') := by
  unfold readOctets at h
  rw [if_neg hl] at h
  exact h

theorem readShort_ok {length : UInt16} {b rest : Bytes} {o : Nat} {r' : Reader} {x : UInt16} (hb : b.length = length.toNat)
    (h : readShort length ⟨b ++ rest, o⟩ = (.ok x, r')) : r' = ⟨rest, o + length.toNat⟩ ∧ x.toNat = beVal b := by
  unfold readShort at h
  by_cases h1 : length = 1
  · subst h1
    rw [if_pos rfl] at h
    obtain ⟨y, r1, h2, h3⟩ := bind_eq_ok.mp h
    obtain ⟨rfl, rfl⟩ := pure_eq_ok.mp h3
    obtain ⟨h4, h5⟩ := readU8_eq_ok.mp (mapErr_eq_ok.mp h2)
    match b, hb with
    | [c], _ =>
      simp only [List.cons_append, List.nil_append, List.cons.injEq] at h4
      obtain ⟨rfl, h6⟩ := h4
      refine ⟨?_, ?_⟩
      · rw [h6]; exact congrArg (Reader.mk _) h5
      · simp [beVal]
  · rw [if_neg h1] at h
    by_cases h2 : length = 2
    · subst h2
      rw [if_pos rfl] at h
      obtain ⟨h4, h5⟩ := readU16_eq_ok.mp (mapErr_eq_ok.mp h)
      obtain ⟨rfl, h6⟩ := List.append_inj h4 (by rw [hb, length_u16be]; rfl)
      refine ⟨?_, ?_⟩
      · rw [h6]; exact congrArg (Reader.mk _) h5
      · rw [u16be, beVal_beBytes_of_lt (by have := x.toNat_lt; omega)]
    · rw [if_neg h2] at h
      obtain ⟨_, _, _, h3⟩ := bind_eq_ok.mp h
      exact (fail_eq_ok.mp h3).elim

theorem beBytes_split {b rest t : Bytes} {w n : Nat} (hw : n < 256 ^ w) (hb : b.length = w)
    (h : b ++ rest = beBytes w n ++ t) : t = rest ∧ n = beVal b := by
  obtain ⟨rfl, rfl⟩ := List.append_inj h (by rw [hb, length_beBytes])
  exact ⟨rfl, (beVal_beBytes_of_lt hw).symm⟩

theorem reader_eq {r : Reader} {b : Bytes} {o : Nat} (h1 : r.buf = b) (h2 : r.offset = o) : r = ⟨b, o⟩ := by
  obtain ⟨_, _⟩ := r; simp only at h1 h2; rw [h1, h2]

/-- C75: the value of a field of a fixed length is made of exactly the octets of this length, and it is what RFC 7011 says
they stand for. Left out are the contents which are not `Plain`: false booleans, TCP flags beyond the first eight, reduced
256-bit integers, milliseconds of 64 bits with the first one set, and micro- and nanoseconds. -/
theorem c75_fixed_partial {k : Kind} {length : UInt16} {b rest : Bytes} {o : Nat} {v : Value} {r' : Reader}
    (hl : length ≠ 65535) (hb : b.length = length.toNat) (h : Value.parse k length ⟨b ++ rest, o⟩ = (.ok v, r')) :
    r' = ⟨rest, o + length.toNat⟩ ∧ (Plain k b → Means k (unpadded k b) v) := by
  have bytes : ∀ {n : Nat} {x : Bytes} {r1 : Reader}, length.toNat = n → readArray n ⟨b ++ rest, o⟩ = (.ok x, r1) →
      r1 = ⟨rest, o + length.toNat⟩ ∧ x = b := by
    intro n x r1 hn hr
    obtain ⟨h1, h2, h3⟩ := readArray_eq_ok.mp hr
    obtain ⟨rfl, h4⟩ := List.append_inj h1 (by omega)
    exact ⟨reader_eq h4.symm (by rw [h3, hn]), rfl⟩
  have octs : ∀ {x : Bytes} {r1 : Reader}, readOctets length ⟨b ++ rest, o⟩ = (.ok x, r1) →
      r1 = ⟨rest, o + length.toNat⟩ ∧ x = b := fun hr => bytes rfl (readOctets_fixed hl hr)
  have u32 : ∀ {x : UInt32} {r1 : Reader}, length.toNat = 4 → readU32 ⟨b ++ rest, o⟩ = (.ok x, r1) →
      r1 = ⟨rest, o + length.toNat⟩ ∧ x.toNat = beVal b := by
    intro x r1 hn hr
    obtain ⟨h1, h2⟩ := readU32_eq_ok.mp hr
    obtain ⟨h3, h4⟩ := beBytes_split (w := 4) (by have := x.toNat_lt; omega) (by omega) h1
    exact ⟨reader_eq h3 (by rw [h2, hn]), h4⟩
  have u64 : ∀ {x : UInt64} {r1 : Reader}, length.toNat = 8 → readU64 ⟨b ++ rest, o⟩ = (.ok x, r1) →
      r1 = ⟨rest, o + length.toNat⟩ ∧ x.toNat = beVal b := by
    intro x r1 hn hr
    obtain ⟨h1, h2⟩ := readU64_eq_ok.mp hr
    obtain ⟨h3, h4⟩ := beBytes_split (w := 8) (by have := x.toNat_lt; omega) (by omega) h1
    exact ⟨reader_eq h3 (by rw [h2, hn]), h4⟩
  have u8 : ∀ {x : UInt8} {r1 : Reader}, length.toNat = 1 → readU8 ⟨b ++ rest, o⟩ = (.ok x, r1) →
      r1 = ⟨rest, o + length.toNat⟩ ∧ b = [x] := by
    intro x r1 hn hr
    obtain ⟨h1, h2⟩ := readU8_eq_ok.mp hr
    match b, hb with
    | [c], _ =>
      simp only [List.cons_append, List.nil_append, List.cons.injEq] at h1
      exact ⟨reader_eq h1.2.symm (by rw [h2, hn]), by rw [h1.1]⟩
    | [], hb => simp at hb; omega
    | _ :: _ :: _, hb => simp at hb; omega
  have frac : ∀ {t : Time} {r1 : Reader}, readFraction length ⟨b ++ rest, o⟩ = (.ok t, r1) →
      r1 = ⟨rest, o + length.toNat⟩ := by
    intro t r1 hr
    obtain ⟨_, _, h1, h⟩ := bind_eq_ok.mp hr
    obtain ⟨hn, rfl⟩ := exactly_ok h1
    obtain ⟨_, _, h1, h⟩ := bind_eq_ok.mp h
    obtain ⟨rfl, rfl⟩ := getOffset_eq_ok.mp h1
    obtain ⟨s, r2, h1, h⟩ := bind_eq_ok.mp h
    obtain ⟨f, r3, h2, h⟩ := bind_eq_ok.mp h
    obtain ⟨_, rfl⟩ := ofOption_eq_ok.mp h
    obtain ⟨h3, h4⟩ := readU32_eq_ok.mp (mapErr_eq_ok.mp h1)
    obtain ⟨h5, h6⟩ := readU32_eq_ok.mp (mapErr_eq_ok.mp h2)
    rw [h5, ← List.append_assoc] at h3
    obtain ⟨_, h7⟩ := List.append_inj h3 (by simp only [List.length_append, length_u32be]; omega)
    exact reader_eq h7.symm (by rw [h6, h4, hn])
  cases k <;> unfold Value.parse at h <;> simp only at h
  case octetArray =>
    obtain ⟨x, _, h1, h⟩ := bind_eq_ok.mp h
    obtain ⟨rfl, rfl⟩ := pure_eq_ok.mp h
    obtain ⟨rfl, rfl⟩ := octs (mapErr_eq_ok.mp h1)
    exact ⟨rfl, fun _ => rfl⟩
  case basicList =>
    obtain ⟨x, _, h1, h⟩ := bind_eq_ok.mp h
    obtain ⟨rfl, rfl⟩ := pure_eq_ok.mp h
    obtain ⟨rfl, rfl⟩ := octs (mapErr_eq_ok.mp h1)
    exact ⟨rfl, fun _ => rfl⟩
  case subTemplateList =>
    obtain ⟨x, _, h1, h⟩ := bind_eq_ok.mp h
    obtain ⟨rfl, rfl⟩ := pure_eq_ok.mp h
    obtain ⟨rfl, rfl⟩ := octs (mapErr_eq_ok.mp h1)
    exact ⟨rfl, fun _ => rfl⟩
  case subTemplateMultiList =>
    obtain ⟨x, _, h1, h⟩ := bind_eq_ok.mp h
    obtain ⟨rfl, rfl⟩ := pure_eq_ok.mp h
    obtain ⟨rfl, rfl⟩ := octs (mapErr_eq_ok.mp h1)
    exact ⟨rfl, fun _ => rfl⟩
  case mpls =>
    obtain ⟨_, _, h1, h⟩ := bind_eq_ok.mp h
    obtain ⟨hn, rfl⟩ := exactly_ok h1
    obtain ⟨x, _, h1, h⟩ := bind_eq_ok.mp h
    obtain ⟨rfl, rfl⟩ := pure_eq_ok.mp h
    obtain ⟨rfl, rfl⟩ := bytes hn (mapErr_eq_ok.mp h1)
    refine ⟨rfl, fun _ => ⟨hb.trans hn, ?_⟩⟩
    have := beVal_lt x
    rw [hb, hn] at this
    exact (BitVec.toNat_ofNat ..).trans (Nat.mod_eq_of_lt (by omega))
  case macAddress =>
    obtain ⟨_, _, h1, h⟩ := bind_eq_ok.mp h
    obtain ⟨hn, rfl⟩ := exactly_ok h1
    obtain ⟨x, _, h1, h⟩ := bind_eq_ok.mp h
    obtain ⟨rfl, rfl⟩ := pure_eq_ok.mp h
    obtain ⟨rfl, rfl⟩ := bytes hn (mapErr_eq_ok.mp h1)
    refine ⟨rfl, fun _ => ⟨hb.trans hn, ?_⟩⟩
    have := beVal_lt x
    rw [hb, hn] at this
    exact (BitVec.toNat_ofNat ..).trans (Nat.mod_eq_of_lt (by omega))
  case unsigned8 =>
    obtain ⟨_, _, h1, h⟩ := bind_eq_ok.mp h
    obtain ⟨hn, rfl⟩ := exactly_ok h1
    obtain ⟨x, _, h1, h⟩ := bind_eq_ok.mp h
    obtain ⟨rfl, rfl⟩ := pure_eq_ok.mp h
    obtain ⟨rfl, rfl⟩ := u8 hn (mapErr_eq_ok.mp h1)
    exact ⟨rfl, fun _ => ⟨rfl, by simp [unpadded, beVal]⟩⟩
  case boolean =>
    obtain ⟨_, _, h1, h⟩ := bind_eq_ok.mp h
    obtain ⟨hn, rfl⟩ := exactly_ok h1
    obtain ⟨x, _, h1, h⟩ := bind_eq_ok.mp h
    obtain ⟨rfl, rfl⟩ := pure_eq_ok.mp h
    obtain ⟨rfl, rfl⟩ := u8 hn (mapErr_eq_ok.mp h1)
    refine ⟨rfl, fun hp => ?_⟩
    obtain rfl : x = 1 := by simpa [Plain] using hp
    rfl
  case unsigned16 =>
    obtain ⟨x, _, h1, h⟩ := bind_eq_ok.mp h
    obtain ⟨rfl, rfl⟩ := pure_eq_ok.mp h
    obtain ⟨rfl, hx⟩ := readShort_ok hb h1
    exact ⟨rfl, fun _ => hx⟩
  case tcpControlBits =>
    obtain ⟨x, _, h1, h⟩ := bind_eq_ok.mp h
    obtain ⟨rfl, rfl⟩ := pure_eq_ok.mp h
    obtain ⟨rfl, hx⟩ := readShort_ok hb h1
    refine ⟨rfl, fun hp => ?_⟩
    show x.toUInt8.toNat = beVal b
    simp only [Plain] at hp
    rw [UInt16.toNat_toUInt8, hx]
    omega
  case unsigned32 =>
    obtain ⟨_, _, h1, h⟩ := bind_eq_ok.mp h
    obtain ⟨hn, rfl⟩ := atMost_ok h1
    obtain ⟨x, _, h1, h⟩ := bind_eq_ok.mp h
    obtain ⟨rfl, rfl⟩ := pure_eq_ok.mp h
    obtain ⟨y, hy, hv⟩ := c02_unsigned32 b rest o (by omega)
    rw [hb] at hy
    have h1 := mapErr_eq_ok.mp h1
    rw [hy] at h1
    cases h1
    exact ⟨rfl, fun _ => hv⟩
  case unsigned64 =>
    obtain ⟨_, _, h1, h⟩ := bind_eq_ok.mp h
    obtain ⟨hn, rfl⟩ := atMost_ok h1
    obtain ⟨x, _, h1, h⟩ := bind_eq_ok.mp h
    obtain ⟨rfl, rfl⟩ := pure_eq_ok.mp h
    obtain ⟨y, hy, hv⟩ := c02_unsigned64 b rest o (by omega)
    rw [hb] at hy
    have h1 := mapErr_eq_ok.mp h1
    rw [hy] at h1
    cases h1
    exact ⟨rfl, fun _ => hv⟩
  case signed32 =>
    obtain ⟨_, _, h1, h⟩ := bind_eq_ok.mp h
    obtain ⟨hn, rfl⟩ := atMost_ok h1
    obtain ⟨x, _, h1, h⟩ := bind_eq_ok.mp h
    obtain ⟨rfl, rfl⟩ := pure_eq_ok.mp h
    have h1 := mapErr_eq_ok.mp h1
    by_cases h4 : 4 < length.toNat
    · rw [((c02_reject _ _).1 h4).2] at h1
      cases h1
    · obtain ⟨y, hy, hv⟩ := c02_signed32 b rest o (by omega)
      rw [hb] at hy
      rw [hy] at h1
      cases h1
      exact ⟨rfl, fun _ => hv⟩
  case unsigned256 =>
    obtain ⟨_, _, h1, h⟩ := bind_eq_ok.mp h
    obtain ⟨hn, rfl⟩ := atMost_ok h1
    obtain ⟨x, r2, h1, h⟩ := bind_eq_ok.mp h
    obtain ⟨rfl, rfl⟩ := pure_eq_ok.mp h
    have h1 := mapErr_eq_ok.mp h1
    unfold readPadded at h1
    rw [if_neg (by omega)] at h1
    obtain ⟨y, r3, h2, h3⟩ := bind_eq_ok.mp h1
    obtain ⟨rfl, rfl⟩ := pure_eq_ok.mp h3
    obtain ⟨rfl, rfl⟩ := bytes rfl h2
    refine ⟨rfl, fun hp => ?_⟩
    have hp : y.length = 32 := hp
    have hz : 32 - length.toNat = 0 := by omega
    have := beVal_lt y
    rw [hp] at this
    show (BitVec.ofNat 256 (beVal (y ++ List.replicate (32 - length.toNat) 0))).toNat = beVal y
    rw [hz, List.replicate_zero, List.append_nil, BitVec.toNat_ofNat, Nat.mod_eq_of_lt (by omega)]
  case float64 =>
    obtain ⟨_, _, h1, h⟩ := bind_eq_ok.mp h
    obtain ⟨hn, rfl⟩ := exactly_ok h1
    obtain ⟨x, _, h1, h⟩ := bind_eq_ok.mp h
    obtain ⟨rfl, rfl⟩ := pure_eq_ok.mp h
    obtain ⟨rfl, hx⟩ := u64 hn (mapErr_eq_ok.mp h1)
    exact ⟨rfl, fun _ => ⟨hb.trans hn, hx⟩⟩
  case ipv4 =>
    obtain ⟨_, _, h1, h⟩ := bind_eq_ok.mp h
    obtain ⟨hn, rfl⟩ := exactly_ok h1
    obtain ⟨x, _, h1, h⟩ := bind_eq_ok.mp h
    obtain ⟨rfl, rfl⟩ := pure_eq_ok.mp h
    obtain ⟨rfl, hx⟩ := u32 hn (mapErr_eq_ok.mp h1)
    exact ⟨rfl, fun _ => ⟨hb.trans hn, hx⟩⟩
  case ipv6 =>
    obtain ⟨_, _, h1, h⟩ := bind_eq_ok.mp h
    obtain ⟨hn, rfl⟩ := exactly_ok h1
    obtain ⟨x, r2, h1, h⟩ := bind_eq_ok.mp h
    obtain ⟨rfl, rfl⟩ := pure_eq_ok.mp h
    obtain ⟨h2, h3⟩ := readU128_eq_ok.mp (mapErr_eq_ok.mp h1)
    obtain ⟨h4, h5⟩ := beBytes_split (w := 16) (by have := x.isLt; omega) (by omega) h2
    exact ⟨reader_eq h4 (by rw [h3, hn]), fun _ => ⟨hb.trans hn, h5⟩⟩
  case string =>
    obtain ⟨x, _, h1, h⟩ := bind_eq_ok.mp h
    obtain ⟨rfl, rfl⟩ := pure_eq_ok.mp h
    unfold readString at h1
    rw [if_neg hl] at h1
    obtain ⟨_, _, h2, h1⟩ := bind_eq_ok.mp h1
    obtain ⟨rfl, rfl⟩ := getOffset_eq_ok.mp h2
    obtain ⟨y, _, h2, h1⟩ := bind_eq_ok.mp h1
    obtain ⟨h3, rfl⟩ := ofOption_eq_ok.mp h1
    obtain ⟨rfl, rfl⟩ := bytes rfl (mapErr_eq_ok.mp h2)
    exact ⟨rfl, fun _ => Bgp.utf8_of_ofUtf8 h3⟩
  case seconds =>
    obtain ⟨_, _, h1, h⟩ := bind_eq_ok.mp h
    obtain ⟨hn, rfl⟩ := exactly_ok h1
    obtain ⟨_, _, h2, h⟩ := bind_eq_ok.mp h
    obtain ⟨rfl, rfl⟩ := getOffset_eq_ok.mp h2
    obtain ⟨x, _, h1, h⟩ := bind_eq_ok.mp h
    obtain ⟨t, _, h2, h⟩ := bind_eq_ok.mp h
    obtain ⟨h3, rfl⟩ := ofOption_eq_ok.mp h2
    obtain ⟨rfl, rfl⟩ := pure_eq_ok.mp h
    obtain ⟨rfl, hx⟩ := u32 hn (mapErr_eq_ok.mp h1)
    unfold Time.make at h3
    split at h3 <;> cases h3
    exact ⟨rfl, fun _ => ⟨hb.trans hn, congrArg Int.ofNat hx, rfl⟩⟩
  case millis =>
    obtain ⟨_, _, h1, h⟩ := bind_eq_ok.mp h
    obtain ⟨hn, rfl⟩ := exactly_ok h1
    obtain ⟨_, _, h2, h⟩ := bind_eq_ok.mp h
    obtain ⟨rfl, rfl⟩ := getOffset_eq_ok.mp h2
    obtain ⟨x, _, h1, h⟩ := bind_eq_ok.mp h
    obtain ⟨t, _, h2, h⟩ := bind_eq_ok.mp h
    obtain ⟨h3, rfl⟩ := ofOption_eq_ok.mp h2
    obtain ⟨rfl, rfl⟩ := pure_eq_ok.mp h
    obtain ⟨rfl, hx⟩ := u64 hn (mapErr_eq_ok.mp h1)
    refine ⟨rfl, fun hp => ⟨hb.trans hn, ?_⟩⟩
    simp only [Plain] at hp
    have hi : x.toBitVec.toInt = (beVal b : Int) := by
      rw [← hx]
      exact BitVec.toInt_eq_toNat_of_lt (by have : x.toBitVec.toNat = x.toNat := rfl; omega)
    rw [hi] at h3
    unfold Time.make at h3
    split at h3 <;> cases h3
    simp only [unpadded]
    omega
  case micros =>
    obtain ⟨x, _, h1, h⟩ := bind_eq_ok.mp h
    obtain ⟨rfl, rfl⟩ := pure_eq_ok.mp h
    exact ⟨frac h1, fun hp => hp.elim⟩
  case nanos =>
    obtain ⟨x, _, h1, h⟩ := bind_eq_ok.mp h
    obtain ⟨rfl, rfl⟩ := pure_eq_ok.mp h
    exact ⟨frac h1, fun hp => hp.elim⟩

/-- C75: a value of a fixed length is accepted whatever its octets are, for the types for which all octets make sense -/
theorem c75_accepts {k : Kind} {length : UInt16} {b : Bytes} (rest : Bytes) (o : Nat) (hl : length ≠ 65535)
    (hb : b.length = length.toNat) (hr : inRange k.lengthRange length = true) (hm : k = .mpls → length = 3)
    (hk : k ≠ .string ∧ k ≠ .millis ∧ k ≠ .micros ∧ k ≠ .nanos) :
    ∃ v, Value.parse k length ⟨b ++ rest, o⟩ = (.ok v, ⟨rest, o + length.toNat⟩) := by
  have bytes : ∀ n, length.toNat = n → readArray n ⟨b ++ rest, o⟩ = (.ok b, ⟨rest, o + length.toNat⟩) := fun n hn =>
    readArray_eq_ok.mpr ⟨rfl, by omega, by simp only; omega⟩
  have octs : readOctets length ⟨b ++ rest, o⟩ = (.ok b, ⟨rest, o + length.toNat⟩) := by
    unfold readOctets; rw [if_neg hl]; exact bytes _ rfl
  have exa : ∀ n, length.toNat = n → exactly n length ⟨b ++ rest, o⟩ = (.ok (), ⟨b ++ rest, o⟩) := fun n hn => by
    unfold exactly; rw [if_neg (by omega)]; rfl
  have mos : ∀ n, length.toNat ≤ n → atMost n length ⟨b ++ rest, o⟩ = (.ok (), ⟨b ++ rest, o⟩) := fun n hn => by
    unfold atMost; rw [if_neg (by omega)]; rfl
  have u8 : length.toNat = 1 → ∃ x, readU8 ⟨b ++ rest, o⟩ = (.ok x, ⟨rest, o + length.toNat⟩) := fun hn => by
    match b, hb with
    | [c], _ => exact ⟨c, by simp only [List.cons_append, List.nil_append, readU8_cons]; rw [hn]⟩
    | [], hb => simp at hb; omega
    | _ :: _ :: _, hb => simp at hb; omega
  have short : ∃ x, length.toNat = 1 ∨ length.toNat = 2 → readShort length ⟨b ++ rest, o⟩ = (.ok x, ⟨rest, o + length.toNat⟩) := by
    by_cases h1 : length = 1
    · obtain ⟨x, hx⟩ := u8 (by rw [h1]; rfl)
      refine ⟨x.toUInt16, fun _ => ?_⟩
      unfold readShort
      rw [if_pos h1]
      exact bind_eq_ok.mpr ⟨_, _, mapErr_ok hx _, rfl⟩
    · by_cases h2 : length = 2
      · refine ⟨u16of b, fun _ => ?_⟩
        unfold readShort
        rw [if_neg h1, if_pos h2]
        exact mapErr_ok (map_eq_ok.mpr ⟨b, bytes 2 (by rw [h2]; rfl), rfl⟩) _
      · exact ⟨0, fun h => by
          rcases h with h | h
          · exact (h1 (UInt16.toNat.inj h)).elim
          · exact (h2 (UInt16.toNat.inj h)).elim⟩
  have u32 : length.toNat = 4 → ∃ x, readU32 ⟨b ++ rest, o⟩ = (.ok x, ⟨rest, o + length.toNat⟩) := fun hn =>
    ⟨u32of b, map_eq_ok.mpr ⟨b, bytes 4 hn, rfl⟩⟩
  cases k <;> simp only [inRange, Kind.lengthRange, Bool.and_eq_true, decide_eq_true_eq] at hr <;> unfold Value.parse <;> simp only
  case octetArray => exact ⟨_, bind_eq_ok.mpr ⟨_, _, mapErr_ok octs _, rfl⟩⟩
  case basicList => exact ⟨_, bind_eq_ok.mpr ⟨_, _, mapErr_ok octs _, rfl⟩⟩
  case subTemplateList => exact ⟨_, bind_eq_ok.mpr ⟨_, _, mapErr_ok octs _, rfl⟩⟩
  case subTemplateMultiList => exact ⟨_, bind_eq_ok.mpr ⟨_, _, mapErr_ok octs _, rfl⟩⟩
  case mpls =>
    have hn : length.toNat = 3 := by rw [hm rfl]; rfl
    exact ⟨_, bind_eq_ok.mpr ⟨_, _, exa 3 hn, bind_eq_ok.mpr ⟨_, _, mapErr_ok (bytes 3 hn) _, rfl⟩⟩⟩
  case macAddress =>
    exact ⟨_, bind_eq_ok.mpr ⟨_, _, exa 6 (by omega), bind_eq_ok.mpr ⟨_, _, mapErr_ok (bytes 6 (by omega)) _, rfl⟩⟩⟩
  case unsigned8 =>
    obtain ⟨x, hx⟩ := u8 (by omega)
    exact ⟨_, bind_eq_ok.mpr ⟨_, _, exa 1 (by omega), bind_eq_ok.mpr ⟨_, _, mapErr_ok hx _, rfl⟩⟩⟩
  case boolean =>
    obtain ⟨x, hx⟩ := u8 (by omega)
    exact ⟨_, bind_eq_ok.mpr ⟨_, _, exa 1 (by omega), bind_eq_ok.mpr ⟨_, _, mapErr_ok hx _, rfl⟩⟩⟩
  case unsigned16 =>
    obtain ⟨x, hx⟩ := short
    exact ⟨_, bind_eq_ok.mpr ⟨_, _, hx (by omega), rfl⟩⟩
  case tcpControlBits =>
    obtain ⟨x, hx⟩ := short
    exact ⟨_, bind_eq_ok.mpr ⟨_, _, hx (by omega), rfl⟩⟩
  case unsigned32 =>
    obtain ⟨x, hx, _⟩ := c02_unsigned32 b rest o (by omega)
    rw [hb] at hx
    exact ⟨_, bind_eq_ok.mpr ⟨_, _, mos 4 (by omega), bind_eq_ok.mpr ⟨_, _, mapErr_ok hx _, rfl⟩⟩⟩
  case unsigned64 =>
    obtain ⟨x, hx, _⟩ := c02_unsigned64 b rest o (by omega)
    rw [hb] at hx
    exact ⟨_, bind_eq_ok.mpr ⟨_, _, mos 8 (by omega), bind_eq_ok.mpr ⟨_, _, mapErr_ok hx _, rfl⟩⟩⟩
  case signed32 =>
    obtain ⟨x, hx, _⟩ := c02_signed32 b rest o (by omega)
    rw [hb] at hx
    exact ⟨_, bind_eq_ok.mpr ⟨_, _, mos 8 (by omega), bind_eq_ok.mpr ⟨_, _, mapErr_ok hx _, rfl⟩⟩⟩
  case unsigned256 =>
    have hx : readPadded 32 length.toNat ⟨b ++ rest, o⟩ = (.ok (b ++ List.replicate (32 - length.toNat) 0), ⟨rest, o + length.toNat⟩) := by
      unfold readPadded
      rw [if_neg (by omega)]
      exact bind_eq_ok.mpr ⟨_, _, bytes _ rfl, rfl⟩
    exact ⟨_, bind_eq_ok.mpr ⟨_, _, mos 32 (by omega), bind_eq_ok.mpr ⟨_, _, mapErr_ok hx _, rfl⟩⟩⟩
  case float64 =>
    exact ⟨_, bind_eq_ok.mpr ⟨_, _, exa 8 (by omega), bind_eq_ok.mpr ⟨_, _,
      mapErr_ok (map_eq_ok.mpr ⟨b, bytes 8 (by omega), rfl⟩) _, rfl⟩⟩⟩
  case ipv4 =>
    obtain ⟨x, hx⟩ := u32 (by omega)
    exact ⟨_, bind_eq_ok.mpr ⟨_, _, exa 4 (by omega), bind_eq_ok.mpr ⟨_, _, mapErr_ok hx _, rfl⟩⟩⟩
  case ipv6 =>
    exact ⟨_, bind_eq_ok.mpr ⟨_, _, exa 16 (by omega), bind_eq_ok.mpr ⟨_, _,
      mapErr_ok (map_eq_ok.mpr ⟨b, bytes 16 (by omega), rfl⟩) _, rfl⟩⟩⟩
  case seconds =>
    obtain ⟨x, hx⟩ := u32 (by omega)
    have ht : Time.make x.toNat 0 = some ⟨x.toNat, 0⟩ := by
      have := x.toNat_lt
      unfold Time.make
      rw [if_pos (by omega)]
    exact ⟨_, bind_eq_ok.mpr ⟨_, _, exa 4 (by omega), bind_eq_ok.mpr ⟨_, _, rfl, bind_eq_ok.mpr ⟨_, _, mapErr_ok hx _,
      bind_eq_ok.mpr ⟨_, _, ofOption_eq_ok.mpr ⟨ht, rfl⟩, rfl⟩⟩⟩⟩⟩
  case string => exact (hk.1 rfl).elim
  case millis => exact (hk.2.1 rfl).elim
  case micros => exact (hk.2.2.1 rfl).elim
  case nanos => exact (hk.2.2.2 rfl).elim

/-- C75: the content of a variable-length field is what its length prefix frames, for contents of fewer than 255 octets -/
theorem c75_variable_partial (b rest : Bytes) (o : Nat) (h : b.length < 255) :
    let r' : Reader := ⟨rest, o + (b.length + 1)⟩
    let run := fun k => Value.parse k 65535 ⟨varFrame b ++ rest, o⟩
    run .octetArray = (.ok (.octetArray b), r') ∧ run .basicList = (.ok (.basicList b), r') ∧
      run .subTemplateList = (.ok (.subTemplateList b), r') ∧
      run .subTemplateMultiList = (.ok (.subTemplateMultiList b), r') ∧
      (∀ s, Bgp.utf8 s = b → run .string = (.ok (.string s), r')) ∧
      (∀ pen id, Field.parse (.vendorUnknown pen id) 65535 ⟨varFrame b ++ rest, o⟩ = (.ok (.vendorUnknown pen id b), r')) := by
  intro r' run
  have hn : (UInt8.ofNat b.length).toNat = b.length := UInt8.toNat_ofNat_of_lt' (by simp only [UInt8.size]; omega)
  have hf : varFrame b ++ rest = UInt8.ofNat b.length :: (b ++ rest) := by
    unfold varFrame; rw [if_pos h]; rfl
  have hv : readVarLen ⟨varFrame b ++ rest, o⟩ = (.ok b.length, ⟨b ++ rest, o + 1⟩) := by
    rw [hf]
    refine bind_eq_ok.mpr ⟨UInt8.ofNat b.length, _, readU8_cons .., ?_⟩
    rw [if_neg (by intro he; rw [he] at hn; have : (255 : UInt8).toNat = 255 := rfl; omega), hn]
    rfl
  have hr : readBytes b.length ⟨b ++ rest, o + 1⟩ = (.ok b, r') := readBytes_eq_ok.mpr ⟨rfl, rfl, by simp only [r']; omega⟩
  have ho : readOctets 65535 ⟨varFrame b ++ rest, o⟩ = (.ok b, r') := by
    unfold readOctets
    rw [if_pos rfl]
    exact bind_eq_ok.mpr ⟨_, _, hv, hr⟩
  refine ⟨?_, ?_, ?_, ?_, fun s hs => ?_, fun pen id => ?_⟩
  · exact bind_eq_ok.mpr ⟨_, _, mapErr_ok ho _, rfl⟩
  · exact bind_eq_ok.mpr ⟨_, _, mapErr_ok ho _, rfl⟩
  · exact bind_eq_ok.mpr ⟨_, _, mapErr_ok ho _, rfl⟩
  · exact bind_eq_ok.mpr ⟨_, _, mapErr_ok ho _, rfl⟩
  · refine bind_eq_ok.mpr ⟨s, r', ?_, rfl⟩
    unfold readString
    rw [if_pos rfl]
    exact bind_eq_ok.mpr ⟨_, _, mapErr_ok hv _, bind_eq_ok.mpr ⟨_, _, rfl, bind_eq_ok.mpr ⟨_, _, mapErr_ok hr _,
      ofOption_eq_ok.mpr ⟨by rw [← hs]; exact Bgp.ofUtf8_utf8 s, rfl⟩⟩⟩⟩
  · exact bind_eq_ok.mpr ⟨_, _, mapErr_ok ho _, rfl⟩

/-- C75 does not hold as stated: there are values which are not what their octets stand for. A boolean of 2, which is false,
is true; the ninth TCP flag is lost; the 256-bit integer 5 sent in one octet is `5 * 256 ^ 31`; milliseconds after the year
292 millions are a time before 1970; an NTP timestamp of 0, which is the start of 1900, is the start of 1970. -/
theorem c75_disproved :
    (Value.parse .boolean 1 ⟨[2], 0⟩ = (.ok (.boolean true), ⟨[], 1⟩) ∧ ¬ Means .boolean [2] (.boolean true)) ∧
    (Value.parse .tcpControlBits 2 ⟨[1, 0], 0⟩ = (.ok (.tcpControlBits 0), ⟨[], 2⟩) ∧
      ¬ Means .tcpControlBits [1, 0] (.tcpControlBits 0)) ∧
    (Value.parse .unsigned256 1 ⟨[5], 0⟩ = (.ok (.unsigned256 (BitVec.ofNat 256 (5 * 256 ^ 31))), ⟨[], 1⟩) ∧
      ¬ Means .unsigned256 [5] (.unsigned256 (BitVec.ofNat 256 (5 * 256 ^ 31)))) ∧
    (Value.parse .millis 8 ⟨List.replicate 8 255, 0⟩ = (.ok (.millis ⟨-1, 999000000⟩), ⟨[], 8⟩) ∧
      ¬ Means .millis (List.replicate 8 255) (.millis ⟨-1, 999000000⟩)) ∧
    (Value.parse .micros 8 ⟨List.replicate 8 0, 0⟩ = (.ok (.micros ⟨0, 0⟩), ⟨[], 8⟩) ∧
      ¬ Means .micros (List.replicate 8 0) (.micros ⟨0, 0⟩)) := by
  refine ⟨⟨by decide +kernel, by simp [Means]⟩, ⟨by decide +kernel, by simp [Means, beVal]⟩,
    ⟨by decide +kernel, by simp only [Means]; decide +kernel⟩, ⟨by decide +kernel, by simp only [Means]; decide +kernel⟩,
    ⟨by decide +kernel, by simp only [Means, ntpInstant]; decide +kernel⟩⟩

/-- C75 does not hold as stated: the length of a variable-length content of 255 octets and more is read from three octets
instead of two, so that it is refused, the variable length of an element of an
unknown enterprise is not read at all, and the last instant of a second is refused. -/
theorem c75_length_disproved :
    (Value.parse .octetArray 65535 ⟨varFrame (List.replicate 255 7), 0⟩).1 = .err (.parse (.eof 4 65287 254)) ∧
    (Field.parse (.unknown 9 1) 65535 ⟨varFrame [7], 0⟩).1 = .err (.parse (.eof 0 65535 2)) ∧
    (Value.parse .micros 8 ⟨[0, 0, 0, 0, 255, 255, 255, 255], 0⟩).1 = .err (.timestampFraction 0 0 4294967295) := by
  decide +kernel

/-- the hypotheses of `c75_fixed_partial` and of `c75_accepts` are met by a reduced integer -/
example : Value.parse .unsigned64 3 ⟨[1, 0, 2] ++ [9], 4⟩ = (.ok (.unsigned64 65538), ⟨[9], 7⟩) ∧
    Plain .unsigned64 [1, 0, 2] ∧ Means .unsigned64 [1, 0, 2] (.unsigned64 65538) := by
  refine ⟨by decide +kernel, trivial, ?_⟩
  simp only [Means]; decide
example : Value.parse .signed32 2 ⟨[255, 254], 0⟩ = (.ok (.signed32 (-2)), ⟨[], 2⟩) ∧
    Means .signed32 [255, 254] (.signed32 (-2)) := by
  refine ⟨by decide +kernel, ?_⟩
  simp only [Means]; decide
example : inRange Kind.unsigned64.lengthRange 3 = true ∧ varFrame [1, 2] = [2, 1, 2] := by decide

end Verif.Props
