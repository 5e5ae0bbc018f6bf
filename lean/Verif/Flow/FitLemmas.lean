import Verif.Flow.ValueLemmas
import Verif.Props.FlowValues
/-!
# Which decoded values can be written and read back
-/
namespace Verif.Flow
open Parser Props

theorem unsigned32_pre {l : Nat} {r r' : Reader} {v : UInt32} (h : readUnsigned32 l r = (.ok v, r')) :
    ∃ pre, r.buf = pre ++ r'.buf ∧ pre.length = l ∧ l ≤ 4 := by
  unfold readUnsigned32 at h
  simp only [ite_eq_ok, map_eq_ok, pure_eq_ok] at h
  rcases h with ⟨rfl, -, rfl⟩ | ⟨-, ⟨rfl, b, hb, -⟩ | ⟨-, ⟨rfl, b, hb, -⟩ | ⟨-, ⟨rfl, b, hb, -⟩ | ⟨-, ⟨rfl, b, hb, -⟩ | ⟨-, h⟩⟩⟩⟩⟩
  · exact ⟨[], rfl, rfl, by omega⟩
  all_goals first
    | (obtain ⟨h1, h2, -⟩ := readArray_eq_ok.mp hb; exact ⟨b, h1, h2, by omega⟩)
    | cases h

theorem unsigned64_pre {l : Nat} {r r' : Reader} {v : UInt64} (h : readUnsigned64 l r = (.ok v, r')) :
    ∃ pre, r.buf = pre ++ r'.buf ∧ pre.length = l ∧ l ≤ 8 := by
  unfold readUnsigned64 at h
  simp only [ite_eq_ok, map_eq_ok, pure_eq_ok] at h
  rcases h with ⟨rfl, -, rfl⟩ | ⟨-, ⟨rfl, b, hb, -⟩ | ⟨-, ⟨rfl, b, hb, -⟩ | ⟨-, ⟨rfl, b, hb, -⟩ | ⟨-, ⟨rfl, b, hb, -⟩ |
    ⟨-, ⟨rfl, b, hb, -⟩ | ⟨-, ⟨rfl, b, hb, -⟩ | ⟨-, ⟨rfl, b, hb, -⟩ | ⟨-, ⟨rfl, b, hb, -⟩ | ⟨-, h⟩⟩⟩⟩⟩⟩⟩⟩⟩
  · exact ⟨[], rfl, rfl, by omega⟩
  all_goals first
    | (obtain ⟨h1, h2, -⟩ := readArray_eq_ok.mp hb; exact ⟨b, h1, h2, by omega⟩)
    | cases h

theorem unsigned32_lt {l : Nat} {r r' : Reader} {v : UInt32} (h : readUnsigned32 l r = (.ok v, r')) : l ≤ 4 ∧ v.toNat < 256 ^ l := by
  obtain ⟨pre, h1, rfl, h2⟩ := unsigned32_pre h
  obtain ⟨b, o⟩ := r
  simp only at h1
  subst h1
  obtain ⟨x, h3, h4⟩ := c02_unsigned32 pre r'.buf o h2
  rw [h3] at h
  injection h with h5 h6
  injection h5 with h5
  exact ⟨h2, by rw [← h5, h4]; exact beVal_lt pre⟩

theorem unsigned64_lt {l : Nat} {r r' : Reader} {v : UInt64} (h : readUnsigned64 l r = (.ok v, r')) : l ≤ 8 ∧ v.toNat < 256 ^ l := by
  obtain ⟨pre, h1, rfl, h2⟩ := unsigned64_pre h
  obtain ⟨b, o⟩ := r
  simp only at h1
  subst h1
  obtain ⟨x, h3, h4⟩ := c02_unsigned64 pre r'.buf o h2
  rw [h3] at h
  injection h with h5 h6
  injection h5 with h5
  exact ⟨h2, by rw [← h5, h4]; exact beVal_lt pre⟩

theorem signed32_range {l : Nat} {r r' : Reader} {v : Int32} (h0 : l ≠ 0) (h : readSigned32 l r = (.ok v, r')) :
    (1 ≤ l ∧ l ≤ 4) ∧ -(128 * 256 ^ (l - 1) : Int) ≤ v.toInt ∧ v.toInt < 128 * 256 ^ (l - 1) := by
  obtain ⟨u, r1, hu, h1⟩ := bind_eq_ok.mp (show (readUnsigned32 l >>= _) r = _ from h)
  obtain ⟨rfl, rfl⟩ := pure_eq_ok.mp h1
  obtain ⟨pre, h1, rfl, h2⟩ := unsigned32_pre hu
  obtain ⟨b, o⟩ := r
  simp only at h1
  subst h1
  obtain ⟨x, h3, h4⟩ := c02_signed32 pre r1.buf o h2
  rw [h3] at h
  injection h with h5 h6
  injection h5 with h5
  rw [← h5, h4]
  refine ⟨⟨by omega, h2⟩, ?_⟩
  obtain ⟨n, hn⟩ : ∃ n, pre.length = n + 1 := ⟨pre.length - 1, by omega⟩
  rw [signedVal_eq hn, hn, Nat.add_sub_cancel]
  have hlt := beVal_lt pre
  rw [hn, Nat.pow_succ] at hlt
  have hc : ((256 ^ n : Nat) : Int) = (256 : Int) ^ n := by simp
  rw [Int.pow_succ, ← hc]
  split <;> omega

theorem varLen_lt {r r' : Reader} {n : Nat} (h : readVarLen r = (.ok n, r')) : n < 2 ^ 24 := by
  obtain ⟨s, r1, h1, h2⟩ := bind_eq_ok.mp h
  rcases ite_eq_ok.mp h2 with ⟨-, h2⟩ | ⟨-, h2⟩
  · obtain ⟨v, r2, h3, h4⟩ := bind_eq_ok.mp h2
    obtain ⟨rfl, -⟩ := pure_eq_ok.mp h4
    exact (unsigned32_lt h3).2
  · obtain ⟨rfl, -⟩ := pure_eq_ok.mp h2
    have := s.toNat_lt
    omega

theorem octets_fit {l : UInt16} {r r' : Reader} {x : Bytes} (h : readOctets l r = (.ok x, r')) :
    if l = 65535 then x.length < 2 ^ 24 else x.length = l.toNat := by
  unfold readOctets at h
  by_cases hl : l = 65535
  · rw [if_pos hl] at h ⊢
    obtain ⟨n, r1, h1, h2⟩ := bind_eq_ok.mp h
    rw [(readBytes_eq_ok.mp h2).2.1]
    exact varLen_lt h1
  · rw [if_neg hl] at h ⊢
    exact (readBytes_eq_ok.mp h).2.1

/-- a field of this element and length comes back when it is written as it was decoded: times with a fraction do not, nor does
what is decoded with a length prefix that is not written or written with one that is not decoded -/
def Kept : Ie → UInt16 → Prop
  | .known _ _ k, l =>
    match k with
    | .micros | .nanos => False
    | .basicList | .subTemplateList | .subTemplateMultiList => l ≠ 65535
    | .signed32 => l ≠ 0
    | _ => True
  | .vendorUnknown _ _, _ => True
  | .unknown _ _, l => l ≠ 65535

theorem value_fits {p : UInt32} {i : UInt16} {k : Kind} {l : UInt16} {r r' : Reader} {v : Value}
    (h : Value.parse k l r = (.ok v, r')) (hk : Kept (.known p i k) l) : Fits l v := by
  cases k <;> simp only [Kept] at hk <;> unfold Value.parse at h <;> simp only at h
  case octetArray =>
    obtain ⟨x, _, h1, h⟩ := bind_eq_ok.mp h
    obtain ⟨rfl, rfl⟩ := pure_eq_ok.mp h
    exact octets_fit (mapErr_eq_ok.mp h1)
  case basicList =>
    obtain ⟨x, _, h1, h⟩ := bind_eq_ok.mp h
    obtain ⟨rfl, rfl⟩ := pure_eq_ok.mp h
    have := octets_fit (mapErr_eq_ok.mp h1)
    rw [if_neg hk] at this
    exact ⟨hk, this⟩
  case subTemplateList =>
    obtain ⟨x, _, h1, h⟩ := bind_eq_ok.mp h
    obtain ⟨rfl, rfl⟩ := pure_eq_ok.mp h
    have := octets_fit (mapErr_eq_ok.mp h1)
    rw [if_neg hk] at this
    exact ⟨hk, this⟩
  case subTemplateMultiList =>
    obtain ⟨x, _, h1, h⟩ := bind_eq_ok.mp h
    obtain ⟨rfl, rfl⟩ := pure_eq_ok.mp h
    have := octets_fit (mapErr_eq_ok.mp h1)
    rw [if_neg hk] at this
    exact ⟨hk, this⟩
  case string =>
    obtain ⟨x, _, h1, h⟩ := bind_eq_ok.mp h
    obtain ⟨rfl, rfl⟩ := pure_eq_ok.mp h
    unfold readString at h1
    simp only [Fits]
    by_cases hl : l = 65535
    · rw [if_pos hl] at h1 ⊢
      obtain ⟨n, _, h2, h1⟩ := bind_eq_ok.mp h1
      obtain ⟨_, _, h3, h1⟩ := bind_eq_ok.mp h1
      obtain ⟨b, _, h4, h1⟩ := bind_eq_ok.mp h1
      obtain ⟨h5, -⟩ := ofOption_eq_ok.mp h1
      rw [Bgp.utf8_of_ofUtf8 h5, (readBytes_eq_ok.mp (mapErr_eq_ok.mp h4)).2.1]
      exact varLen_lt (mapErr_eq_ok.mp h2)
    · rw [if_neg hl] at h1 ⊢
      obtain ⟨_, _, h3, h1⟩ := bind_eq_ok.mp h1
      obtain ⟨b, _, h4, h1⟩ := bind_eq_ok.mp h1
      obtain ⟨h5, -⟩ := ofOption_eq_ok.mp h1
      rw [Bgp.utf8_of_ofUtf8 h5]
      have hb := (readBytes_eq_ok.mp (mapErr_eq_ok.mp h4)).2.1
      refine ⟨?_, fun hm => ?_⟩
      · rw [← hb]; exact (List.takeWhile_sublist _).length_le
      · have := List.all_takeWhile (p := fun c : UInt8 => decide (c ≠ 0)) (l := b)
        rw [List.all_eq_true] at this
        simpa using this 0 hm
  all_goals
    first
    | (obtain ⟨_, _, h0, h'⟩ := bind_eq_ok.mp h
       obtain ⟨hn, rfl⟩ := exactly_ok h0
       clear h
       have h := h')
    | (obtain ⟨_, _, h0, h'⟩ := bind_eq_ok.mp h
       obtain ⟨hn, rfl⟩ := atMost_ok h0
       clear h
       have h := h')
    | skip
  case unsigned32 =>
    obtain ⟨x, _, h1, h⟩ := bind_eq_ok.mp h
    obtain ⟨rfl, rfl⟩ := pure_eq_ok.mp h
    exact unsigned32_lt (mapErr_eq_ok.mp h1)
  case unsigned64 =>
    obtain ⟨x, _, h1, h⟩ := bind_eq_ok.mp h
    obtain ⟨rfl, rfl⟩ := pure_eq_ok.mp h
    exact unsigned64_lt (mapErr_eq_ok.mp h1)
  case signed32 =>
    obtain ⟨x, _, h1, h⟩ := bind_eq_ok.mp h
    obtain ⟨rfl, rfl⟩ := pure_eq_ok.mp h
    exact signed32_range (fun h0 => hk (UInt16.toNat.inj h0)) (mapErr_eq_ok.mp h1)
  case unsigned256 =>
    obtain ⟨x, r2, h1, h⟩ := bind_eq_ok.mp h
    obtain ⟨rfl, rfl⟩ := pure_eq_ok.mp h
    have h1 := mapErr_eq_ok.mp h1
    unfold readPadded at h1
    rw [if_neg (by omega)] at h1
    obtain ⟨y, r3, h2, h3⟩ := bind_eq_ok.mp h1
    obtain ⟨rfl, rfl⟩ := pure_eq_ok.mp h3
    have hy := (readBytes_eq_ok.mp h2).2.1
    refine ⟨hn, ?_⟩
    have hlt := beVal_lt (y ++ List.replicate (32 - l.toNat) (0 : UInt8))
    have h32 : (y ++ List.replicate (32 - l.toNat) (0 : UInt8)).length = 32 := by simp; omega
    rw [h32] at hlt
    rw [BitVec.toNat_ofNat, Nat.mod_eq_of_lt (by omega), beVal_append, List.length_replicate]
    have hz : beVal (List.replicate (32 - l.toNat) (0 : UInt8)) = 0 := by
      generalize 32 - l.toNat = k
      induction k with
      | zero => rfl
      | succ k ih => rw [List.replicate_succ]; simp [beVal] at ih ⊢; exact ih
    rw [hz, Nat.add_zero]
    exact Nat.dvd_mul_left _ _
  case unsigned16 =>
    obtain ⟨x, _, h1, h⟩ := bind_eq_ok.mp h
    obtain ⟨rfl, rfl⟩ := pure_eq_ok.mp h
    unfold readShort at h1
    rcases ite_eq_ok.mp h1 with ⟨hl, h1⟩ | ⟨-, h1⟩
    · obtain ⟨y, _, h2, h3⟩ := bind_eq_ok.mp h1
      obtain ⟨rfl, -⟩ := pure_eq_ok.mp h3
      exact .inl ⟨hl, by rw [UInt8.toNat_toUInt16]; exact y.toNat_lt⟩
    · rcases ite_eq_ok.mp h1 with ⟨hl, h1⟩ | ⟨-, h1⟩
      · exact .inr hl
      · obtain ⟨_, _, _, h3⟩ := bind_eq_ok.mp h1
        exact (fail_eq_ok.mp h3).elim
  case tcpControlBits =>
    obtain ⟨x, _, h1, h⟩ := bind_eq_ok.mp h
    obtain ⟨rfl, rfl⟩ := pure_eq_ok.mp h
    unfold readShort at h1
    rcases ite_eq_ok.mp h1 with ⟨hl, h1⟩ | ⟨-, h1⟩
    · exact .inl hl
    · rcases ite_eq_ok.mp h1 with ⟨hl, h1⟩ | ⟨-, h1⟩
      · exact .inr hl
      · obtain ⟨_, _, _, h3⟩ := bind_eq_ok.mp h1
        exact (fail_eq_ok.mp h3).elim
  case seconds =>
    obtain ⟨_, _, h2, h⟩ := bind_eq_ok.mp h
    obtain ⟨x, _, h1, h⟩ := bind_eq_ok.mp h
    obtain ⟨t, _, h2, h⟩ := bind_eq_ok.mp h
    obtain ⟨h3, rfl⟩ := ofOption_eq_ok.mp h2
    obtain ⟨rfl, rfl⟩ := pure_eq_ok.mp h
    unfold Time.make at h3
    split at h3 <;> cases h3
    have := x.toNat_lt
    exact ⟨UInt16.toNat.inj hn, by simp only; omega, by simp only; omega, rfl⟩
  case millis =>
    obtain ⟨_, _, h2, h⟩ := bind_eq_ok.mp h
    obtain ⟨x, _, h1, h⟩ := bind_eq_ok.mp h
    obtain ⟨t, _, h2, h⟩ := bind_eq_ok.mp h
    obtain ⟨h3, rfl⟩ := ofOption_eq_ok.mp h2
    obtain ⟨rfl, rfl⟩ := pure_eq_ok.mp h
    unfold Time.make at h3
    generalize x.toBitVec.toInt = z at h3
    split at h3
    · cases h3
      rename_i hc
      refine ⟨UInt16.toNat.inj hn, by simp only; omega, by simp only; omega, by simp only; omega, by simp only; omega⟩
    · cases h3
  all_goals
    obtain ⟨x, _, h1, h⟩ := bind_eq_ok.mp h
    obtain ⟨rfl, rfl⟩ := pure_eq_ok.mp h
    exact UInt16.toNat.inj hn

/-- a decoded field can be written with the length it was decoded with, and decoded again -/
theorem field_fits {ie : Ie} {l : UInt16} {r r' : Reader} {f : Field} (h : Field.parse ie l r = (.ok f, r')) (hk : Kept ie l) :
    f.ie = ie ∧ f.Fits l := by
  refine ⟨field_ie h, ?_⟩
  cases ie <;> unfold Field.parse at h <;> simp only [bind_eq_ok, mapErr_eq_ok, pure_eq_ok] at h <;>
    obtain ⟨v, r1, h1, rfl, rfl⟩ := h
  · exact value_fits h1 hk
  · exact octets_fit h1
  · exact ⟨hk, (readBytes_eq_ok.mp h1).2.1⟩

end Verif.Flow
