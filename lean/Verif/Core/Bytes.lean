/-!
# Big-endian byte strings

`u16::from_be_bytes`, `u32::to_be_bytes`, … of the Rust standard library and the `byteorder`
`write_uNN::<NetworkEndian>` calls are modelled by the base-256 positional value of a byte list.
-/
namespace Verif

abbrev Byte := UInt8
abbrev Bytes := List UInt8

/-- Big-endian value of a byte string (`uN::from_be_bytes`, used all over
`crates/parse-utils/src/reader.rs:97-134`). -/
def beVal : Bytes → Nat
  | [] => 0
  | b :: bs => b.toNat * 256 ^ bs.length + beVal bs

/-- The `w` low-order octets of `n`, most significant first (`uN::to_be_bytes`,
`byteorder::WriteBytesExt::write_uN::<NetworkEndian>`). -/
def beBytes : Nat → Nat → Bytes
  | 0, _ => []
  | w + 1, n => UInt8.ofNat (n / 256 ^ w) :: beBytes w n

@[simp] theorem length_beBytes (w n : Nat) : (beBytes w n).length = w := by
  induction w with
  | zero => rfl
  | succ w ih => simp [beBytes, ih]

theorem beVal_lt (l : Bytes) : beVal l < 256 ^ l.length := by
  induction l with
  | nil => simp [beVal]
  | cons b bs ih =>
    have hb : b.toNat < 256 := b.toNat_lt
    simp only [beVal, List.length_cons, Nat.pow_succ]
    have : b.toNat * 256 ^ bs.length ≤ 255 * 256 ^ bs.length := Nat.mul_le_mul_right _ (by omega)
    omega

theorem beVal_append (a b : Bytes) : beVal (a ++ b) = beVal a * 256 ^ b.length + beVal b := by
  induction a with
  | nil => simp [beVal]
  | cons x xs ih =>
    simp only [List.cons_append, beVal, ih, List.length_append, Nat.pow_add]
    rw [Nat.add_mul, Nat.mul_assoc, Nat.add_assoc]

theorem beVal_beBytes (w n : Nat) : beVal (beBytes w n) = n % 256 ^ w := by
  induction w with
  | zero => simp [beBytes, beVal, Nat.mod_one]
  | succ w ih =>
    simp only [beBytes, beVal, ih, length_beBytes]
    have h1 : (UInt8.ofNat (n / 256 ^ w)).toNat = n / 256 ^ w % 256 := by
      simp [UInt8.toNat_ofNat']
    rw [h1, Nat.pow_succ, Nat.mod_mul]
    rw [Nat.mul_comm]
    omega

theorem beVal_beBytes_of_lt {w n : Nat} (h : n < 256 ^ w) : beVal (beBytes w n) = n := by
  rw [beVal_beBytes, Nat.mod_eq_of_lt h]

theorem beBytes_add_mul (w k n : Nat) : beBytes w (k * 256 ^ w + n) = beBytes w n := by
  suffices ∀ v, v ≤ w → beBytes v (k * 256 ^ w + n) = beBytes v n from this w (Nat.le_refl w)
  intro v
  induction v with
  | zero => intro _; rfl
  | succ v ih =>
    intro hv
    simp only [beBytes]
    rw [ih (by omega)]
    congr 1
    obtain ⟨d, rfl⟩ : ∃ d, w = v + 1 + d := ⟨w - (v + 1), by omega⟩
    have hpow : k * 256 ^ (v + 1 + d) = (k * 256 ^ d * 256) * 256 ^ v := by
      rw [Nat.pow_add, Nat.pow_succ]
      ac_rfl
    rw [hpow, Nat.add_comm, Nat.add_mul_div_right _ _ (Nat.pow_pos (by decide))]
    apply UInt8.toNat_inj.mp
    simp [UInt8.toNat_ofNat']

theorem beBytes_beVal (l : Bytes) : beBytes l.length (beVal l) = l := by
  induction l with
  | nil => rfl
  | cons b bs ih =>
    simp only [List.length_cons, beBytes, beVal]
    have hlt := beVal_lt bs
    have hdiv : (b.toNat * 256 ^ bs.length + beVal bs) / 256 ^ bs.length = b.toNat := by
      rw [Nat.add_comm, Nat.add_mul_div_right _ _ (Nat.pow_pos (by decide)),
        Nat.div_eq_of_lt hlt, Nat.zero_add]
    rw [hdiv, beBytes_add_mul, ih]
    simp

theorem beVal_inj {a b : Bytes} (hl : a.length = b.length) (h : beVal a = beVal b) : a = b := by
  rw [← beBytes_beVal a, ← beBytes_beVal b, hl, h]

/-! ## Fixed-width integers -/

/-- `write_u16::<NetworkEndian>` -/
def u16be (x : UInt16) : Bytes := beBytes 2 x.toNat
/-- `write_u32::<NetworkEndian>` -/
def u32be (x : UInt32) : Bytes := beBytes 4 x.toNat
/-- `write_u64::<NetworkEndian>` -/
def u64be (x : UInt64) : Bytes := beBytes 8 x.toNat
/-- `write_u128::<NetworkEndian>`; `u128` is `BitVec 128`. -/
def u128be (x : BitVec 128) : Bytes := beBytes 16 x.toNat

/-- `u16::from_be_bytes` -/
def u16of (l : Bytes) : UInt16 := UInt16.ofNat (beVal l)
/-- `u32::from_be_bytes` -/
def u32of (l : Bytes) : UInt32 := UInt32.ofNat (beVal l)
/-- `u64::from_be_bytes` -/
def u64of (l : Bytes) : UInt64 := UInt64.ofNat (beVal l)
/-- `u128::from_be_bytes` -/
def u128of (l : Bytes) : BitVec 128 := BitVec.ofNat 128 (beVal l)

@[simp] theorem length_u16be (x) : (u16be x).length = 2 := by simp [u16be]
@[simp] theorem length_u32be (x) : (u32be x).length = 4 := by simp [u32be]
@[simp] theorem length_u64be (x) : (u64be x).length = 8 := by simp [u64be]
@[simp] theorem length_u128be (x) : (u128be x).length = 16 := by simp [u128be]

@[simp] theorem u16of_u16be (x) : u16of (u16be x) = x := by
  rw [u16of, u16be, beVal_beBytes_of_lt (by simpa using x.toNat_lt)]; simp
@[simp] theorem u32of_u32be (x) : u32of (u32be x) = x := by
  rw [u32of, u32be, beVal_beBytes_of_lt (by simpa using x.toNat_lt)]; simp
@[simp] theorem u64of_u64be (x) : u64of (u64be x) = x := by
  rw [u64of, u64be, beVal_beBytes_of_lt (by simpa using x.toNat_lt)]; simp
@[simp] theorem u128of_u128be (x) : u128of (u128be x) = x := by
  rw [u128of, u128be, beVal_beBytes_of_lt (by simpa using x.isLt)]; simp

theorem u16of_toNat {l : Bytes} (h : l.length = 2) : (u16of l).toNat = beVal l := by
  have := beVal_lt l; rw [h] at this; simp at this
  simp [u16of]; omega
theorem u32of_toNat {l : Bytes} (h : l.length = 4) : (u32of l).toNat = beVal l := by
  have := beVal_lt l; rw [h] at this; simp at this
  simp [u32of]; omega
theorem u64of_toNat {l : Bytes} (h : l.length = 8) : (u64of l).toNat = beVal l := by
  have := beVal_lt l; rw [h] at this; simp at this
  simp [u64of]; omega
theorem u128of_toNat {l : Bytes} (h : l.length = 16) : (u128of l).toNat = beVal l := by
  have := beVal_lt l; rw [h] at this; simp at this
  simp [u128of]; omega

theorem u16be_u16of {l : Bytes} (h : l.length = 2) : u16be (u16of l) = l := by
  rw [u16be, u16of_toNat h, ← h, beBytes_beVal]
theorem u32be_u32of {l : Bytes} (h : l.length = 4) : u32be (u32of l) = l := by
  rw [u32be, u32of_toNat h, ← h, beBytes_beVal]
theorem u64be_u64of {l : Bytes} (h : l.length = 8) : u64be (u64of l) = l := by
  rw [u64be, u64of_toNat h, ← h, beBytes_beVal]
theorem u128be_u128of {l : Bytes} (h : l.length = 16) : u128be (u128of l) = l := by
  rw [u128be, u128of_toNat h, ← h, beBytes_beVal]

theorem u16be_inj {a b : UInt16} (h : u16be a = u16be b) : a = b := by
  rw [← u16of_u16be a, h, u16of_u16be]
theorem u32be_inj {a b : UInt32} (h : u32be a = u32be b) : a = b := by
  rw [← u32of_u32be a, h, u32of_u32be]

end Verif
