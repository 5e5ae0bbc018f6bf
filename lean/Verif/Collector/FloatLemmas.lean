import Verif.Collector.Renormalization
import Verif.Collector.RenormSpec
/-!
# Lemmas on binary64 arithmetic
-/
namespace Verif.Collector.F64

/-- what `round` rounds to, whether it is a value of the type or not -/
def roundNat (n d : Nat) : Nat := nearest n (d * unit (n / d)) * unit (n / d)

theorem round_eq (n d : Nat) : round n d = if roundNat n d < top then fin (roundNat n d) else inf := rfl

theorem nearest_bound (n d : Nat) (hd : 0 < d) : 2 * (d * nearest n d) ≤ 2 * n + d ∧ 2 * n ≤ 2 * (d * nearest n d) + d := by
  have h := Nat.div_add_mod n d
  have hm := Nat.mod_lt n hd
  unfold nearest
  split
  · omega
  · split
    · rw [Nat.mul_add]; omega
    · rw [Nat.mul_add]
      have : n / d % 2 = 0 ∨ n / d % 2 = 1 := by omega
      rcases this with e | e <;> rw [e] <;> omega

theorem unit_pos (q : Nat) : 0 < unit q := Nat.two_pow_pos _

theorem unit_le (q : Nat) (h : 2 ^ 52 ≤ q) : 2 ^ 52 * unit q ≤ q := by
  have h0 : q ≠ 0 := by intro h; subst h; simp at h
  have h1 := Nat.log2_self_le h0
  have h2 : 52 ≤ q.log2 := (Nat.le_log2 h0).mpr h
  have : 2 ^ 52 * unit q = 2 ^ q.log2 := by rw [unit, ← Nat.pow_add]; congr 1; omega
  omega

/-- the error of a result that is not too small: one part in `2^53` -/
theorem roundNat_bound (n d : Nat) (hd : 0 < d) (h : 2 ^ 52 * d ≤ n) :
    2 ^ 53 * (d * roundNat n d) ≤ (2 ^ 53 + 1) * n ∧ (2 ^ 53 - 1) * n ≤ 2 ^ 53 * (d * roundNat n d) := by
  have hq : 2 ^ 52 ≤ n / d := (Nat.le_div_iff_mul_le hd).mpr h
  have hu := unit_le _ hq
  have hp := unit_pos (n / d)
  have hb := nearest_bound n (d * unit (n / d)) (Nat.mul_pos hd hp)
  have e : d * roundNat n d = d * unit (n / d) * nearest n (d * unit (n / d)) := by
    rw [roundNat, Nat.mul_comm (nearest _ _), Nat.mul_assoc]
  have hn : 2 ^ 52 * (d * unit (n / d)) ≤ n := by
    calc 2 ^ 52 * (d * unit (n / d)) = d * (2 ^ 52 * unit (n / d)) := Nat.mul_left_comm _ _ _
      _ ≤ d * (n / d) := Nat.mul_le_mul_left _ hu
      _ ≤ n := Nat.mul_div_le n d
  rw [e]
  generalize d * unit (n / d) * nearest n (d * unit (n / d)) = x at *
  generalize d * unit (n / d) = y at *
  omega

theorem nearest_zero (d : Nat) (hd : 0 < d) : nearest 0 d = 0 := by simp [nearest, hd]

theorem roundNat_zero (d : Nat) (hd : 0 < d) : roundNat 0 d = 0 := by
  rw [roundNat, nearest_zero _ (Nat.mul_pos hd (unit_pos _)), Nat.zero_mul]

theorem nearest_scale (n d m : Nat) (hm : 0 < m) : nearest (n * m) (d * m) = nearest n d := by
  have e1 : n * m / (d * m) = n / d := Nat.mul_div_mul_right _ _ hm
  have e2 : n * m % (d * m) = n % d * m := Nat.mul_mod_mul_right _ _ _
  have h1 : (2 * (n % d * m) < d * m) ↔ 2 * (n % d) < d := by
    rw [← Nat.mul_assoc]; exact Nat.mul_lt_mul_right hm
  have h2 : (d * m < 2 * (n % d * m)) ↔ d < 2 * (n % d) := by
    rw [← Nat.mul_assoc]; exact Nat.mul_lt_mul_right hm
  simp only [nearest, e1, e2, h1, h2]

theorem roundNat_scale (n d m : Nat) (hm : 0 < m) : roundNat (n * m) (d * m) = roundNat n d := by
  have e1 : n * m / (d * m) = n / d := Nat.mul_div_mul_right _ _ hm
  rw [roundNat, roundNat, e1, Nat.mul_right_comm, nearest_scale _ _ _ hm]

theorem round_scale (n d m : Nat) (hm : 0 < m) : round (n * m) (d * m) = round n d := by
  rw [round_eq, round_eq, roundNat_scale _ _ _ hm]

theorem nearest_exact (a d : Nat) (hd : 0 < d) : nearest (a * d) d = a := by
  simp [nearest, hd]

theorem log2_mul_pow (x k : Nat) (hx : x ≠ 0) : (x * 2 ^ k).log2 = x.log2 + k := by
  have h : x * 2 ^ k ≠ 0 := Nat.mul_ne_zero hx (Nat.ne_of_gt (Nat.two_pow_pos _))
  have h1 : x.log2 + k ≤ (x * 2 ^ k).log2 := (Nat.le_log2 h).mpr (by
    rw [Nat.pow_add]; exact Nat.mul_le_mul_right _ (Nat.log2_self_le hx))
  have h2 : (x * 2 ^ k).log2 < x.log2 + k + 1 := (Nat.log2_lt h).mpr (by
    rw [show x.log2 + k + 1 = x.log2 + 1 + k by omega, Nat.pow_add]
    exact Nat.mul_lt_mul_of_pos_right Nat.lt_log2_self (Nat.two_pow_pos _))
  omega

theorem one_split (a : Nat) (h : a ≤ 1074) : one = 2 ^ (1074 - a) * 2 ^ a := by
  rw [one, ← Nat.pow_add, Nat.sub_add_cancel h]

/-- a whole number of up to 53 binary digits is a value of the type -/
theorem roundNat_exact (x : Nat) (hx : x < 2 ^ 53) : roundNat (x * one) 1 = x * one := by
  by_cases h0 : x = 0
  · subst h0; simp only [Nat.zero_mul]; exact roundNat_zero 1 (by decide)
  · have hl : x.log2 < 53 := (Nat.log2_lt h0).mpr hx
    have hd : ∃ m, x * one = m * unit (x * one) := by
      refine ⟨x * 2 ^ (1074 - (x.log2 + 1074 - 52)), ?_⟩
      have e : (x * one).log2 = x.log2 + 1074 := log2_mul_pow x 1074 h0
      rw [unit, e, Nat.mul_assoc, ← one_split _ (by omega)]
    rw [roundNat, Nat.div_one, Nat.one_mul]
    obtain ⟨m, hm⟩ := hd
    have := nearest_exact m _ (unit_pos (x * one))
    rw [← hm] at this
    rw [this, ← hm]

theorem one_def : one = 2 ^ 1074 := rfl

theorem one_pos : 0 < one := Nat.two_pow_pos _

theorem top_pos : 0 < top := Nat.two_pow_pos _

theorem top_eq : top = 2 ^ 1024 * one := by rw [top, one, ← Nat.pow_add]

theorem one_large : 2 ^ 200 ≤ one := Nat.pow_le_pow_right (by decide) (by decide)

theorem ofNat_exact (x : Nat) (hx : x < 2 ^ 53) : ofNat x = fin (x * one) := by
  rw [ofNat, round_eq, roundNat_exact x hx, if_pos]
  rw [top_eq]
  refine Nat.mul_lt_mul_of_pos_right (Nat.lt_of_lt_of_le hx ?_) one_pos
  exact Nat.pow_le_pow_right (by decide) (by decide)

/-- `as u64` of a rounded result, whether it is finite or not -/
theorem toU64_round (n d : Nat) : (round n d).toU64.toNat = min (roundNat n d / one) (2 ^ 64 - 1) := by
  rw [round_eq]
  have hlt : ∀ x : Nat, (UInt64.ofNat (min x (2 ^ 64 - 1))).toNat = min x (2 ^ 64 - 1) := by
    intro x; rw [UInt64.toNat_ofNat']; omega
  split
  · exact hlt _
  · rename_i h
    have h1 : 2 ^ 1024 ≤ roundNat n d / one := (Nat.le_div_iff_mul_le one_pos).mpr (by rw [← top_eq]; omega)
    have h2 : 2 ^ 64 ≤ roundNat n d / one := Nat.le_trans (Nat.pow_le_pow_right (by decide) (by decide)) h1
    have h3 := hlt (2 ^ 64 - 1)
    rw [Nat.min_eq_right (by omega : 2 ^ 64 - 1 ≤ roundNat n d / one)]
    simpa [toU64] using h3

theorem nearest_mono (n n' d : Nat) (hd : 0 < d) (h : n ≤ n') : nearest n d ≤ nearest n' d := by
  have hq : n / d ≤ n' / d := Nat.div_le_div_right h
  have e := Nat.div_add_mod n d
  have e' := Nat.div_add_mod n' d
  have hm := Nat.mod_lt n hd
  have hm' := Nat.mod_lt n' hd
  by_cases hlt : n / d < n' / d
  · have h1 : nearest n d ≤ n / d + 1 := by unfold nearest; split <;> (try split) <;> omega
    have h2 : n' / d ≤ nearest n' d := by unfold nearest; split <;> (try split) <;> omega
    omega
  · have heq : n / d = n' / d := by omega
    rw [← heq] at e'
    unfold nearest
    rw [← heq]
    generalize n / d = q at *
    have : n % d ≤ n' % d := by omega
    repeat' split
    all_goals omega

theorem roundNat_mono (n n' d : Nat) (hd : 0 < d) (h : n ≤ n') : roundNat n d ≤ roundNat n' d := by
  have hq : n / d ≤ n' / d := Nat.div_le_div_right h
  by_cases hu : unit (n / d) = unit (n' / d)
  · rw [roundNat, roundNat, hu]
    exact Nat.mul_le_mul_right _ (nearest_mono _ _ _ (Nat.mul_pos hd (unit_pos _)) h)
  · have hne : n' / d ≠ 0 := by
      intro h0
      rw [h0] at hq hu
      exact hu (by rw [Nat.le_zero.mp hq])
    have hl : (n / d).log2 ≤ (n' / d).log2 := by
      by_cases h0 : n / d = 0
      · rw [h0]; exact Nat.zero_le _
      · exact (Nat.le_log2 hne).mpr (Nat.le_trans (Nat.log2_self_le h0) hq)
    have hl' : (n / d).log2 < (n' / d).log2 ∧ 52 < (n' / d).log2 := by
      have : (n / d).log2 - 52 ≠ (n' / d).log2 - 52 := fun e => hu (by rw [unit, unit, e])
      omega
    have key : ∀ q k, q.log2 - 52 ≤ k → nearest (2 ^ k * d) (d * unit q) * unit q = 2 ^ k := by
      intro q k hk
      have e : 2 ^ k = 2 ^ (k - (q.log2 - 52)) * unit q := by rw [unit, ← Nat.pow_add, Nat.sub_add_cancel hk]
      have e2 : 2 ^ k * d = 2 ^ (k - (q.log2 - 52)) * (d * unit q) := by
        rw [e, Nat.mul_assoc, Nat.mul_comm (unit q)]
      rw [e2, nearest_exact _ _ (Nat.mul_pos hd (unit_pos _)), ← e]
    have h1 : roundNat n d ≤ 2 ^ ((n / d).log2 + 1) := by
      rw [← key (n / d) ((n / d).log2 + 1) (by omega), roundNat]
      refine Nat.mul_le_mul_right _ (nearest_mono _ _ _ (Nat.mul_pos hd (unit_pos _)) ?_)
      have := (Nat.div_lt_iff_lt_mul hd).mp (Nat.lt_log2_self (n := n / d))
      omega
    have h2 : 2 ^ (n' / d).log2 ≤ roundNat n' d := by
      rw [← key (n' / d) (n' / d).log2 (by omega), roundNat]
      refine Nat.mul_le_mul_right _ (nearest_mono _ _ _ (Nat.mul_pos hd (unit_pos _)) ?_)
      exact (Nat.le_div_iff_mul_le hd).mp (Nat.log2_self_le hne)
    have h3 : 2 ^ ((n / d).log2 + 1) ≤ 2 ^ (n' / d).log2 := Nat.pow_le_pow_right (by decide) hl'.1
    omega

end Verif.Collector.F64
