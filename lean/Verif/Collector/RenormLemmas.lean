import Verif.Collector.FloatLemmas
/-!
# Lemmas on renormalization
-/
namespace Verif.Collector
open F64 Sampling
open Flow (Field Value)

attribute [local irreducible] F64.one F64.top

theorem three_up (E F o c c' N D K p : Nat) (ha : E * c' ≤ F * (c * o)) (hb : E * (D * K) ≤ F * (N * o)) (hc : E * (o * p) ≤ F * (c' * K)) :
    E * E * E * (o * (p * D)) ≤ F * F * F * ((c * N) * (o * o)) := by
  calc E * E * E * (o * (p * D)) = E * (o * p) * (E * E * D) := by ac_rfl
    _ ≤ F * (c' * K) * (E * E * D) := Nat.mul_le_mul_right _ hc
    _ = F * (E * c' * (E * (D * K))) := by ac_rfl
    _ ≤ F * (F * (c * o) * (F * (N * o))) := Nat.mul_le_mul_left _ (Nat.mul_le_mul ha hb)
    _ = F * F * F * ((c * N) * (o * o)) := by ac_rfl

theorem three_down (E F o c c' N D K p : Nat) (ha : F * (c * o) ≤ E * c') (hb : F * (N * o) ≤ E * (D * K)) (hc : F * (c' * K) ≤ E * (o * p)) :
    F * F * F * ((c * N) * (o * o)) ≤ E * E * E * (o * (p * D)) := by
  calc F * F * F * ((c * N) * (o * o)) = F * (F * (c * o) * (F * (N * o))) := by ac_rfl
    _ ≤ F * (E * c' * (E * (D * K))) := Nat.mul_le_mul_left _ (Nat.mul_le_mul ha hb)
    _ = F * (c' * K) * (E * E * D) := by ac_rfl
    _ ≤ E * (o * p) * (E * E * D) := Nat.mul_le_mul_right _ hc
    _ = E * E * E * (o * (p * D)) := by ac_rfl

/-- a counter as a floating-point number -/
theorem ofNat_bound (c : Nat) (hc : c < 2 ^ 64) : ∃ c', ofNat c = fin c' ∧ 2 ^ 53 * c' ≤ (2 ^ 53 + 1) * (c * one) ∧ (2 ^ 53 - 1) * (c * one) ≤ 2 ^ 53 * c' ∧
    c' = roundNat (c * one) 1 := by
  have hl := one_large
  by_cases h0 : c = 0
  · subst h0
    exact ⟨0, by rw [ofNat_exact 0 (by decide), Nat.zero_mul], by omega, by omega, by rw [Nat.zero_mul, roundNat_zero 1 (by decide)]⟩
  · have h1 : 1 * one ≤ c * one := Nat.mul_le_mul_right _ (by omega)
    have hb := roundNat_bound (c * one) 1 (by decide) (by omega)
    rw [Nat.one_mul] at hb
    refine ⟨roundNat (c * one) 1, ?_, hb.1, hb.2, rfl⟩
    have h2 : c * one ≤ 2 ^ 64 * one := Nat.mul_le_mul_right _ (by omega)
    have h3 : 2 ^ 66 * one ≤ top := by
      rw [top_eq]; exact Nat.mul_le_mul_right _ (Nat.pow_le_pow_right (by decide) (by decide))
    rw [ofNat, round_eq, if_pos]
    omega

theorem near_of (o E c c' N D K p r : Nat) (hE : E = 2 ^ 53) (ho : 0 < o) (hD : 0 < D)
    (ha : E * c' ≤ (E + 1) * (c * o)) (ha' : (E - 1) * (c * o) ≤ E * c')
    (hb : E * (D * K) ≤ (E + 1) * (N * o)) (hb' : (E - 1) * (N * o) ≤ E * (D * K))
    (hc : E * (o * p) ≤ (E + 1) * (c' * K)) (hc' : (E - 1) * (c' * K) ≤ E * (o * p))
    (hr : r * o ≤ p) (hr' : r = most ∨ p < (r + 1) * o) : Near N D c r := by
  have hoo : 0 < o * o := Nat.mul_pos ho ho
  have e1 : E * E * E * (r * D) ≤ (E + 1) * (E + 1) * (E + 1) * (c * N) := by
    refine Nat.le_of_mul_le_mul_right ?_ hoo
    calc E * E * E * (r * D) * (o * o) = E * E * E * (o * (r * o * D)) := by ac_rfl
      _ ≤ E * E * E * (o * (p * D)) := Nat.mul_le_mul_left _ (Nat.mul_le_mul_left _ (Nat.mul_le_mul_right _ hr))
      _ ≤ _ := three_up _ _ _ _ _ _ _ _ _ ha hb hc
      _ = _ := by ac_rfl
  refine ⟨?_, ?_⟩
  · subst hE
    generalize r * D = x at *
    generalize c * N = y at *
    omega
  · rcases hr' with h | h
    · exact .inl h
    · refine .inr ?_
      have e2 : (E - 1) * (E - 1) * (E - 1) * (c * N) < E * E * E * ((r + 1) * D) := by
        refine Nat.lt_of_mul_lt_mul_right (a := o * o) ?_
        calc (E - 1) * (E - 1) * (E - 1) * (c * N) * (o * o) = (E - 1) * (E - 1) * (E - 1) * ((c * N) * (o * o)) := by ac_rfl
          _ ≤ E * E * E * (o * (p * D)) := three_down _ _ _ _ _ _ _ _ _ ha' hb' hc'
          _ < E * E * E * (o * ((r + 1) * o * D)) := by
            refine Nat.mul_lt_mul_of_pos_left (Nat.mul_lt_mul_of_pos_left (Nat.mul_lt_mul_of_pos_right h hD) ho) ?_
            subst hE; decide
          _ = _ := by ac_rfl
      subst hE
      generalize (r + 1) * D = x at *
      generalize c * N = y at *
      omega

theorem ratio_large (D N R o : Nat) (ho : 0 < o) (hb : 2 ^ 53 * (D * R) ≤ (2 ^ 53 + 1) * (N * o)) (hR : 2 ^ 100 * o ≤ R) : 2 ^ 99 * D ≤ N := by
  refine Nat.le_of_mul_le_mul_right (c := o) ?_ ho
  have h := Nat.mul_le_mul_left D hR
  rw [Nat.mul_left_comm] at h
  rw [Nat.mul_assoc]
  omega

/-- a counter that is scaled by the nearest value to a ratio -/
theorem scale_near (N D : Nat) (hD : 0 < D) (hr : N = 0 ∨ 2 ^ 60 * D ≤ N * one) (c : UInt64) :
    Near N D c.toNat (scale (round (N * one) D) c).toNat := by
  obtain ⟨c', hc', ha, ha', -⟩ := ofNat_bound c.toNat c.toNat_lt
  have hl := one_large
  have hone := one_pos
  rw [scale, hc', round_eq]
  have zero : ∀ x : UInt64, x.toNat = 0 → c.toNat * N = 0 → Near N D c.toNat x.toNat := by
    intro x hx h0
    rw [Near, hx, h0]
    exact ⟨by omega, .inr (by omega)⟩
  split
  · show Near _ _ _ (round (c' * roundNat (N * one) D) one).toU64.toNat
    generalize hK : roundNat (N * one) D = K
    by_cases hz : c.toNat = 0 ∨ N = 0
    · refine zero _ ?_ (Nat.mul_eq_zero.mpr hz)
      have : c' * K = 0 := by
        rcases hz with h | h
        · rw [h, Nat.zero_mul] at ha
          have : c' = 0 := by omega
          rw [this, Nat.zero_mul]
        · rw [← hK, h, Nat.zero_mul, roundNat_zero _ hD, Nat.mul_zero]
      rw [this, toU64_round, roundNat_zero _ hone]
      simp
    · have hN : 2 ^ 60 * D ≤ N * one := by omega
      obtain ⟨hb, hb'⟩ := roundNat_bound (N * one) D hD (by omega)
      rw [hK] at hb hb'
      have hK2 : 2 ^ 59 ≤ K := by
        refine Nat.le_of_mul_le_mul_left (c := D) ?_ hD
        omega
      have hc2 : one ≤ 2 * c' := by
        have : 1 * one ≤ c.toNat * one := Nat.mul_le_mul_right _ (by omega)
        omega
      have hx : 2 ^ 52 * one ≤ c' * K := by
        calc 2 ^ 52 * one ≤ 2 ^ 52 * (2 * c') := Nat.mul_le_mul_left _ hc2
          _ ≤ c' * 2 ^ 59 := by omega
          _ ≤ c' * K := Nat.mul_le_mul_left _ hK2
      obtain ⟨hp, hp'⟩ := roundNat_bound (c' * K) one hone hx
      rw [toU64_round]
      generalize roundNat (c' * K) one = p at *
      have h1 := Nat.div_mul_le_self p one
      have h2 : p < (p / one + 1) * one := by rw [Nat.mul_comm]; exact Nat.lt_mul_div_succ p hone
      refine near_of one (2 ^ 53) c.toNat c' N D K p _ rfl hone hD ha ha' hb hb' hp hp' ?_ ?_
      · exact Nat.le_trans (Nat.mul_le_mul_right _ (Nat.min_le_left _ _)) h1
      · by_cases h : p / one ≤ 2 ^ 64 - 1
        · rw [Nat.min_eq_left h]; exact .inr h2
        · rw [Nat.min_eq_right (by omega)]; exact .inl rfl
  · rename_i htop
    by_cases hz : c' = 0
    · refine zero _ ?_ ?_
      · rw [hz]; rfl
      · rcases Nat.eq_zero_or_pos c.toNat with h | h
        · rw [h, Nat.zero_mul]
        · have : 1 * one ≤ c.toNat * one := Nat.mul_le_mul_right _ h
          omega
    · have hmul : (fin c').mul inf = inf := by simp [mul, hz]
      rw [hmul]
      have hinf : inf.toU64.toNat = most := by decide
      rw [hinf]
      refine ⟨?_, .inl rfl⟩
      have hc1 : 0 < c.toNat := by
        rcases Nat.eq_zero_or_pos c.toNat with h | h
        · rw [h, Nat.zero_mul] at ha; omega
        · exact h
      rcases hr with h | hN
      · rw [h, Nat.zero_mul, roundNat_zero _ hD] at htop
        exact absurd top_pos htop
      · obtain ⟨hb, -⟩ := roundNat_bound (N * one) D hD (by omega)
        have h2 : 2 ^ 99 * D ≤ N := by
          refine ratio_large _ _ _ _ hone hb (Nat.le_trans ?_ (Nat.le_of_not_lt htop))
          rw [top_eq]; exact Nat.mul_le_mul_right _ (Nat.pow_le_pow_right (by decide) (by decide))
        have h3 : N ≤ c.toNat * N := Nat.le_mul_of_pos_left _ hc1
        unfold most
        generalize c.toNat * N = y at *
        omega

/-- a counter that is scaled by a whole number, when the result has up to 53 binary digits -/
theorem scale_exact (D q : Nat) (hD : 0 < D) (c : UInt64) (h : c.toNat * q < 2 ^ 53) :
    (scale (round (q * D * one) D) c).toNat = c.toNat * q := by
  have hone := one_pos
  have e : round (q * D * one) D = round (q * one) 1 := by
    have := round_scale (q * one) 1 D hD
    rw [Nat.one_mul] at this
    rw [← this]; congr 1; ac_rfl
  rw [e, scale]
  by_cases hc : c.toNat = 0
  · rw [hc, ofNat_exact 0 (by decide), round_eq, Nat.zero_mul, Nat.zero_mul]
    split
    · show (round (0 * _) one).toU64.toNat = 0
      rw [Nat.zero_mul, toU64_round, roundNat_zero _ hone]; simp
    · rfl
  · have hq : q < 2 ^ 53 := Nat.lt_of_le_of_lt (Nat.le_mul_of_pos_left _ (by omega)) h
    have hk : round (q * one) 1 = fin (q * one) := ofNat_exact q hq
    rw [hk]
    by_cases h0 : q = 0
    · subst h0
      obtain ⟨c', hc', -⟩ := ofNat_bound c.toNat c.toNat_lt
      rw [hc']
      show (round (c' * (0 * one)) one).toU64.toNat = c.toNat * 0
      rw [Nat.zero_mul, Nat.mul_zero, Nat.mul_zero, toU64_round, roundNat_zero _ hone]; simp
    · have hcl : c.toNat < 2 ^ 53 := Nat.lt_of_le_of_lt (Nat.le_mul_of_pos_right _ (by omega)) h
      rw [ofNat_exact _ hcl]
      show (round (c.toNat * one * (q * one)) one).toU64.toNat = _
      have e2 : round (c.toNat * one * (q * one)) one = round (c.toNat * q * one) 1 := by
        have := round_scale (c.toNat * q * one) 1 one hone
        rw [Nat.one_mul] at this
        rw [← this]; congr 1; ac_rfl
      rw [e2, toU64_round, roundNat_exact _ h, Nat.mul_div_cancel _ hone]
      omega

/-- a larger counter stays larger -/
theorem scale_mono (N D : Nat) (c c' : UInt64) (h : c ≤ c') : (scale (round N D) c).toNat ≤ (scale (round N D) c').toNat := by
  have hone := one_pos
  obtain ⟨x, hx, -, hx1, ex⟩ := ofNat_bound c.toNat c.toNat_lt
  obtain ⟨y, hy, hy2, hy1, ey⟩ := ofNat_bound c'.toNat c'.toNat_lt
  have hxy : x ≤ y := by
    rw [ex, ey]; exact roundNat_mono _ _ _ (by decide) (Nat.mul_le_mul_right _ (UInt64.le_iff_toNat_le.mp h))
  rw [scale, scale, hx, hy, round_eq]
  split
  · show (round (x * _) one).toU64.toNat ≤ (round (y * _) one).toU64.toNat
    rw [toU64_round, toU64_round]
    have := Nat.div_le_div_right (c := one) (roundNat_mono _ _ one hone (Nat.mul_le_mul_right (roundNat N D) hxy))
    omega
  · by_cases h0 : x = 0
    · subst h0; exact Nat.zero_le _
    · have hy0 : y ≠ 0 := by omega
      simp [mul, h0, hy0]

/-- a ratio of at least one does not make a counter of up to 53 binary digits smaller -/
theorem scale_grows (N D : Nat) (hD : 0 < D) (h : D ≤ N) (c : UInt64) (hc : c.toNat < 2 ^ 53) : c ≤ scale (round (N * one) D) c := by
  have hone := one_pos
  rw [UInt64.le_iff_toNat_le, scale, ofNat_exact _ hc, round_eq]
  split
  · show _ ≤ (round (c.toNat * one * roundNat (N * one) D) one).toU64.toNat
    have h1 : one ≤ roundNat (N * one) D := by
      have e : roundNat (D * one) D = one := by
        have := roundNat_scale (1 * one) 1 D hD
        rw [roundNat_exact 1 (by decide), Nat.one_mul, Nat.one_mul, Nat.mul_comm] at this
        exact this
      exact Nat.le_trans (Nat.le_of_eq e.symm) (roundNat_mono _ _ _ hD (Nat.mul_le_mul_right _ h))
    have h2 : c.toNat * one ≤ roundNat (c.toNat * one * roundNat (N * one) D) one := by
      have e : roundNat (c.toNat * one * one) one = c.toNat * one := by
        have := roundNat_scale (c.toNat * one) 1 one hone
        rw [roundNat_exact _ hc, Nat.one_mul] at this
        exact this
      refine Nat.le_trans (Nat.le_of_eq e.symm) (roundNat_mono _ _ _ hone (Nat.mul_le_mul_left _ h1))
    rw [toU64_round]
    have h3 := (Nat.le_div_iff_mul_le hone).mpr h2
    omega
  · by_cases h0 : c.toNat * one = 0
    · rcases Nat.mul_eq_zero.mp h0 with e | e
      · rw [e]; exact Nat.zero_le _
      · omega
    · have : (fin (c.toNat * one)).mul inf = inf := by simp only [mul, h0, if_false]
      rw [this]
      have : inf.toU64.toNat = most := by decide
      rw [this]
      unfold most
      omega

end Verif.Collector
