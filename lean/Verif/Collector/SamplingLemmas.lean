import Verif.Collector.RenormLemmas
import Verif.Collector.Lemmas
/-!
# What the code collects about sampling is what the record says
-/
namespace Verif.Collector
open F64 Sampling
open Flow (Field Value)

attribute [local irreducible] F64.one F64.top

/-- the parameters of a record -/
def collected (fs : List Field) : SamplingParameters := fs.foldl SamplingParameters.note {}

/-- a parameter is that of an element -/
structure Tracks {α : Type} (e : Element α) (π : SamplingParameters → Option α) : Prop where
  start : π {} = none
  hit : ∀ (p : SamplingParameters) v, π (p.note (e.field v)) = some v
  miss : ∀ (p : SamplingParameters) f, (∀ v, f ≠ e.field v) → π (p.note f) = π p

theorem says_snoc {α : Type} (e : Element α) (fs : List Field) (f : Field) (v : α) :
    e.Says (fs ++ [f]) v ↔ f = e.field v ∨ (∀ w, f ≠ e.field w) ∧ e.Says fs v := by
  constructor
  · rintro ⟨pre, post, h, hp⟩
    rcases List.eq_nil_or_concat post with rfl | ⟨post', g, rfl⟩
    · have := List.append_inj' h rfl
      exact .inl (by simpa using this.2)
    · have h' : fs ++ [f] = (pre ++ e.field v :: post') ++ [g] := by rw [h]; simp
      have := List.append_inj' h' rfl
      have hg : f = g := by simpa using this.2
      subst hg
      exact .inr ⟨fun w e => hp w (by simp [e]), pre, post', this.1, fun w hw => hp w (by simp [hw])⟩
  · rintro (rfl | ⟨hn, pre, post, rfl, hp⟩)
    · exact ⟨fs, [], rfl, by simp⟩
    · refine ⟨pre, post ++ [f], by simp, fun w hw => ?_⟩
      rcases List.mem_append.mp hw with h | h
      · exact hp w h
      · exact hn w (List.mem_singleton.mp h).symm

theorem silent_snoc {α : Type} (e : Element α) (fs : List Field) (f : Field) :
    e.Silent (fs ++ [f]) ↔ e.Silent fs ∧ ∀ w, f ≠ e.field w := by
  simp only [Element.Silent, List.mem_append, List.mem_singleton, not_or]
  exact ⟨fun h => ⟨fun w => (h w).1, fun w e => (h w).2 e.symm⟩, fun h w => ⟨h.1 w, fun e => h.2 w e.symm⟩⟩

theorem collected_snoc (fs : List Field) (f : Field) : collected (fs ++ [f]) = (collected fs).note f := by simp [collected]

theorem tracks {α : Type} {e : Element α} {π : SamplingParameters → Option α} (h : Tracks e π) (fs : List Field) :
    (∀ v, π (collected fs) = some v ↔ e.Says fs v) ∧ (π (collected fs) = none ↔ e.Silent fs) := by
  induction fs using snoc_induction with
  | nil =>
    refine ⟨fun v => ?_, ?_⟩
    · show π {} = some v ↔ _
      rw [h.start]
      constructor
      · intro h; cases h
      · rintro ⟨pre, post, e, -⟩; simp at e
    · show π {} = none ↔ _
      rw [h.start]
      simp [Element.Silent]
  | append_singleton fs f ih =>
    rw [collected_snoc]
    by_cases hf : ∃ w, f = e.field w
    · obtain ⟨w, rfl⟩ := hf
      rw [h.hit]
      refine ⟨fun v => ?_, ?_⟩
      · rw [says_snoc]
        constructor
        · intro h; cases h; exact .inl rfl
        · rintro (hv | ⟨hn, -⟩)
          · have := h.hit (collected fs) w
            rw [hv, h.hit] at this
            exact this.symm
          · exact absurd rfl (hn w)
      · rw [silent_snoc]
        constructor
        · intro h; cases h
        · intro h; exact absurd rfl (h.2 w)
    · have hf : ∀ w, f ≠ e.field w := fun w e => hf ⟨w, e⟩
      rw [h.miss _ _ hf]
      refine ⟨fun v => ?_, ?_⟩
      · rw [says_snoc, ih.1 v]
        exact ⟨fun h => .inr ⟨hf, h⟩, fun h => h.elim (fun e => absurd e (hf v)) (·.2)⟩
      · rw [silent_snoc, ih.2]
        exact ⟨fun h => ⟨h, hf⟩, (·.1)⟩

macro "track" : tactic => `(tactic|
  (refine ⟨rfl, fun _ _ => rfl, fun p f h => ?_⟩
   unfold SamplingParameters.note
   split <;> first | rfl | exact absurd rfl (h _)))

theorem tracks34 : Tracks samplingInterval (·.interval34) := by track
theorem tracks35 : Tracks samplingAlgorithm (·.algorithm35) := by track
theorem tracks49 : Tracks samplerMode (·.mode49) := by track
theorem tracks50 : Tracks samplerRandomInterval (·.interval50) := by track
theorem tracks304 : Tracks selectorAlgorithm (·.selector304) := by track
theorem tracks305 : Tracks samplingPacketInterval (·.interval305) := by track
theorem tracks306 : Tracks samplingPacketSpace (·.space306) := by track
theorem tracks309 : Tracks samplingSize (·.size309) := by track
theorem tracks310 : Tracks samplingPopulation (·.population310) := by track
theorem tracks311 : Tracks samplingProbability (·.probability311) := by track

/-- the factor of a method -/
def kOf : Method → Option F64
  | .counted i s => countBasedK i s
  | .chosen n m => randomK n m
  | .probable b => probabilisticK b
  | .every i => some (intervalK i)

theorem ofBits_eq (b : UInt64) (h : b.toNat ≤ 0x3ff0000000000000) : ofBits b = fin (binary64 b) := by
  have hd : b.toNat / 2 ^ 52 = 0 ↔ b.toNat < 2 ^ 52 := by omega
  have hl : b.toNat / 2 ^ 52 < 2047 := by omega
  simp only [ofBits, binary64, hd, hl, if_true]
  split
  · rename_i hb; rw [Nat.mod_eq_of_lt hb]
  · rfl

theorem binary64_pos (b : UInt64) (h : 0 < b) : 0 < binary64 b := by
  have : 0 < b.toNat := UInt64.lt_iff_toNat_lt.mp h
  unfold binary64
  split
  · exact this
  · exact Nat.mul_pos (by omega) (Nat.two_pow_pos _)

theorem binary64_le (b : UInt64) (h : b.toNat ≤ 0x3ff0000000000000) : binary64 b ≤ 2 ^ 1074 := by
  unfold binary64
  split
  · refine Nat.le_trans (Nat.le_of_lt (by assumption)) (Nat.pow_le_pow_right (by decide) (by decide))
  · by_cases he : b.toNat / 2 ^ 52 = 1023
    · have : b.toNat % 2 ^ 52 = 0 := by omega
      rw [he, this, Nat.add_zero, ← Nat.pow_add]
      exact Nat.pow_le_pow_right (by decide) (by decide)
    · have h1 : 2 ^ 52 + b.toNat % 2 ^ 52 ≤ 2 ^ 53 := by omega
      refine Nat.le_trans (Nat.mul_le_mul_right _ h1) ?_
      rw [← Nat.pow_add]
      exact Nat.pow_le_pow_right (by decide) (by omega)

theorem u32_lt (i : UInt32) : i.toNat < 2 ^ 53 := Nat.lt_trans i.toNat_lt (by decide)

theorem div_exact (N D : Nat) (hN : N < 2 ^ 53) (hD : D < 2 ^ 53) (h0 : D ≠ 0) : (ofNat N).div (ofNat D) = round (N * one) D := by
  rw [ofNat_exact _ hN, ofNat_exact _ hD]
  have : D * one ≠ 0 := Nat.mul_ne_zero h0 (Nat.ne_of_gt one_pos)
  show (if D * one = 0 then _ else round (N * one * one) (D * one)) = _
  rw [if_neg this, round_scale _ _ _ one_pos]

theorem u32_ne {i : UInt32} (h : i ≠ 0) : i.toNat ≠ 0 := fun e => h (UInt32.toNat_inj.mp e)

/-- the factor of a method is the nearest value to its ratio -/
theorem kOf_ratio {m : Method} {N D : Nat} (h : m.Ratio N D) : kOf m = some (round (N * one) D) := by
  cases h with
  | @counted i s h =>
    have hsum : (ofNat s.toNat).add (ofNat i.toNat) = ofNat (i.toNat + s.toNat) := by
      rw [ofNat_exact _ (u32_lt s), ofNat_exact _ (u32_lt i)]
      show round (s.toNat * one + i.toNat * one) 1 = round ((i.toNat + s.toNat) * one) 1
      rw [← Nat.add_mul, Nat.add_comm]
    have hb : i.toNat + s.toNat < 2 ^ 53 := by have := i.toNat_lt; have := s.toNat_lt; omega
    rw [kOf, countBasedK, if_neg h, hsum, div_exact _ _ hb (u32_lt i) (u32_ne h)]
  | chosen h => rw [kOf, randomK, if_neg h, div_exact _ _ (u32_lt _) (u32_lt _) (u32_ne h)]
  | @probable b h0 h1 =>
    rw [kOf, probabilisticK, if_pos ⟨h0, UInt64.le_iff_toNat_le.mpr h1⟩, ofBits_eq b h1, ofNat_exact 1 (by decide)]
    show some (if binary64 b = 0 then _ else round (1 * one * one) (binary64 b)) = _
    rw [if_neg (Nat.ne_of_gt (binary64_pos b h0)), Nat.one_mul, ← one_def]
  | every => rfl

theorem kOf_none {m : Method} (h : ∀ N D, ¬ m.Ratio N D) : kOf m = none := by
  cases m with
  | counted i s =>
    by_cases h0 : i = 0
    · subst h0; rfl
    · exact absurd (.counted h0) (h _ _)
  | chosen n m =>
    by_cases h0 : n = 0
    · subst h0; rfl
    · exact absurd (.chosen h0) (h _ _)
  | probable b =>
    refine if_neg fun hb => ?_
    exact h _ _ (.probable hb.1 (UInt64.le_iff_toNat_le.mp hb.2))
  | every i => exact absurd .every (h _ _)

/-- the ratio of a method is not too small -/
theorem ratio_range {m : Method} {N D : Nat} (h : m.Ratio N D) : 0 < D ∧ (N = 0 ∨ 2 ^ 60 * D ≤ N * one) := by
  have hl := one_large
  have small : ∀ N D : Nat, D < 2 ^ 64 → (N = 0 ∨ 2 ^ 60 * D ≤ N * one) := by
    intro N D hD
    by_cases h0 : N = 0
    · exact .inl h0
    · refine .inr (Nat.le_trans ?_ (Nat.le_mul_of_pos_left _ (Nat.pos_of_ne_zero h0)))
      refine Nat.le_trans (Nat.mul_le_mul_left _ (Nat.le_of_lt hD)) (Nat.le_trans ?_ hl)
      decide
  cases h with
  | @counted i s h => exact ⟨Nat.pos_of_ne_zero (u32_ne h), small _ _ (Nat.lt_trans i.toNat_lt (by decide))⟩
  | @chosen n m h => exact ⟨Nat.pos_of_ne_zero (u32_ne h), small _ _ (Nat.lt_trans n.toNat_lt (by decide))⟩
  | @probable b h0 h1 =>
    refine ⟨binary64_pos b h0, .inr ?_⟩
    rw [Nat.mul_comm]
    exact Nat.mul_le_mul (binary64_le b h1) (Nat.le_trans (Nat.pow_le_pow_right (by decide) (by decide)) hl)
  | every => exact ⟨by decide, small _ _ (by decide)⟩

/-- the method that the parameters name, as `factor` picks it -/
def methodOf (p : SamplingParameters) : Option Method :=
  match p.selector304 with
  | some alg =>
    if alg = 1 then
      match p.interval305, p.space306 with
      | some interval, some space => some (.counted interval space)
      | _, _ => none
    else if alg = 3 then
      match p.size309, p.population310 with
      | some size, some population => some (.chosen size population)
      | _, _ => none
    else if alg = 4 then p.probability311.map .probable
    else none
  | none =>
  match p.mode49 with
  | some alg => if alg = 1 ∨ alg = 2 then p.interval50.map .every else none
  | none =>
  match p.algorithm35 with
  | some alg => if alg = 1 ∨ alg = 2 then p.interval34.map .every else none
  | none =>
  match p.interval305, p.space306 with
  | some interval, some space => some (.counted interval space)
  | _, _ =>
  match p.size309, p.population310 with
  | some size, some population => some (.chosen size population)
  | _, _ =>
  match p.probability311 with
  | some probability => some (.probable probability)
  | none =>
  match p.interval50 with
  | some interval => some (.every interval)
  | none => p.interval34.map .every

theorem factor_method (p : SamplingParameters) : factor p = (methodOf p).bind kOf := by
  unfold factor methodOf
  repeat' split
  all_goals first | rfl | (simp only [Option.bind_map]; first | rfl | (cases p.interval50 <;> rfl) | (cases p.interval34 <;> rfl)) | simp_all [kOf]

theorem announces_iff (fs : List Field) (m : Method) : Announces fs m ↔ methodOf (collected fs) = some m := by
  have t34 := tracks tracks34 fs
  have t35 := tracks tracks35 fs
  have t49 := tracks tracks49 fs
  have t50 := tracks tracks50 fs
  have t304 := tracks tracks304 fs
  have t305 := tracks tracks305 fs
  have t306 := tracks tracks306 fs
  have t309 := tracks tracks309 fs
  have t310 := tracks tracks310 fs
  have t311 := tracks tracks311 fs
  generalize collected fs = p at *
  constructor
  · intro h
    cases h with
    | counted h1 h2 h3 =>
      rw [← t304.1] at h1; rw [← t305.1] at h2; rw [← t306.1] at h3
      simp [methodOf, h1, h2, h3]
    | chosen h1 h2 h3 =>
      rw [← t304.1] at h1; rw [← t309.1] at h2; rw [← t310.1] at h3
      simp [methodOf, h1, h2, h3]
    | probable h1 h2 =>
      rw [← t304.1] at h1; rw [← t311.1] at h2
      simp [methodOf, h1, h2]
    | sampler h1 h2 h3 h4 =>
      rw [← t304.2] at h1; rw [← t49.1] at h2; rw [← t50.1] at h4
      simp [methodOf, h1, h2, h3, h4]
    | sampling h1 h2 h3 h4 h5 =>
      rw [← t304.2] at h1; rw [← t49.2] at h2; rw [← t35.1] at h3; rw [← t34.1] at h5
      simp [methodOf, h1, h2, h3, h4, h5]
    | implied h1 h2 h3 h =>
      rw [← t304.2] at h1; rw [← t49.2] at h2; rw [← t35.2] at h3
      cases h with
      | counted h4 h5 =>
        rw [← t305.1] at h4; rw [← t306.1] at h5
        simp [methodOf, h1, h2, h3, h4, h5]
      | chosen h4 h5 h6 =>
        rw [← t305.2, ← t306.2] at h4; rw [← t309.1] at h5; rw [← t310.1] at h6
        rcases h4 with h4 | h4 <;> simp [methodOf, h1, h2, h3, h4, h5, h6]
      | probable h4 h5 h6 =>
        rw [← t305.2, ← t306.2] at h4; rw [← t309.2, ← t310.2] at h5; rw [← t311.1] at h6
        rcases h4 with h4 | h4 <;> rcases h5 with h5 | h5 <;> simp [methodOf, h1, h2, h3, h4, h5, h6]
      | sampler h4 h5 h6 h7 =>
        rw [← t305.2, ← t306.2] at h4; rw [← t309.2, ← t310.2] at h5; rw [← t311.2] at h6; rw [← t50.1] at h7
        rcases h4 with h4 | h4 <;> rcases h5 with h5 | h5 <;> simp [methodOf, h1, h2, h3, h4, h5, h6, h7]
      | sampling h4 h5 h6 h7 h8 =>
        rw [← t305.2, ← t306.2] at h4; rw [← t309.2, ← t310.2] at h5; rw [← t311.2] at h6; rw [← t50.2] at h7; rw [← t34.1] at h8
        rcases h4 with h4 | h4 <;> rcases h5 with h5 | h5 <;> simp [methodOf, h1, h2, h3, h4, h5, h6, h7, h8]
  · intro h
    have none2 : ∀ {α β : Type} {a : Option α} {b : Option β}, (∀ x y, a = some x → b = some y → False) → a = none ∨ b = none := by
      intro α β a b h
      cases a with
      | none => exact .inl rfl
      | some x => cases b with
        | none => exact .inr rfl
        | some y => exact (h x y rfl rfl).elim
    unfold methodOf at h
    cases h304 : p.selector304 with
    | some alg =>
      have g := (t304.1 alg).mp h304
      rw [h304] at h
      simp only at h
      split at h
      · rename_i e; subst e
        split at h
        · rename_i h1 h2
          cases h
          exact .counted g ((t305.1 _).mp h1) ((t306.1 _).mp h2)
        · cases h
      · split at h
        · rename_i e; subst e
          split at h
          · rename_i h1 h2
            cases h
            exact .chosen g ((t309.1 _).mp h1) ((t310.1 _).mp h2)
          · cases h
        · split at h
          · rename_i e; subst e
            cases h1 : p.probability311 with
            | none => rw [h1] at h; cases h
            | some b => rw [h1] at h; cases h; exact .probable g ((t311.1 _).mp h1)
          · cases h
    | none =>
      have g := t304.2.mp h304
      rw [h304] at h
      simp only at h
      cases h49 : p.mode49 with
      | some alg =>
        rw [h49] at h
        simp only at h
        split at h
        · rename_i e
          cases h1 : p.interval50 with
          | none => rw [h1] at h; cases h
          | some b => rw [h1] at h; cases h; exact .sampler g ((t49.1 _).mp h49) e ((t50.1 _).mp h1)
        · cases h
      | none =>
        have g2 := t49.2.mp h49
        rw [h49] at h
        simp only at h
        cases h35 : p.algorithm35 with
        | some alg =>
          rw [h35] at h
          simp only at h
          split at h
          · rename_i e
            cases h1 : p.interval34 with
            | none => rw [h1] at h; cases h
            | some b => rw [h1] at h; cases h; exact .sampling g g2 ((t35.1 _).mp h35) e ((t34.1 _).mp h1)
          · cases h
        | none =>
          have g3 := t35.2.mp h35
          rw [h35] at h
          simp only at h
          refine .implied g g2 g3 ?_
          split at h
          · rename_i h1 h2
            cases h
            exact .counted ((t305.1 _).mp h1) ((t306.1 _).mp h2)
          · rename_i hn
            have q1 := none2 hn
            rw [t305.2, t306.2] at q1
            split at h
            · rename_i h1 h2
              cases h
              exact .chosen q1 ((t309.1 _).mp h1) ((t310.1 _).mp h2)
            · rename_i hn
              have q2 := none2 hn
              rw [t309.2, t310.2] at q2
              split at h
              · rename_i h1
                cases h
                exact .probable q1 q2 ((t311.1 _).mp h1)
              · rename_i h1
                split at h
                · rename_i h2
                  cases h
                  exact .sampler q1 q2 (t311.2.mp h1) ((t50.1 _).mp h2)
                · rename_i h2
                  cases h3 : p.interval34 with
                  | none => rw [h3] at h; cases h
                  | some b => rw [h3] at h; cases h; exact .sampling q1 q2 (t311.2.mp h1) (t50.2.mp h2) ((t34.1 _).mp h3)

end Verif.Collector
