import Verif.Collector.SamplingLemmas
/-!
# Renormalization of sampled flows

C101 to C105.
-/
namespace Verif.Props
open Collector Collector.Sampling
open Flow (Field Value DataRecord FlowSet IpfixPacket NetflowPacket)

attribute [local irreducible] F64.one F64.top

theorem scaleField_recount (k : F64) (f : Field) : (scaleField k f).getD f = recount (scale k) f ∧ ((scaleField k f).isSome = true ↔ ∃ c, Counter f c) := by
  have no : ∀ f : Field, (∀ c, f ≠ .known 0 1 (.unsigned64 c)) → (∀ c, f ≠ .known 0 85 (.unsigned64 c)) → (∀ c, f ≠ .known 0 2 (.unsigned64 c)) →
      (∀ c, f ≠ .known 0 86 (.unsigned64 c)) → recount (scale k) f = f ∧ ¬ ∃ c, Counter f c := by
    intro f h1 h2 h3 h4
    constructor
    · unfold recount
      split
      · rename_i pen id c
        refine if_neg fun h => ?_
        obtain ⟨rfl, h⟩ := h
        simp only [List.mem_cons, List.not_mem_nil, or_false] at h
        rcases h with rfl | rfl | rfl | rfl
        · exact h1 _ rfl
        · exact h3 _ rfl
        · exact h2 _ rfl
        · exact h4 _ rfl
      · rfl
    · rintro ⟨c, id, h, rfl⟩
      simp only [List.mem_cons, List.not_mem_nil, or_false] at h
      rcases h with rfl | rfl | rfl | rfl
      · exact h1 _ rfl
      · exact h3 _ rfl
      · exact h2 _ rfl
      · exact h4 _ rfl
  unfold scaleField
  split
  · exact ⟨rfl, by simp only [Option.isSome_some, true_iff]; exact ⟨_, _, by simp, rfl⟩⟩
  · exact ⟨rfl, by simp only [Option.isSome_some, true_iff]; exact ⟨_, _, by simp, rfl⟩⟩
  · exact ⟨rfl, by simp only [Option.isSome_some, true_iff]; exact ⟨_, _, by simp, rfl⟩⟩
  · exact ⟨rfl, by simp only [Option.isSome_some, true_iff]; exact ⟨_, _, by simp, rfl⟩⟩
  · rename_i h1 h2 h3 h4
    obtain ⟨e, hn⟩ := no f (fun c e => h1 c e) (fun c e => h2 c e) (fun c e => h3 c e) (fun c e => h4 c e)
    exact ⟨e.symm, by simpa using hn⟩

theorem recount_same {fs : List Field} (h : ¬ Counted fs) (r : UInt64 → UInt64) : fs.map (recount r) = fs := by
  conv => rhs; rw [← List.map_id fs]
  refine List.map_congr_left fun f hf => ?_
  show recount r f = f
  unfold recount
  split
  · rename_i pen id c
    refine if_neg fun e => h ⟨_, hf, c, id, e.2, by rw [e.1]⟩
  · rfl

/-- what becomes of a record with a ratio -/
theorem renormFields_ratio {fs : List Field} {m : Method} {n d : Nat} (ha : Announces fs m) (hr : m.Ratio n d) :
    (Counted fs → renormFields fs = fs.map (recount (scale (F64.round (n * F64.one) d))) ++ [mark]) ∧ (¬ Counted fs → renormFields fs = fs) := by
  have hf : factor (fs.foldl SamplingParameters.note {}) = some (F64.round (n * F64.one) d) := by
    have := (announces_iff fs m).mp ha
    rw [factor_method]
    show (methodOf (collected fs)).bind kOf = _
    rw [this]
    exact kOf_ratio hr
  have hm : (fs.map fun f => (scaleField (F64.round (n * F64.one) d) f).getD f) = fs.map (recount (scale (F64.round (n * F64.one) d))) :=
    List.map_congr_left fun f _ => (scaleField_recount _ f).1
  have hc : (fs.any fun f => (scaleField (F64.round (n * F64.one) d) f).isSome) = true ↔ Counted fs := by
    rw [List.any_eq_true]
    exact ⟨fun ⟨f, h1, h2⟩ => ⟨f, h1, (scaleField_recount _ f).2.mp h2⟩, fun ⟨f, h1, h2⟩ => ⟨f, h1, (scaleField_recount _ f).2.mpr h2⟩⟩
  unfold renormFields
  rw [hf]
  dsimp only
  rw [hm]
  constructor
  · intro h
    rw [if_pos (hc.mpr h)]; rfl
  · intro h
    rw [if_neg (fun e => h (hc.mp e)), recount_same h]

theorem renormFields_none {fs : List Field} (h : ∀ m n d, Announces fs m → ¬ m.Ratio n d) : renormFields fs = fs := by
  have hf : factor (fs.foldl SamplingParameters.note {}) = none := by
    rw [factor_method]
    show (methodOf (collected fs)).bind kOf = _
    cases hm : methodOf (collected fs) with
    | none => rfl
    | some m => exact kOf_none fun n d => h m n d ((announces_iff fs m).mpr hm)
  unfold renormFields
  rw [hf]

/-! ## C101 -/

/-- `r` is what the counters of a record are changed by -/
def ChangedBy (fs : List Field) (r : UInt64 → UInt64) : Prop :=
  (Counted fs → renormFields fs = fs.map (recount r) ++ [mark]) ∧ (¬ Counted fs → renormFields fs = fs)

/-- C101: the counters of a record that announces a usable method of sampling are multiplied by its ratio, but for one part in `2^51` and the part after the
point, and up to the largest counter; exactly so when the ratio is a whole number and the result below `2^53`, and for other ratios the result is rounded down,
or one less where it would have been a whole number. Not the claim in full: see `c101_disproved`. -/
theorem c101_scaled_partial (fs : List Field) (m : Method) (n d : Nat) (ha : Announces fs m) (hr : m.Ratio n d) :
    ∃ r : UInt64 → UInt64, ChangedBy fs r ∧ ∀ c : UInt64,
      Near n d c.toNat (r c).toNat ∧
      (d ∣ n → c.toNat * (n / d) < 2 ^ 53 → (r c).toNat = c.toNat * (n / d)) ∧
      (c.toNat * n < 2 ^ 51 → (r c).toNat = c.toNat * n / d ∨ d ∣ c.toNat * n ∧ (r c).toNat + 1 = c.toNat * n / d) := by
  obtain ⟨hd, hR⟩ := ratio_range hr
  refine ⟨_, renormFields_ratio ha hr, fun c => ?_⟩
  have hn := scale_near n d hd hR c
  refine ⟨hn, ?_, ?_⟩
  · rintro ⟨q, rfl⟩ hq
    rw [Nat.mul_div_cancel_left _ hd] at hq ⊢
    rw [Nat.mul_comm d q]
    exact scale_exact d q hd c hq
  · intro h
    obtain ⟨h1, h2⟩ := hn
    generalize (scale (F64.round (n * F64.one) d) c).toNat = r at *
    generalize c.toNat * n = y at *
    have h3 : r * d ≤ y := by omega
    have h4 : r ≠ most := by
      intro e
      have : most * 1 ≤ r * d := e ▸ Nat.mul_le_mul_left _ hd
      unfold most at this
      omega
    have h5 : y ≤ (r + 1) * d := by
      rcases h2 with h2 | h2
      · exact absurd h2 h4
      · omega
    by_cases he : y = (r + 1) * d
    · refine .inr ⟨⟨r + 1, by rw [he, Nat.mul_comm]⟩, ?_⟩
      rw [he, Nat.mul_div_cancel _ hd]
    · refine .inl ?_
      exact ((Nat.div_eq_iff hd).mpr (by rw [Nat.add_mul] at h5 he; omega)).symm

/-- a record of a router that takes one of 1000 packets -/
def c101Record : List Field := [.known 0 2 (.unsigned64 7), .known 0 34 (.unsigned32 1000), .known 0 1 (.unsigned64 900)]

theorem c101_announces : Announces c101Record (.every 1000) := (announces_iff _ _).mpr (by decide)

example : renormFields c101Record = [.known 0 2 (.unsigned64 7000), .known 0 34 (.unsigned32 1000), .known 0 1 (.unsigned64 900000), mark] := by
  decide +kernel

/-- 7 of each 61 packets are taken, and 7 were counted -/
def c101Off : List Field := [.known 0 309 (.unsigned32 7), .known 0 310 (.unsigned32 61), .known 0 2 (.unsigned64 7)]

/-- a counter of 2^53 + 1 of a record of all packets -/
def c101Large : List Field := [.known 0 50 (.unsigned32 1), .known 0 2 (.unsigned64 9007199254740993)]

/-- C101 fails: 7 packets of a sample of 7 out of 61 become 60, and a counter above `2^53` changes although nothing was sampled -/
theorem c101_disproved :
    (¬ ∀ fs m n d, Announces fs m → m.Ratio n d → ∀ c : UInt64, c.toNat * n / d ≤ most →
      .known 0 2 (.unsigned64 c) ∈ fs → .known 0 2 (.unsigned64 (UInt64.ofNat (c.toNat * n / d))) ∈ renormFields fs) ∧
    (Announces c101Off (.chosen 7 61) ∧ renormFields c101Off = [.known 0 309 (.unsigned32 7), .known 0 310 (.unsigned32 61), .known 0 2 (.unsigned64 60), mark]) ∧
    (Announces c101Large (.every 1) ∧ renormFields c101Large = [.known 0 50 (.unsigned32 1), .known 0 2 (.unsigned64 9007199254740992), mark]) := by
  have ha : Announces c101Off (.chosen 7 61) := (announces_iff _ _).mpr (by decide)
  have he : renormFields c101Off = [.known 0 309 (.unsigned32 7), .known 0 310 (.unsigned32 61), .known 0 2 (.unsigned64 60), mark] := by decide +kernel
  refine ⟨fun h => ?_, ⟨ha, he⟩, (announces_iff _ _).mpr (by decide), by decide +kernel⟩
  have := h c101Off (.chosen 7 61) 61 7 ha (.chosen (by decide)) 7 (by decide) (by decide)
  rw [he] at this
  exact absurd this (by decide)

/-! ## C102 -/

/-- C102: a record from which no ratio can be told is left alone: one that says nothing of sampling, names an algorithm that is not known, lacks a parameter, or
has an interval of no packets, a sample of no packets or a probability that is none. Not the claim in full: see `c102_disproved`. -/
theorem c102_unsaid_partial (fs : List Field) (h : ∀ m n d, Announces fs m → ¬ m.Ratio n d) : renormFields fs = fs := renormFields_none h

example : ∀ m n d, Announces [.known 0 309 (.unsigned32 0), .known 0 310 (.unsigned32 10), .known 0 2 (.unsigned64 7)] m → ¬ m.Ratio n d := by
  intro m n d h hr
  have h1 := (announces_iff _ _).mp h
  rw [show methodOf (collected _) = some (.chosen 0 10) by decide] at h1
  cases h1
  cases hr
  rename_i h
  exact h rfl

/-- C102: where a ratio is not below one, no counter below `2^53` becomes smaller. Not the claim in full: see `c102_disproved`. -/
theorem c102_grows_partial (fs : List Field) (m : Method) (n d : Nat) (ha : Announces fs m) (hr : m.Ratio n d) (h1 : d ≤ n) :
    ∃ r : UInt64 → UInt64, ChangedBy fs r ∧ ∀ c : UInt64, c.toNat < 2 ^ 53 → c ≤ r c := by
  refine ⟨_, renormFields_ratio ha hr, fun c hc => ?_⟩
  exact scale_grows n d (ratio_range hr).1 h1 c hc

example : ∃ n d, Method.Ratio (.every 1000) n d ∧ d ≤ n := ⟨_, _, .every, by decide⟩

/-- C102 fails: an interval of 0, or a sample larger than what it is taken from, is used, and the counters of the record are lost -/
theorem c102_disproved :
    (¬ ∀ fs (c : UInt64), .known 0 2 (.unsigned64 c) ∈ fs → ∃ c' : UInt64, c ≤ c' ∧ .known 0 2 (.unsigned64 c') ∈ renormFields fs) ∧
    renormFields [.known 0 34 (.unsigned32 0), .known 0 2 (.unsigned64 1000), .known 0 1 (.unsigned64 64000)] =
      [.known 0 34 (.unsigned32 0), .known 0 2 (.unsigned64 0), .known 0 1 (.unsigned64 0), mark] ∧
    renormFields [.known 0 49 (.unsigned8 2), .known 0 50 (.unsigned32 0), .known 0 2 (.unsigned64 1000)] =
      [.known 0 49 (.unsigned8 2), .known 0 50 (.unsigned32 0), .known 0 2 (.unsigned64 0), mark] ∧
    renormFields [.known 0 309 (.unsigned32 10), .known 0 310 (.unsigned32 5), .known 0 2 (.unsigned64 1000)] =
      [.known 0 309 (.unsigned32 10), .known 0 310 (.unsigned32 5), .known 0 2 (.unsigned64 500), mark] := by
  have e : renormFields [.known 0 34 (.unsigned32 0), .known 0 2 (.unsigned64 1000), .known 0 1 (.unsigned64 64000)] =
      [.known 0 34 (.unsigned32 0), .known 0 2 (.unsigned64 0), .known 0 1 (.unsigned64 0), mark] := by decide +kernel
  refine ⟨fun h => ?_, e, by decide +kernel, by decide +kernel⟩
  obtain ⟨c', h1, h2⟩ := h [.known 0 34 (.unsigned32 0), .known 0 2 (.unsigned64 1000), .known 0 1 (.unsigned64 64000)] 1000 (by decide)
  rw [e] at h2
  simp [mark] at h2
  subst h2
  exact absurd h1 (by decide)

/-! ## C103 -/

theorem renewed (fs : List Field) : Renewed fs (renormFields fs) := by
  by_cases h : ∀ m n d, Announces fs m → ¬ m.Ratio n d
  · rw [renormFields_none h]; exact .unsaid h
  · simp only [Classical.not_forall, Classical.not_not] at h
    obtain ⟨m, n, d, ha, hr⟩ := h
    obtain ⟨h1, h2⟩ := renormFields_ratio ha hr
    by_cases hc : Counted fs
    · rw [h1 hc]
      exact .scaled _ ha hr (scale_near n d (ratio_range hr).1 (ratio_range hr).2) hc
    · rw [h2 hc]; exact .uncounted hc

section
variable {κ φ σ : Type}

theorem records_renewed (rs : List (DataRecord φ)) :
    RecordsRenewed rs ((rs.filter fun r => r.scope.isEmpty).map fun r => ⟨r.scope, renormFields r.fields⟩) := by
  induction rs with
  | nil => exact .nil
  | cons r rs ih =>
    obtain ⟨s, fs⟩ := r
    cases s with
    | nil => exact .record (renewed fs) ih
    | cons x s => exact .options (by simp) ih

theorem sets_renewed (l : List (FlowSet κ φ)) : SetsRenewed l (l.filterMap renormSet) := by
  induction l with
  | nil => exact .nil
  | cons x l ih =>
    cases x with
    | template t => exact .template ih
    | options t => exact .options ih
    | data id rs => exact .data (records_renewed rs) ih

theorem info_renewed (p : Info) : InfoRenewed p (renormalize p) := by
  cases p with
  | ipfix p => exact ⟨rfl, rfl, rfl, sets_renewed _⟩
  | netflow p => exact ⟨rfl, rfl, rfl, rfl, sets_renewed _⟩

/-- C103: for each packet the actor sends one to the same peer, in the order in which they came and until it stops; it has the header, the sets of data and the
records without scope, each with its own fields in order, in which only the counters change, and a mark behind them exactly if they do -/
theorem c103_sent (ps out : List (σ × Info)) (h : RenormRuns ps out) :
    out.length ≤ ps.length ∧ ∀ (i : Nat) (peer : σ) (q : Info), out[i]? = some (peer, q) → ∃ p, ps[i]? = some (peer, p) ∧ InfoRenewed p q := by
  induction h with
  | stop => simp
  | @packet peer p ps out h ih =>
    refine ⟨by simpa using ih.1, fun i peer' q hq => ?_⟩
    cases i with
    | zero =>
      simp only [List.getElem?_cons_zero, Option.some.injEq, Prod.mk.injEq] at hq
      obtain ⟨rfl, rfl⟩ := hq
      exact ⟨p, rfl, info_renewed p⟩
    | succ i => simpa using ih.2 i peer' q (by simpa using hq)

/-- C103: nothing but a stop keeps a packet from being sent -/
theorem c103_all (ps : List (σ × Info)) : ∃ out, RenormRuns ps out ∧ out.length = ps.length := by
  induction ps with
  | nil => exact ⟨[], .stop, rfl⟩
  | cons x ps ih =>
    obtain ⟨out, h1, h2⟩ := ih
    exact ⟨_, .packet h1, by simp [h2]⟩

end

/-- a packet with a template, a record of options and a record of sampled packets -/
def c103Packet : IpfixPacket := ⟨⟨0, 0⟩, 1, 2, [.template [], .data 256 [⟨[.known 0 1 (.unsigned8 1)], []⟩, ⟨[], c101Record⟩]]⟩

example : ∃ q, RenormRuns [(7, .ipfix c103Packet)] [(7, .ipfix q)] ∧ q.sequence = 1 ∧
    q.sets = [.data 256 [⟨[], [.known 0 2 (.unsigned64 7000), .known 0 34 (.unsigned32 1000), .known 0 1 (.unsigned64 900000), mark]⟩]] := by
  refine ⟨_, .packet .stop, rfl, ?_⟩
  decide +kernel

/-! ## C104 -/

/-- C104: records that announce the same sampling are changed in the same way, and what was larger is not smaller afterwards; no traffic stays none -/
theorem c104_order (fs fs' : List Field) (m : Method) (n d : Nat) (ha : Announces fs m) (ha' : Announces fs' m) (hr : m.Ratio n d) :
    ∃ r : UInt64 → UInt64, ChangedBy fs r ∧ ChangedBy fs' r ∧ r 0 = 0 ∧ ∀ c c', c ≤ c' → r c ≤ r c' := by
  refine ⟨_, renormFields_ratio ha hr, renormFields_ratio ha' hr, ?_, fun c c' h => UInt64.le_iff_toNat_le.mpr (scale_mono _ _ c c' h)⟩
  obtain ⟨hd, hR⟩ := ratio_range hr
  have h := (scale_near n d hd hR 0).1
  have h0 : (0 : UInt64).toNat = 0 := rfl
  rw [h0, Nat.zero_mul, Nat.mul_zero] at h
  have : (scale (F64.round (n * F64.one) d) 0).toNat * d = 0 := by omega
  rcases Nat.mul_eq_zero.mp this with e | e
  · exact UInt64.toNat_inj.mp e
  · omega

example : Announces [.known 0 50 (.unsigned32 1000), .known 0 86 (.unsigned64 1)] (.every 1000) ∧ Announces c101Record (.every 1000) :=
  ⟨(announces_iff _ _).mpr (by decide), c101_announces⟩

/-! ## C105 -/

theorem note_recount (r : UInt64 → UInt64) (p : SamplingParameters) (f : Field) : p.note (recount r f) = p.note f := by
  unfold recount
  split
  · rename_i pen id c
    split
    · rename_i h
      obtain ⟨rfl, h⟩ := h
      simp only [List.mem_cons, List.not_mem_nil, or_false] at h
      rcases h with rfl | rfl | rfl | rfl <;> rfl
    · rfl
  · rfl

theorem collected_again (fs : List Field) (r : UInt64 → UInt64) : collected (fs.map (recount r) ++ [mark]) = collected fs := by
  rw [collected_snoc]
  show (collected (fs.map (recount r))) = collected fs
  have : ∀ (fs : List Field) p, (fs.map (recount r)).foldl SamplingParameters.note p = fs.foldl SamplingParameters.note p := by
    intro fs
    induction fs with
    | nil => exact fun _ => rfl
    | cons f fs ih => intro p; simp only [List.map_cons, List.foldl_cons, note_recount, ih]
  exact this fs _

theorem recount_counter (r : UInt64 → UInt64) {f : Field} {c : UInt64} (h : Counter f c) : Counter (recount r f) (r c) := by
  obtain ⟨id, h, rfl⟩ := h
  refine ⟨id, h, ?_⟩
  show (if (0 : UInt32) = 0 ∧ id ∈ [1, 2, 85, 86] then _ else _) = _
  rw [if_pos ⟨rfl, h⟩]

theorem recount_recount (r : UInt64 → UInt64) (f : Field) : recount r (recount r f) = recount (fun c => r (r c)) f := by
  cases f with
  | known pen id v =>
    cases v with
    | unsigned64 c =>
      by_cases h : pen = 0 ∧ id ∈ [1, 2, 85, 86]
      · obtain ⟨rfl, h⟩ := h
        simp only [recount, h, and_self, if_true]
      · simp only [recount, h, if_false]
    | _ => rfl
  | _ => rfl

/-- C105: a record that announces sampling is scaled each time: what was marked before is scaled again, and marked again. Not the claim: see
`c105_disproved`. -/
theorem c105_again_partial (fs : List Field) (m : Method) (n d : Nat) (ha : Announces fs m) (hr : m.Ratio n d) (hc : Counted fs) :
    ∃ r : UInt64 → UInt64, ChangedBy fs r ∧ renormFields (renormFields fs) = fs.map (recount fun c => r (r c)) ++ [mark, mark] := by
  refine ⟨_, renormFields_ratio ha hr, ?_⟩
  have h1 := (renormFields_ratio ha hr).1 hc
  generalize hk : scale (F64.round (n * F64.one) d) = r at h1
  have ha' : Announces (fs.map (recount r) ++ [mark]) m := by
    rw [announces_iff, collected_again, ← announces_iff]; exact ha
  have hc' : Counted (fs.map (recount r) ++ [mark]) := by
    obtain ⟨f, hf, c, h⟩ := hc
    exact ⟨recount r f, List.mem_append_left _ (List.mem_map_of_mem hf), r c, recount_counter r h⟩
  rw [h1, (renormFields_ratio ha' hr).1 hc', hk]
  simp only [List.map_append, List.map_map, List.map_cons, List.map_nil, List.append_assoc]
  congr 1
  · exact List.map_congr_left fun f _ => recount_recount r f

/-- C105: a record comes out as it went in exactly if it has no counters or tells no ratio, whether it is marked or not. Not the claim: see
`c105_disproved`. -/
theorem c105_stable_partial (fs : List Field) : renormFields fs = fs ↔ ¬ Counted fs ∨ ∀ m n d, Announces fs m → ¬ m.Ratio n d := by
  constructor
  · intro h
    by_cases hr : ∀ m n d, Announces fs m → ¬ m.Ratio n d
    · exact .inr hr
    · simp only [Classical.not_forall, Classical.not_not] at hr
      obtain ⟨m, n, d, ha, hr⟩ := hr
      refine .inl fun hc => ?_
      have h1 := (renormFields_ratio ha hr).1 hc
      rw [h] at h1
      have := congrArg List.length h1
      simp at this
  · rintro (h | h)
    · by_cases hr : ∀ m n d, Announces fs m → ¬ m.Ratio n d
      · exact renormFields_none hr
      · simp only [Classical.not_forall, Classical.not_not] at hr
        obtain ⟨m, n, d, ha, hr⟩ := hr
        exact (renormFields_ratio ha hr).2 h
    · exact renormFields_none h

/-- C105 fails: 7 packets of a sample of one of 1000 become 7000, and 7000000 if the record comes by again -/
theorem c105_disproved :
    (¬ ∀ fs, mark ∈ fs → renormFields fs = fs) ∧
    renormFields (renormFields c101Record) =
      [.known 0 2 (.unsigned64 7000000), .known 0 34 (.unsigned32 1000), .known 0 1 (.unsigned64 900000000), mark, mark] := by
  have e : renormFields (renormFields c101Record) =
      [.known 0 2 (.unsigned64 7000000), .known 0 34 (.unsigned32 1000), .known 0 1 (.unsigned64 900000000), mark, mark] := by decide +kernel
  have e1 : renormFields c101Record = [.known 0 2 (.unsigned64 7000), .known 0 34 (.unsigned32 1000), .known 0 1 (.unsigned64 900000), mark] := by
    decide +kernel
  refine ⟨fun h => ?_, e⟩
  have := h (renormFields c101Record) (by rw [e1]; decide)
  rw [e, e1] at this
  exact absurd this (by decide)

example : Counted c101Record := ⟨_, List.mem_cons_self, 7, 2, by decide, rfl⟩

end Verif.Props
