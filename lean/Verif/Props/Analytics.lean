import Verif.Analytics.Lemmas4
/-!
# Properties of the windowed aggregation (C20 - C23) and of the reductions (C41)
-/
namespace Verif.Props
open Verif Verif.Analytics
variable {κ ι σ ο : Type} [DecidableEq κ]

/-- some iteration order exists for every map -/
theorem exists_order : ∃ ordOf : HMap κ (BMap σ) → List (κ × BMap σ), IsOrder ordOf := by
  classical
  refine ⟨fun m => if h : ∃ l, HMap.Enum l m then h.choose else [], ?_⟩
  intro m l hl
  have h : ∃ l, HMap.Enum l m := ⟨l, hl⟩
  simp only [h, dite_true]
  exact h.choose_spec

/-- the aggregator of the examples: items are (key, time), windows count their items -/
def countAgg : Agg Nat (Nat × Nat) Nat Nat := ⟨Prod.fst, Prod.snd, 0, fun n _ => n + 1, id⟩

/-- C20: reading the adaptor to its end yields late items and windows that together account for every input
exactly once; whatever the window length and the lateness. -/
theorem c20_exactly_once (A : Agg κ ι σ ο) (ordOf : HMap κ (BMap σ) → List (κ × BMap σ)) (ho : IsOrder ordOf)
    (dur lat : Nat) (items : List ι) (outs : List (Out ι ο))
    (h : Collects A ordOf (Adaptor.new items dur lat) outs) : ∃ bs, Accounts A dur items outs bs := by
  obtain ⟨rest, hr, rfl⟩ := collects_allOuts ho h
  obtain ⟨-, bs, hb, -⟩ := run_spec ho hr
  exact ⟨bs, by simpa [Adaptor.new, outsOf] using hb⟩

/-- C20 for the stream adaptor, however often its source is pending in between. -/
theorem c20_stream (A : Agg κ ι σ ο) (ordOf : HMap κ (BMap σ) → List (κ × BMap σ)) (ho : IsOrder ordOf)
    (dur lat : Nat) (polls : Polls ι) (outs : List (Out ι ο))
    (h : StreamCollects A ordOf polls (Adaptor.new [] dur lat) outs) :
    ∃ bs, Accounts A dur (polls.filterMap id) outs bs := by
  obtain ⟨rest, hr, rfl⟩ := streamCollects_allOuts ho h
  obtain ⟨-, bs, hb, -⟩ := run_spec ho hr
  exact ⟨bs, by simpa [Adaptor.new, outsOf] using hb⟩

/-- C20: the run does end, without a panic, when the times involved stay inside chrono's range. -/
theorem c20_terminates (A : Agg κ ι σ ο) (ordOf : HMap κ (BMap σ) → List (κ × BMap σ)) (ho : IsOrder ordOf)
    (dur lat : Nat) (items : List ι)
    (h : ∀ x ∈ items, lat + dur + minuteNs ≤ A.ts x ∧ A.ts x + dur ≤ maxTime) :
    ∃ outs, Collects A ordOf (Adaptor.new items dur lat) outs := by
  obtain ⟨outs, ho'⟩ := allOuts_some ho (Inv.new A dur lat) (items := items) (by simpa using h)
  exact ⟨outs, allOuts_collects ho ho'⟩

/-- three items of two keys, out of order, one of them late -/
def exItems : List (Nat × Nat) :=
  [(1, 10 * minuteNs + 5), (2, 11 * minuteNs), (1, 14 * minuteNs), (1, 10 * minuteNs + 7), (1, 13 * minuteNs + 1)]

example : ∃ ordOf : HMap Nat (BMap Nat) → List (Nat × BMap Nat), IsOrder ordOf ∧
    ∃ outs, Collects countAgg ordOf (Adaptor.new exItems minuteNs (2 * minuteNs)) outs ∧
      latesOf outs = [(1, 10 * minuteNs + 7)] := by
  obtain ⟨ordOf, ho⟩ := exists_order (κ := Nat) (σ := Nat)
  refine ⟨ordOf, ho, ?_⟩
  obtain ⟨outs, h⟩ := c20_terminates countAgg ordOf ho minuteNs (2 * minuteNs) exItems (by decide)
  refine ⟨outs, h, ?_⟩
  obtain ⟨rest, hr, hrest⟩ := collects_allOuts ho h
  have hout : rest = outs := by rw [hrest]; simp [Adaptor.new, outsOf]
  subst hout
  rw [(run_spec ho hr).1]; decide

/-- C21: with a positive window length, no window of a key is emitted twice (the final flush included), and an
emitted window holds every accepted input of its key and minute of the whole run, so no later accepted
input falls in it; every accepted input's window is emitted. -/
theorem c21_window_once (A : Agg κ ι σ ο) (ordOf : HMap κ (BMap σ) → List (κ × BMap σ)) (ho : IsOrder ordOf)
    (dur lat : Nat) (hd : 0 < dur) (items : List ι) (outs : List (Out ι ο))
    (h : Collects A ordOf (Adaptor.new items dur lat) outs) :
    ∃ bs, Accounts A dur items outs bs ∧ (bs.map (fun b => (b.1, b.2.1))).Nodup ∧
      (∀ b ∈ bs, b.2.2 = (acceptedItems A lat [] items).filter
        (fun x => decide (A.key x = b.1 ∧ A.ts x / minuteNs * minuteNs = b.2.1))) ∧
      ∀ x ∈ acceptedItems A lat [] items, ∃ b ∈ bs, b.1 = A.key x ∧ b.2.1 = A.ts x / minuteNs * minuteNs := by
  obtain ⟨rest, hr, rfl⟩ := collects_allOuts ho h
  obtain ⟨-, bs, hb, -, hfull⟩ := run_spec ho hr
  obtain ⟨h1, h2, h3⟩ := hfull hd
  refine ⟨bs, by simpa [Adaptor.new, outsOf] using hb, h1, h2, ?_⟩
  intro x hx
  refine h3 (A.key x) (windowStart (A.ts x)) ?_
  have : x ∈ windowItems A lat items (A.key x) (windowStart (A.ts x)) := by
    unfold windowItems
    rw [List.mem_filter]
    exact ⟨hx, by simp⟩
  exact List.ne_nil_of_mem this

example : (acceptedItems countAgg (2 * minuteNs) [] exItems).length = 4 ∧ 0 < minuteNs := by decide

/-- C22: the late outputs are, in order, exactly the inputs that an earlier input of the same key is ahead of by
more than the lateness. -/
theorem c22_late (A : Agg κ ι σ ο) (ordOf : HMap κ (BMap σ) → List (κ × BMap σ)) (ho : IsOrder ordOf)
    (dur lat : Nat) (items : List ι) (outs : List (Out ι ο))
    (h : Collects A ordOf (Adaptor.new items dur lat) outs) :
    latesOf outs = lateItems A lat [] items := by
  obtain ⟨rest, hr, rfl⟩ := collects_allOuts ho h
  simpa [Adaptor.new, outsOf] using (run_spec ho hr).1

/-- C22: one key does not influence another: the late outputs of a key are those of a run over the inputs of that
key alone. -/
theorem c22_keys_independent (A : Agg κ ι σ ο) (ordOf : HMap κ (BMap σ) → List (κ × BMap σ))
    (ho : IsOrder ordOf) (dur lat : Nat) (items : List ι) (k : κ) (outs outs' : List (Out ι ο))
    (h : Collects A ordOf (Adaptor.new items dur lat) outs)
    (h' : Collects A ordOf (Adaptor.new (items.filter (fun x => decide (A.key x = k))) dur lat) outs') :
    (latesOf outs).filter (fun x => decide (A.key x = k)) = latesOf outs' := by
  rw [c22_late A ordOf ho dur lat _ _ h, c22_late A ordOf ho dur lat _ _ h']
  exact lateItems_ofKey A lat k items []

/-- C23 (part). With windows of at least a minute every item of an emitted window lies between its start and its
end; with windows of at most a minute the windows of a key do not overlap. Both hold only for exactly one
minute, see `c23_disproved`. -/
theorem c23_contains_partial (A : Agg κ ι σ ο) (ordOf : HMap κ (BMap σ) → List (κ × BMap σ))
    (ho : IsOrder ordOf) (dur lat : Nat) (items : List ι) (outs : List (Out ι ο))
    (h : Collects A ordOf (Adaptor.new items dur lat) outs) :
    ∃ bs, Accounts A dur items outs bs ∧
      (60000000000 ≤ dur → ∀ b ∈ bs, ∀ x ∈ b.2.2, b.2.1 ≤ A.ts x ∧ A.ts x < b.2.1 + dur) ∧
      (0 < dur → dur ≤ 60000000000 →
        bs.Pairwise (fun b c => b.1 = c.1 → b.2.1 + dur ≤ c.2.1 ∨ c.2.1 + dur ≤ b.2.1)) := by
  obtain ⟨rest, hr, rfl⟩ := collects_allOuts ho h
  obtain ⟨-, bs, hb, hw, hfull⟩ := run_spec ho hr
  refine ⟨bs, by simpa [Adaptor.new, outsOf] using hb, ?_, ?_⟩
  · intro hd b hb' x hx
    have h1 := windowStart_le (A.ts x)
    have h2 := lt_windowStart_add (A.ts x)
    rw [hw b hb' x hx] at h1 h2
    unfold minuteNs at h2
    exact ⟨h1, by omega⟩
  · intro hd hd' 
    obtain ⟨h1, -, -⟩ := hfull hd
    unfold List.Nodup at h1
    rw [List.pairwise_map] at h1
    have hmul : ∀ b ∈ bs, ∃ n, b.2.1 = n * minuteNs := by
      intro b hb'
      obtain ⟨x, hx⟩ := List.exists_mem_of_ne_nil _ (hb.nonempty b hb')
      exact ⟨_, (hw b hb' x hx).symm⟩
    refine List.Pairwise.imp_of_mem ?_ h1
    intro b c hb' hc' hne hk
    obtain ⟨n, hn⟩ := hmul b hb'
    obtain ⟨m, hm⟩ := hmul c hc'
    have hnm : n ≠ m := by
      rintro rfl
      exact hne (Prod.ext hk (hn.trans hm.symm))
    rw [hn, hm]
    unfold minuteNs
    omega

/-- C23 is false as stated for other durations: (1) with 30-second windows an item can be aggregated in a window that
does not contain its timestamp; (2) with two-minute windows, two windows of one key overlap. -/
theorem c23_disproved (ordOf : HMap Nat (BMap Nat) → List (Nat × BMap Nat)) (ho : IsOrder ordOf) :
    (∃ items outs, Collects countAgg ordOf (Adaptor.new items (minuteNs / 2) 0) outs ∧
      ∀ bs, Accounts countAgg (minuteNs / 2) items outs bs →
        ∃ b ∈ bs, ∃ x ∈ b.2.2, ¬ (b.2.1 ≤ x.2 ∧ x.2 < b.2.1 + minuteNs / 2)) ∧
    (∃ items outs s t, Collects countAgg ordOf (Adaptor.new items (2 * minuteNs) 0) outs ∧ s < t ∧
      t < s + 2 * minuteNs ∧ Out.win (s, s + 2 * minuteNs) 1 ∈ outs ∧ Out.win (t, t + 2 * minuteNs) 1 ∈ outs ∧
      ∀ x ∈ items, countAgg.key x = 1) := by
  have memWins : ∀ {o : Out (Nat × Nat) Nat} {outs}, o ∈ winsOf outs → o ∈ outs := by
    intro o outs
    induction outs with
    | nil => simp [winsOf]
    | cons p outs ih =>
      cases p with
      | win w v => simp only [winsOf, List.mem_cons]; exact Or.imp id ih
      | late x => simp only [winsOf, List.mem_cons]; exact fun h => .inr (ih h)
  constructor
  · obtain ⟨outs, h⟩ := c20_terminates countAgg ordOf ho (minuteNs / 2) 0
      [(1, 10 * minuteNs + 45000000000)] (by decide)
    refine ⟨_, outs, h, ?_⟩
    intro bs hb
    obtain ⟨rest, hr, hrest⟩ := collects_allOuts ho h
    have hout : rest = outs := by rw [hrest]; simp [Adaptor.new, outsOf]
    subst hout
    obtain ⟨bs', hb', -, hfull, hmiss⟩ := c21_window_once countAgg ordOf ho (minuteNs / 2) 0 (by decide) _ _ h
    -- the only windows are those of `bs'`, all starting at minute 10
    have hstart : ∀ b ∈ bs', b.2.1 = 10 * minuteNs := by
      intro b hbm
      obtain ⟨x, hx⟩ := List.exists_mem_of_ne_nil _ (hb'.nonempty b hbm)
      rw [hfull b hbm] at hx
      obtain ⟨hx1, hx2⟩ := List.mem_filter.mp hx
      have hx3 := (acceptedItems_sublist countAgg 0 _ _).subset hx1
      simp only [List.mem_singleton] at hx3
      subst hx3
      simp only [decide_eq_true_eq] at hx2
      rw [← hx2.2]; decide
    have hlate : latesOf rest = [] := by
      rw [c22_late countAgg ordOf ho _ _ _ _ h]; decide
    have honce := hb.once
    rw [hlate, List.nil_append] at honce
    have hmem : ((1, 10 * minuteNs + 45000000000) : Nat × Nat) ∈ bs.flatMap (fun b => b.2.2) :=
      honce.mem_iff.mpr (by simp)
    obtain ⟨b, hbm, hxb⟩ := List.mem_flatMap.mp hmem
    refine ⟨b, hbm, _, hxb, ?_⟩
    have hwin : Batch.out countAgg (minuteNs / 2) b ∈ bs'.map (Batch.out countAgg (minuteNs / 2)) := by
      rw [← hb'.windows, hb.windows]; exact List.mem_map_of_mem hbm
    obtain ⟨b', hbm', he⟩ := List.mem_map.mp hwin
    simp only [Batch.out, Out.win.injEq, Prod.mk.injEq] at he
    rw [← he.1.1, hstart b' hbm']
    decide
  · obtain ⟨outs, h⟩ := c20_terminates countAgg ordOf ho (2 * minuteNs) 0
      [(1, 10 * minuteNs), (1, 11 * minuteNs)] (by decide)
    refine ⟨_, outs, 10 * minuteNs, 11 * minuteNs, h, by decide, by decide, ?_, ?_, by decide⟩
    all_goals
      obtain ⟨bs, hb, -, hfull, hmiss⟩ := c21_window_once countAgg ordOf ho (2 * minuteNs) 0 (by decide) _ _ h
      apply memWins
      rw [hb.windows]
    · obtain ⟨b, hbm, h1, h2⟩ := hmiss (1, 10 * minuteNs) (by decide)
      have h3 := hfull b hbm
      rw [h1, h2] at h3
      refine List.mem_map.mpr ⟨b, hbm, ?_⟩
      unfold Batch.out
      rw [h3, h2]; decide
    · obtain ⟨b, hbm, h1, h2⟩ := hmiss (1, 11 * minuteNs) (by decide)
      have h3 := hfull b hbm
      rw [h1, h2] at h3
      refine List.mem_map.mpr ⟨b, hbm, ?_⟩
      unfold Batch.out
      rw [h3, h2]; decide

/-- C41: reducing any number of rows with add, min, max or bit-or into an empty accumulator yields, at every position,
the combination of exactly the values the rows have at that position; the result is absent iff no row has values. -/
theorem c41_reduce_columns {τ : Type} (f : τ → τ → τ) (rows : List (Option (List τ))) :
    ((rows.foldl (aggr f) none).isSome ↔ ∃ r ∈ rows, r.isSome) ∧
    ∀ i, (rows.foldl (aggr f) none).bind (fun l => l[i]?) = reduce1 f (column rows i) :=
  aggr_fold f rows

/-- C41: for a commutative and associative operation the order in which rows arrive does not matter. -/
theorem c41_order_irrelevant {τ : Type} (f : τ → τ → τ) (hc : ∀ a b, f a b = f b a)
    (ha : ∀ a b c, f (f a b) c = f a (f b c)) (rows rows' : List (Option (List τ))) (h : rows.Perm rows') :
    rows.foldl (aggr f) none = rows'.foldl (aggr f) none :=
  aggr_fold_perm hc ha h

theorem min64 (a b : UInt64) : min a b = if a ≤ b then a else b := rfl
theorem max64 (a b : UInt64) : max a b = if a ≤ b then b else a := rfl

/-- C41 for the operations on 64-bit fields (addition as in release builds, wrapping): the counters, minima,
maxima and bit maps of a window do not depend on the order of its flows. -/
theorem c41_order_irrelevant_u64 (rows rows' : List (Option (List UInt64))) (h : rows.Perm rows') :
    rows.foldl (aggr (· + ·)) none = rows'.foldl (aggr (· + ·)) none ∧
    rows.foldl (aggr min) none = rows'.foldl (aggr min) none ∧
    rows.foldl (aggr max) none = rows'.foldl (aggr max) none ∧
    rows.foldl (aggr (· ||| ·)) none = rows'.foldl (aggr (· ||| ·)) none := by
  refine ⟨aggr_fold_perm UInt64.add_comm UInt64.add_assoc h, aggr_fold_perm ?_ ?_ h, aggr_fold_perm ?_ ?_ h,
    aggr_fold_perm UInt64.or_comm UInt64.or_assoc h⟩
  · intro a b
    simp only [min64, UInt64.le_iff_toNat_le]
    repeat' split
    all_goals first | rfl | (apply UInt64.toNat_inj.mp; omega) | omega
  · intro a b c
    simp only [min64, UInt64.le_iff_toNat_le]
    repeat' split
    all_goals first | rfl | (apply UInt64.toNat_inj.mp; omega) | omega
  · intro a b
    simp only [max64, UInt64.le_iff_toNat_le]
    repeat' split
    all_goals first | rfl | (apply UInt64.toNat_inj.mp; omega) | omega
  · intro a b c
    simp only [max64, UInt64.le_iff_toNat_le]
    repeat' split
    all_goals first | rfl | (apply UInt64.toNat_inj.mp; omega) | omega

/-- C41: which operations the three reductions accept: a refused operation is an error whatever the values, never a
silent change. -/
theorem c41_supported {τ : Type} (f g h o : τ → τ → τ) (op : AggrOp) (l r : Option (List τ)) :
    (reduceNum f g h op l r = .error .operationNotSupported ↔ op = .boolMapOr) ∧
    (reduceBoolmap o op l r = .error .operationNotSupported ↔ op = .add ∨ op = .min ∨ op = .max) ∧
    (reduceMisc op l r = .error .operationNotSupported ↔ ∀ i, op ≠ .key i) := by
  cases op <;> simp [reduceNum, reduceBoolmap, reduceMisc]

example : ([some [1, 1], none, some [1, 1, 1]].foldl (aggr (· + ·)) none : Option (List UInt64)) = some [2, 2, 1] := by
  decide

end Verif.Props
