import Verif.Collector.AggSpec
import Verif.Collector.Lemmas
import Verif.Analytics.Lemmas4
/-! # Aggregation of flow records: lemmas -/
namespace Verif.Collector
open Flow (Field Ie Time FlowSet)
open FlowSpec Hist Analytics

/-! ## Items of records -/

/-- the item of a record -/
def itemOf (keys : List (FieldRef Ie)) (aggs : List AggRef) (r : Flat) : Item where
  key := ⟨r.peer.ip, r.proto, keysOf keys r⟩
  data :=
    { ports := [r.peer.port], domains := [r.domain], templates := [r.template], minExport := r.exported, maxExport := r.exported
      minCollection := r.collected, maxCollection := r.collected, upTime := r.upTime
      fields := aggs.map fun a => nth r.fields a.ref.ie a.ref.index, count := 1 }

theorem dataRecords_eq {κ φ : Type} (sets : List (FlowSet κ φ)) : dataRecords sets = recordsIn sets := by
  induction sets with
  | nil => rfl
  | cons s l ih => cases s <;> simp [dataRecords, recordsIn, ih] <;> rfl

theorem look_nth (fields : List Field) (r : FieldRef Ie) : (mapFields fields).look r = nth fields r.ie r.index := mapFields_lookup fields r

theorem explode_eq (i : Input) (keys : List (FieldRef Ie)) (aggs : List AggRef) :
    explode i.info i.peer keys aggs i.now = (flatsOf i).map (itemOf keys aggs) := by
  unfold explode flatsOf
  split <;> rename_i h <;>
    · rw [h]
      simp only [Info.records, Info.proto, Info.domain, Info.exported, Info.upTime, dataRecords_eq, List.map_map]
      apply List.map_congr_left
      intro x _
      simp only [Function.comp, itemOf, keysOf]
      have hl : (mapFields x.2).look = fun r : FieldRef Ie => nth x.2 r.ie r.index := funext (look_nth _)
      simp only [hl]

theorem itemsOf_eq (keys : List (FieldRef Ie)) (aggs : List AggRef) (ins : List Input) : itemsOf keys aggs ins = (flats ins).map (itemOf keys aggs) := by
  induction ins with
  | nil => rfl
  | cons i l ih =>
    simp only [itemsOf, flats, List.flatMap_cons, List.map_append] at ih ⊢
    rw [ih, explode_eq]

/-! ## Times -/

theorem ticks_eq {t : Time} (h : Chrono t) : (ticks t : Int) = ns t + 8334601228800 * 1000000000 := by
  obtain ⟨h1, _⟩ := h
  unfold ticks ns
  omega

theorem windowStart_eq {t : Time} (h : Chrono t) :
    (windowStart (ticks t) : Int) = ns t / 60000000000 * 60000000000 + 8334601228800 * 1000000000 := by
  have := ticks_eq h
  unfold windowStart minuteNs
  omega

theorem Time.le_iff {a b : Time} : Time.le a b = true ↔ NotAfter a b := by
  simp [Time.le, NotAfter]

theorem FlowSpec.NotAfter.total (a b : Time) : NotAfter a b ∨ NotAfter b a := by
  unfold NotAfter; omega
theorem FlowSpec.NotAfter.trans {a b c : Time} (h1 : NotAfter a b) (h2 : NotAfter b c) : NotAfter a c := by
  unfold NotAfter at *; omega
theorem FlowSpec.NotAfter.refl (a : Time) : NotAfter a a := by
  unfold NotAfter; omega
theorem FlowSpec.NotAfter.anti {a b : Time} (h1 : NotAfter a b) (h2 : NotAfter b a) : a = b := by
  obtain ⟨s, n⟩ := a
  obtain ⟨s', n'⟩ := b
  unfold NotAfter at *
  simp only [Time.mk.injEq]
  simp only at h1 h2
  omega

theorem ns_timeAt (n : Nat) : ns (timeAt n) = n - 8334601228800 * 1000000000 ∧ (timeAt n).nanos < 1000000000 := by
  unfold ns timeAt
  simp only
  omega

/-! ## What is late -/

theorem isLate_map {S : Sem} {keys : List (FieldRef Ie)} {aggs : List AggRef} {lat : Nat} {pre : List Flat} {r : Flat} (hp : ∀ q ∈ pre, Chrono q.exported)
    (hr : Chrono r.exported) : IsLate (flowAgg S aggs) lat (pre.map (itemOf keys aggs)) (itemOf keys aggs r) ↔ TooLate lat pre r := by
  unfold IsLate TooLate
  constructor
  · rintro ⟨y, hy, h1, h2⟩
    obtain ⟨q, hq, rfl⟩ := List.mem_map.mp hy
    have := ticks_eq (hp q hq)
    have := ticks_eq hr
    simp only [flowAgg, itemOf] at h1 h2
    exact ⟨q, hq, h1, by omega⟩
  · rintro ⟨q, hq, h1, h2⟩
    have := ticks_eq (hp q hq)
    have := ticks_eq hr
    refine ⟨_, List.mem_map.mpr ⟨q, hq, rfl⟩, h1, ?_⟩
    simp only [flowAgg, itemOf]
    omega

theorem accepted_map {S : Sem} {keys : List (FieldRef Ie)} {aggs : List AggRef} {lat : Nat} {rs : List Flat} (hr : ∀ q ∈ rs, Chrono q.exported) :
    ∀ {pre : List Flat}, (∀ q ∈ pre, Chrono q.exported) →
      acceptedItems (flowAgg S aggs) lat (pre.map (itemOf keys aggs)) (rs.map (itemOf keys aggs)) = (kept lat pre rs).map (itemOf keys aggs) := by
  induction rs with
  | nil => intros; rfl
  | cons r rs ih =>
    intro pre hp
    have h1 : ∀ q ∈ pre ++ [r], Chrono q.exported := by
      intro q hq
      rcases List.mem_append.mp hq with hq | hq
      · exact hp q hq
      · exact hr q (by simp_all)
    have := ih (fun q hq => hr q (List.mem_cons_of_mem _ hq)) h1
    simp only [List.map_append, List.map_cons, List.map_nil] at this
    simp only [List.map_cons, acceptedItems, kept, List.map_append, this]
    congr 1
    have hl := isLate_map (S := S) (keys := keys) (aggs := aggs) (lat := lat) hp (hr r (List.mem_cons_self ..))
    by_cases h : TooLate lat pre r
    · rw [if_pos h, if_pos (hl.mpr h)]; rfl
    · rw [if_neg h, if_neg (fun h' => h (hl.mp h'))]; rfl

theorem mem_kept {lat : Nat} {pre rs : List Flat} {r : Flat} (h : r ∈ kept lat pre rs) : r ∈ rs := by
  induction rs generalizing pre with
  | nil => simp [kept] at h
  | cons q rs ih =>
    simp only [kept, List.mem_append] at h
    rcases h with h | h
    · split at h
      · simp at h
      · simp_all
    · exact List.mem_cons_of_mem _ (ih h)

/-! ## What an entry holds -/

/-- the entry sums up these records -/
structure Sums (S : Sem) (aggs : List AggRef) (g : List Flat) (d : FlowRec) : Prop where
  ports : Lists d.ports (g.map (·.peer.port))
  domains : Lists d.domains (g.map (·.domain))
  templates : Lists d.templates (g.map (·.template))
  first : Earliest (g.map (·.exported)) d.minExport
  last : Latest (g.map (·.exported)) d.maxExport
  seen : Latest (g.map (·.collected)) d.maxCollection
  up : d.upTime ∈ g.map (·.upTime) ∧ ∀ x ∈ g.map (·.upTime), x ≤ d.upTime
  count : d.count = UInt64.ofNat g.length
  fields : d.fields = aggs.map fun a => combined S a.op (valuesOf a.ref g)

theorem FlowSpec.Lists.single {α : Type} (a : α) : Lists [a] [a] := ⟨by simp, by simp⟩

theorem FlowSpec.Lists.union {α : Type} [DecidableEq α] {l m : List α} (h : Lists l m) (a : α) : Lists (union l [a]) (m ++ [a]) := by
  unfold Collector.union
  by_cases ha : a ∈ l
  · have : [a].filter (fun x => decide (x ∉ l)) = [] := by simp [ha]
    rw [this, List.append_nil]
    refine ⟨h.1, fun x => ?_⟩
    rw [h.2 x]
    simp only [List.mem_append, List.mem_singleton]
    exact ⟨Or.inl, fun h' => h'.elim id fun e => (h.2 x).mp (e ▸ ha)⟩
  · have : [a].filter (fun x => decide (x ∉ l)) = [a] := by simp [ha]
    rw [this]
    refine ⟨?_, fun x => ?_⟩
    · rw [List.nodup_append]
      refine ⟨h.1, by simp, ?_⟩
      intro x hx y hy e
      simp only [List.mem_singleton] at hy
      exact ha (by rw [← hy, ← e]; exact hx)
    · simp only [List.mem_append, h.2 x]

theorem FlowSpec.Earliest.step {l : List Time} {t : Time} (h : Earliest l t) (a : Time) : Earliest (l ++ [a]) (Time.min t a) := by
  unfold Time.min
  by_cases hle : Time.le t a = true
  · rw [if_pos hle]
    refine ⟨List.mem_append_left _ h.1, fun t' ht' => ?_⟩
    rcases List.mem_append.mp ht' with ht' | ht'
    · exact h.2 t' ht'
    · rw [List.mem_singleton.mp ht']; exact Time.le_iff.mp hle
  · rw [if_neg hle]
    have hat : NotAfter a t := (NotAfter.total t a).resolve_left fun h' => hle (Time.le_iff.mpr h')
    refine ⟨by simp, fun t' ht' => ?_⟩
    rcases List.mem_append.mp ht' with ht' | ht'
    · exact hat.trans (h.2 t' ht')
    · rw [List.mem_singleton.mp ht']; exact NotAfter.refl _

theorem FlowSpec.Latest.step {l : List Time} {t : Time} (h : Latest l t) (a : Time) : Latest (l ++ [a]) (Time.max t a) := by
  unfold Time.max
  by_cases hle : Time.le t a = true
  · rw [if_pos hle]
    refine ⟨by simp, fun t' ht' => ?_⟩
    rcases List.mem_append.mp ht' with ht' | ht'
    · exact (h.2 t' ht').trans (Time.le_iff.mp hle)
    · rw [List.mem_singleton.mp ht']; exact NotAfter.refl _
  · rw [if_neg hle]
    have hat : NotAfter a t := (NotAfter.total t a).resolve_left fun h' => hle (Time.le_iff.mpr h')
    refine ⟨List.mem_append_left _ h.1, fun t' ht' => ?_⟩
    rcases List.mem_append.mp ht' with ht' | ht'
    · exact h.2 t' ht'
    · rw [List.mem_singleton.mp ht']; exact hat

theorem combined_snoc (S : Sem) (op : AggOp) (vs : List Field) (v : Option Field) :
    combined S op (vs ++ v.toList) = reduceField S op (combined S op vs) v := by
  cases v with
  | none => cases vs <;> simp [combined, reduceField]
  | some v => cases vs <;> simp [combined, reduceField]

theorem valuesOf_snoc (ref : FieldRef Ie) (g : List Flat) (r : Flat) :
    valuesOf ref (g ++ [r]) = valuesOf ref g ++ (nth r.fields ref.ie ref.index).toList := by
  unfold valuesOf
  rw [List.filterMap_append]
  cases h : nth r.fields ref.ie ref.index <;> simp [h]

theorem reduceFields_map (S : Sem) (aggs : List AggRef) (f g : AggRef → Option Field) :
    reduceFields S aggs (aggs.map f) (aggs.map g) = aggs.map fun a => reduceField S a.op (f a) (g a) := by
  induction aggs with
  | nil => rfl
  | cons a as ih => simp only [List.map_cons, reduceFields, ih]

theorem maxU32 (a b : UInt32) : (max a b = b ∧ a ≤ b) ∨ (max a b = a ∧ b ≤ a) := by
  have h : max a b = if a ≤ b then b else a := rfl
  rw [h]
  split
  · exact .inl ⟨rfl, by assumption⟩
  · exact .inr ⟨rfl, (UInt32.le_total _ _).resolve_left (by assumption)⟩

theorem Sums.single (S : Sem) (keys : List (FieldRef Ie)) (aggs : List AggRef) (r : Flat) : Sums S aggs [r] (itemOf keys aggs r).data where
  ports := Lists.single _
  domains := Lists.single _
  templates := Lists.single _
  first := by simp [Earliest, itemOf, NotAfter.refl]
  last := by simp [Latest, itemOf, NotAfter.refl]
  seen := by simp [Latest, itemOf, NotAfter.refl]
  up := by simp [itemOf]
  count := rfl
  fields := by
    simp only [itemOf]
    apply List.map_congr_left
    intro a _
    cases h : nth r.fields a.ref.ie a.ref.index <;> simp [valuesOf, combined, h]

theorem Sums.step {S : Sem} (keys : List (FieldRef Ie)) {aggs : List AggRef} {g : List Flat} {d : FlowRec} (h : Sums S aggs g d) (r : Flat) :
    Sums S aggs (g ++ [r]) (d.reduce S aggs (itemOf keys aggs r).data) where
  ports := by simpa [FlowRec.reduce, itemOf] using h.ports.union r.peer.port
  domains := by simpa [FlowRec.reduce, itemOf] using h.domains.union r.domain
  templates := by simpa [FlowRec.reduce, itemOf] using h.templates.union r.template
  first := by simpa [FlowRec.reduce, itemOf] using h.first.step r.exported
  last := by simpa [FlowRec.reduce, itemOf] using h.last.step r.exported
  seen := by simpa [FlowRec.reduce, itemOf] using h.seen.step r.collected
  up := by
    obtain ⟨h1, h2⟩ := h.up
    simp only [FlowRec.reduce, itemOf, List.map_append, List.map_cons, List.map_nil]
    rcases maxU32 d.upTime r.upTime with ⟨hm, hle⟩ | ⟨hm, hle⟩ <;> rw [hm]
    · refine ⟨by simp, fun x hx => ?_⟩
      rcases List.mem_append.mp hx with hx | hx
      · exact UInt32.le_trans (h2 x hx) hle
      · rw [List.mem_singleton.mp hx]; exact UInt32.le_refl _
    · refine ⟨List.mem_append_left _ h1, fun x hx => ?_⟩
      rcases List.mem_append.mp hx with hx | hx
      · exact h2 x hx
      · rw [List.mem_singleton.mp hx]
        exact hle
  count := by
    simp only [FlowRec.reduce, itemOf, h.count, List.length_append, List.length_singleton, UInt64.ofNat_add]
    rfl
  fields := by
    simp only [FlowRec.reduce, itemOf, h.fields, reduceFields_map]
    apply List.map_congr_left
    intro a _
    rw [valuesOf_snoc, combined_snoc]

/-- the records of a key -/
def ofFlowKey (keys : List (FieldRef Ie)) (aggs : List AggRef) (k : FlowKey) (g : List Flat) : List Flat := g.filter fun r => (itemOf keys aggs r).key = k

theorem eval_spec (S : Sem) (keys : List (FieldRef Ie)) (aggs : List AggRef) (g : List Flat) :
    Uniq ((flowAgg S aggs).eval (g.map (itemOf keys aggs))) ∧
    ∀ k, match ((flowAgg S aggs).eval (g.map (itemOf keys aggs))).look k with
      | none => ofFlowKey keys aggs k g = []
      | some d => ofFlowKey keys aggs k g ≠ [] ∧ Sums S aggs (ofFlowKey keys aggs k g) d := by
  induction g using snoc_induction with
  | nil => exact ⟨List.Pairwise.nil, fun k => by simp [Agg.eval, flowAgg, ofFlowKey]⟩
  | append_singleton g r ih =>
    obtain ⟨hu, ih⟩ := ih
    have he : (flowAgg S aggs).eval ((g ++ [r]).map (itemOf keys aggs)) =
        pushItem S aggs ((flowAgg S aggs).eval (g.map (itemOf keys aggs))) (itemOf keys aggs r) := by
      simp [Agg.eval, flowAgg]
    rw [he]
    generalize (flowAgg S aggs).eval (g.map (itemOf keys aggs)) = c at hu ih
    have hf : ∀ k, ofFlowKey keys aggs k (g ++ [r]) = ofFlowKey keys aggs k g ++ if (itemOf keys aggs r).key = k then [r] else [] := by
      intro k
      unfold ofFlowKey
      rw [List.filter_append]
      congr 1
      by_cases hk : (itemOf keys aggs r).key = k <;> simp [hk]
    refine ⟨?_, fun k => ?_⟩
    · unfold pushItem
      split <;> exact hu.put _ _
    · rw [hf k]
      unfold pushItem
      have hk := ih (itemOf keys aggs r).key
      cases hd : c.look (itemOf keys aggs r).key with
      | some d =>
        rw [hd] at hk
        simp only
        rw [lookup_put]
        by_cases hkk : (itemOf keys aggs r).key = k
        · rw [if_pos hkk, if_pos hkk]
          simp only
          subst hkk
          exact ⟨by simp, hk.2.step keys r⟩
        · rw [if_neg hkk, if_neg hkk, List.append_nil]
          exact ih k
      | none =>
        rw [hd] at hk
        simp only at hk ⊢
        rw [lookup_put]
        by_cases hkk : (itemOf keys aggs r).key = k
        · rw [if_pos hkk, if_pos hkk]
          simp only
          subst hkk
          rw [hk, List.nil_append]
          exact ⟨by simp, Sums.single S keys aggs r⟩
        · rw [if_neg hkk, if_neg hkk, List.append_nil]
          exact ih k

end Verif.Collector
