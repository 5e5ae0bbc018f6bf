import Verif.Analytics.Lemmas3
/-! # From the windowing invariant to the properties; the reduction helpers -/
namespace Verif.Analytics
variable {κ ι σ ο : Type} [DecidableEq κ]

theorem late_accepted_perm (A : Agg κ ι σ ο) (lat : Nat) : ∀ (l pre : List ι),
    (lateItems A lat pre l ++ acceptedItems A lat pre l).Perm l
  | [], _ => by simp [lateItems, acceptedItems]
  | x :: l, pre => by
    have ih := late_accepted_perm A lat l (pre ++ [x])
    simp only [lateItems, acceptedItems]
    split
    · simpa using ih
    · simp only [List.nil_append, List.singleton_append]
      exact List.perm_middle.trans (ih.cons x)

theorem perm_of_keys {A : Agg κ ι σ ο} {l l' : List ι} (h : ∀ k, (ofKey A k l).Perm (ofKey A k l')) :
    l.Perm l' := by
  classical
  rw [List.perm_iff_count]
  intro a
  have := (List.perm_iff_count.mp (h (A.key a))) a
  unfold ofKey at this
  rwa [List.count_filter (by simp), List.count_filter (by simp)] at this

theorem ofKey_batches {A : Agg κ ι σ ο} (k : κ) : ∀ (bs : List (Batch κ ι)),
    (∀ b ∈ bs, ∀ x ∈ b.2.2, A.key x = b.1) →
    ofKey A k (bs.flatMap (fun b => b.2.2)) = (batchesOf k bs).flatMap (fun b => b.2.2)
  | [], _ => rfl
  | b :: bs, h => by
    have ih := ofKey_batches (A := A) k bs (fun b hb => h b (by simp [hb]))
    unfold ofKey batchesOf at *
    rw [List.flatMap_cons, List.filter_append, ih]
    by_cases hk : b.1 = k
    · have h1 : b.2.2.filter (fun x => decide (A.key x = k)) = b.2.2 := by
        rw [List.filter_eq_self]; intro x hx; exact decide_eq_true ((h b (by simp) x hx).trans hk)
      rw [h1, List.filter_cons, if_pos (by simpa using hk), List.flatMap_cons]
    · have h1 : b.2.2.filter (fun x => decide (A.key x = k)) = [] := by
        rw [List.filter_eq_nil_iff]; intro x hx; rw [h b (by simp) x hx]; simpa using hk
      rw [h1, List.filter_cons, if_neg (by simpa using hk), List.nil_append]

/-- Everything the properties need, for a run from the start. -/
theorem run_spec {A : Agg κ ι σ ο} {ordOf : HMap κ (BMap σ) → List (κ × BMap σ)} (ho : IsOrder ordOf)
    {dur lat : Nat} {items : List ι} {outs} (h : allOuts A ordOf (WinAgg.new dur lat) items = some outs) :
    latesOf outs = lateItems A lat [] items ∧
    ∃ bs, Accounts A dur items outs bs ∧
      (∀ b ∈ bs, ∀ x ∈ b.2.2, windowStart (A.ts x) = b.2.1) ∧
      (0 < dur → (bs.map (fun b => (b.1, b.2.1))).Nodup ∧
        (∀ b ∈ bs, b.2.2 = windowItems A lat items b.1 b.2.1) ∧
        ∀ k s, windowItems A lat items k s ≠ [] → ∃ b ∈ bs, b.1 = k ∧ b.2.1 = s) := by
  obtain ⟨bs, hw, hl, hf⟩ := allOuts_spec ho (Inv.new A dur lat) h
  rw [List.nil_append, List.nil_append] at hf
  refine ⟨hl, bs, ?_, ?_, ?_⟩
  · have hk : ∀ b ∈ bs, ∀ x ∈ b.2.2, A.key x = b.1 := fun b hb x hx => ((hf.goodB _ _ _ hb).2.2 x hx).1
    exact {
      windows := hw
      once := by
        rw [hl]
        refine List.Perm.trans (List.Perm.append_left _ ?_) (late_accepted_perm A lat items [])
        apply perm_of_keys (A := A)
        intro k
        rw [ofKey_batches k bs hk]
        exact (hf.perm k).symm
      nonempty := fun b hb => (hf.goodB _ _ _ hb).1
      ordered := fun b hb => (hf.goodB _ _ _ hb).2.1
      oneKey := hk }
  · exact fun b hb x hx => ((hf.goodB _ _ _ hb).2.2 x hx).2
  · exact fun hd => ⟨hf.nodup hd, fun b hb => hf.fullB hd _ _ _ hb, fun k s hne =>
      let ⟨l, hl⟩ := hf.miss hd k s hne; ⟨_, hl, rfl, rfl⟩⟩

theorem lateItems_ofKey (A : Agg κ ι σ ο) (lat : Nat) (k : κ) : ∀ (l pre : List ι),
    ofKey A k (lateItems A lat pre l) = lateItems A lat (ofKey A k pre) (ofKey A k l)
  | [], _ => rfl
  | x :: l, pre => by
    have ih := lateItems_ofKey A lat k l (pre ++ [x])
    unfold ofKey at *
    simp only [lateItems, List.filter_append]
    rw [ih, List.filter_cons]
    by_cases hk : A.key x = k
    · have hiff : IsLate A lat pre x ↔ IsLate A lat (pre.filter (fun x => decide (A.key x = k))) x := by
        constructor
        · rintro ⟨y, hy, h1, h2⟩
          exact ⟨y, List.mem_filter.mpr ⟨hy, decide_eq_true (h1.trans hk)⟩, h1, h2⟩
        · rintro ⟨y, hy, h1, h2⟩
          exact ⟨y, (List.mem_filter.mp hy).1, h1, h2⟩
      have hd : decide (A.key x = k) = true := decide_eq_true hk
      simp only [hd, if_true, lateItems, List.filter_append, List.filter_cons, List.filter_nil]
      by_cases hl : IsLate A lat pre x
      · rw [if_pos hl, if_pos (hiff.mp hl)]; simp [hk]
      · rw [if_neg hl, if_neg (fun h => hl (hiff.mpr h))]; simp
    · have hd : decide (A.key x = k) = false := decide_eq_false hk
      simp only [hd, List.filter_append, List.filter_cons, List.filter_nil]
      by_cases hl : IsLate A lat pre x
      · rw [if_pos hl]; simp [hk]
      · rw [if_neg hl]; simp

/-! ## reductions -/
variable {τ : Type}

theorem zipGrow_get (f : τ → τ → τ) (l r : List τ) (i : Nat) :
    (zipGrow f l r)[i]? = match l[i]?, r[i]? with
      | some a, some b => some (f a b)
      | some a, none => some a
      | none, b => b := by
  have hlen : (List.zipWith f l r ++ l.drop r.length).length = l.length := by simp; omega
  have h1 : (List.zipWith f l r ++ l.drop r.length)[i]? = match l[i]?, r[i]? with
      | some a, some b => some (f a b)
      | some a, none => some a
      | none, _ => none := by
    rw [List.getElem?_append]
    simp only [List.length_zipWith, List.getElem?_zipWith, List.getElem?_drop]
    split
    · cases hl : l[i]? <;> cases hr : r[i]? <;> simp_all <;> omega
    · rename_i hi
      by_cases hil : i < l.length
      · have hir : r.length ≤ i := by omega
        rw [Nat.min_eq_right (by omega), show r.length + (i - r.length) = i by omega,
          List.getElem?_eq_none hir, List.getElem?_eq_getElem hil]
      · have hr : l[i]? = none := List.getElem?_eq_none (by omega)
        rw [List.getElem?_eq_none (by omega), hr]
  unfold zipGrow
  simp only [hlen]
  split
  · rename_i hlt
    rw [List.getElem?_append, hlen]
    split
    · rename_i hi
      rw [h1, List.getElem?_eq_getElem hi]
      cases r[i]? <;> rfl
    · rename_i hi
      rw [List.getElem?_drop, show l.length + (i - l.length) = i by omega, List.getElem?_eq_none (l := l) (by omega)]
  · rename_i hge
    rw [h1]
    cases hl : l[i]? with
    | some a => cases r[i]? <;> rfl
    | none =>
      have : l.length ≤ i := List.getElem?_eq_none_iff.mp hl
      simp only
      rw [List.getElem?_eq_none (l := r) (by omega)]

theorem reduce1_snoc (f : τ → τ → τ) (l : List τ) (x : τ) :
    reduce1 f (l ++ [x]) = match reduce1 f l with | some a => some (f a x) | none => some x := by
  cases l <;> simp [reduce1]

theorem column_snoc (rows : List (Option (List τ))) (r : Option (List τ)) (i : Nat) :
    column (rows ++ [r]) i = column rows i ++ (r.bind (fun l => l[i]?)).toList := by
  unfold column
  rw [List.filterMap_append]
  congr 1

/-- folding rows: presence, and every position -/
theorem aggr_fold (f : τ → τ → τ) (rows : List (Option (List τ))) :
    ((rows.foldl (aggr f) none).isSome ↔ ∃ r ∈ rows, r.isSome) ∧
    ∀ i, (rows.foldl (aggr f) none).bind (fun l => l[i]?) = reduce1 f (column rows i) := by
  induction hn : rows.length generalizing rows with
  | zero =>
    have : rows = [] := List.eq_nil_of_length_eq_zero hn
    subst this; simp [column, reduce1]
  | succ n ih =>
    have hne : rows ≠ [] := by rintro rfl; simp at hn
    obtain ⟨init, last, rfl⟩ : ∃ a b, rows = a ++ [b] :=
      ⟨rows.dropLast, rows.getLast hne, (List.dropLast_concat_getLast hne).symm⟩
    obtain ⟨ih1, ih2⟩ := ih init (by simpa using hn)
    rw [List.foldl_append, List.foldl_cons, List.foldl_nil]
    obtain ⟨acc, hacc⟩ : ∃ a, a = init.foldl (aggr f) none := ⟨_, rfl⟩
    rw [← hacc] at ih1 ih2 ⊢
    constructor
    · have e : (∃ r ∈ init ++ [last], r.isSome = true) ↔ (∃ r ∈ init, r.isSome = true) ∨ last.isSome = true := by
        constructor
        · rintro ⟨r, hr, h⟩
          rcases List.mem_append.mp hr with hr | hr
          · exact .inl ⟨r, hr, h⟩
          · rw [List.mem_singleton] at hr; subst hr; exact .inr h
        · rintro (⟨r, hr, h⟩ | h)
          · exact ⟨r, List.mem_append_left _ hr, h⟩
          · exact ⟨last, by simp, h⟩
      rw [e, ← ih1]
      cases acc <;> cases last <;> simp [aggr]
    · intro i
      rw [column_snoc]
      have := ih2 i
      cases acc with
      | none =>
        simp only [Option.bind_none] at this
        cases hc : column init i with
        | cons y ys => rw [hc] at this; simp [reduce1] at this
        | nil =>
          simp only [aggr, List.nil_append]
          cases last with
          | none => rfl
          | some r => simp only [Option.bind_some]; cases r[i]? <;> rfl
      | some a =>
        simp only [Option.bind_some] at this
        cases last with
        | none => simpa [aggr] using this
        | some r =>
          simp only [aggr, Option.bind_some]
          rw [zipGrow_get, this]
          cases hr : r[i]? with
          | none => 
            simp only [Option.toList_none, List.append_nil]
            cases reduce1 f (column init i) <;> rfl
          | some b =>
            simp only [Option.toList_some]
            rw [reduce1_snoc]
            cases reduce1 f (column init i) <;> rfl

theorem foldl_perm {f : τ → τ → τ} (hc : ∀ a b, f a b = f b a) (ha : ∀ a b c, f (f a b) c = f a (f b c)) :
    ∀ {l l' : List τ}, l.Perm l' → ∀ a, l.foldl f a = l'.foldl f a := by
  intro l l' h
  induction h with
  | nil => intro _; rfl
  | cons x _ ih => intro a; exact ih _
  | swap x y l => intro a; simp only [List.foldl_cons]; rw [ha, ha, hc x y]
  | trans _ _ ih1 ih2 => intro a; rw [ih1, ih2]

theorem reduce1_perm {f : τ → τ → τ} (hc : ∀ a b, f a b = f b a) (ha : ∀ a b c, f (f a b) c = f a (f b c))
    {l l' : List τ} (h : l.Perm l') : reduce1 f l = reduce1 f l' := by
  induction h with
  | nil => rfl
  | cons x h _ => simp only [reduce1]; rw [foldl_perm hc ha h]
  | swap x y l => simp only [reduce1, List.foldl_cons]; rw [hc]
  | trans _ _ ih1 ih2 => rw [ih1, ih2]

theorem aggr_fold_perm {f : τ → τ → τ} (hc : ∀ a b, f a b = f b a) (ha : ∀ a b c, f (f a b) c = f a (f b c))
    {rows rows' : List (Option (List τ))} (h : rows.Perm rows') :
    rows.foldl (aggr f) none = rows'.foldl (aggr f) none := by
  obtain ⟨h1, h2⟩ := aggr_fold f rows
  obtain ⟨h3, h4⟩ := aggr_fold f rows'
  have hcol : ∀ i, reduce1 f (column rows i) = reduce1 f (column rows' i) :=
    fun i => reduce1_perm hc ha (h.filterMap _)
  have hsome : (rows.foldl (aggr f) none).isSome ↔ (rows'.foldl (aggr f) none).isSome := by
    rw [h1, h3]
    exact ⟨fun ⟨r, hr, h'⟩ => ⟨r, h.mem_iff.mp hr, h'⟩, fun ⟨r, hr, h'⟩ => ⟨r, h.mem_iff.mpr hr, h'⟩⟩
  cases e1 : rows.foldl (aggr f) none with
  | none =>
    rw [e1] at hsome
    cases e2 : rows'.foldl (aggr f) none with
    | none => rfl
    | some l => rw [e2] at hsome; simp at hsome
  | some l =>
    rw [e1] at hsome
    cases e2 : rows'.foldl (aggr f) none with
    | none => rw [e2] at hsome; simp at hsome
    | some l' =>
      congr 1
      apply List.ext_getElem?
      intro i
      have g1 := h2 i; have g2 := h4 i
      rw [e1] at g1; rw [e2] at g2
      simp only [Option.bind_some] at g1 g2
      rw [g1, g2, hcol i]

end Verif.Analytics
