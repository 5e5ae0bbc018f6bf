import Verif.Collector.Enrichment
/-! # Facts about the maps and the enrichment cache -/
namespace Verif.Collector

theorem snoc_induction {α : Type} {P : List α → Prop} (nil : P []) (append_singleton : ∀ l a, P l → P (l ++ [a])) (l : List α) : P l := by
  have : ∀ l : List α, P l.reverse := by
    intro l
    induction l with
    | nil => exact nil
    | cons a l ih => rw [List.reverse_cons]; exact append_singleton _ _ ih
  have := this l.reverse
  rwa [List.reverse_reverse] at this

section Maps
variable {κ α : Type} [DecidableEq κ]

theorem lookup_cons' (k a : κ) (b : α) (m : List (κ × α)) : List.look ((k, b) :: m) a = if k = a then some b else m.look a := rfl

@[simp] theorem look_nil (k : κ) : ([] : List (κ × α)).look k = none := rfl

theorem look_eq_none {m : List (κ × α)} {k : κ} (h : ∀ y ∈ m, k ≠ y.1) : m.look k = none := by
  induction m with
  | nil => rfl
  | cons x m ih =>
    rw [show x = (x.1, x.2) from rfl, lookup_cons', if_neg (Ne.symm (h x (by simp))), ih fun y hy => h y (by simp [hy])]

theorem lookup_put (m : List (κ × α)) (k k' : κ) (v : α) : (put m k v).look k' = if k = k' then some v else m.look k' := by
  induction m with
  | nil => simp only [put, lookup_cons']
  | cons x m ih =>
    obtain ⟨k1, v1⟩ := x
    unfold put
    split
    · rename_i h
      subst h
      simp only [lookup_cons']
      split <;> rfl
    · rename_i h
      simp only [lookup_cons', ih]
      split
      · rename_i h2
        rw [if_neg (by rintro rfl; exact h h2)]
      · rfl

theorem lookup_putOrd (lt : κ → κ → Bool) (m : List (κ × α)) (k k' : κ) (v : α) :
    (putOrd lt m k v).look k' = if k = k' then some v else m.look k' := by
  induction m with
  | nil => simp only [putOrd, lookup_cons']
  | cons x m ih =>
    obtain ⟨k1, v1⟩ := x
    unfold putOrd
    split
    · rename_i h
      subst h
      simp only [lookup_cons']
      split <;> rfl
    · rename_i h
      split
      · simp only [lookup_cons']
      · simp only [lookup_cons', ih]
        split
        · rename_i h2
          rw [if_neg (by rintro rfl; exact h h2)]
        · rfl

theorem lookup_del (m : List (κ × α)) (k k' : κ) : (del m k).look k' = if k = k' then none else m.look k' := by
  induction m with
  | nil => simp [del]
  | cons x m ih =>
    obtain ⟨k1, v1⟩ := x
    unfold del at ih ⊢
    rw [List.filter_cons]
    by_cases h : k1 = k
    · subst h
      rw [if_neg (by simp), ih, lookup_cons']
      split <;> rfl
    · rw [if_pos (by simpa using h), lookup_cons', lookup_cons', ih]
      split
      · rename_i h2
        rw [if_neg (by rintro rfl; exact h h2)]
      · rfl

theorem mem_put {m : List (κ × α)} {k : κ} {v : α} {x : κ × α} (h : x ∈ put m k v) : x = (k, v) ∨ x ∈ m := by
  induction m with
  | nil => simpa [put] using h
  | cons y m ih =>
    obtain ⟨k1, v1⟩ := y
    unfold put at h
    split at h
    · rcases List.mem_cons.mp h with h | h
      · exact .inl h
      · exact .inr (by simp [h])
    · rcases List.mem_cons.mp h with h | h
      · exact .inr (by simp [h])
      · rcases ih h with h | h
        · exact .inl h
        · exact .inr (by simp [h])

theorem mem_putOrd {lt : κ → κ → Bool} {m : List (κ × α)} {k : κ} {v : α} {x : κ × α} (h : x ∈ putOrd lt m k v) : x = (k, v) ∨ x ∈ m := by
  induction m with
  | nil => simpa [putOrd] using h
  | cons y m ih =>
    obtain ⟨k1, v1⟩ := y
    unfold putOrd at h
    split at h
    · rcases List.mem_cons.mp h with h | h
      · exact .inl h
      · exact .inr (by simp [h])
    · split at h
      · rcases List.mem_cons.mp h with h | h
        · exact .inl h
        · exact .inr h
      · rcases List.mem_cons.mp h with h | h
        · exact .inr (by simp [h])
        · rcases ih h with h | h
          · exact .inl h
          · exact .inr (by simp [h])

theorem put_ne_nil (m : List (κ × α)) (k : κ) (v : α) : put m k v ≠ [] := by
  cases m with
  | nil => simp [put]
  | cons x m =>
    unfold put
    split <;> simp

theorem putOrd_ne_nil (lt : κ → κ → Bool) (m : List (κ × α)) (k : κ) (v : α) : putOrd lt m k v ≠ [] := by
  cases m with
  | nil => simp [putOrd]
  | cons x m =>
    unfold putOrd
    split
    · simp
    · split <;> simp

/-- no key twice -/
def Uniq (m : List (κ × α)) : Prop := m.Pairwise fun a b => a.1 ≠ b.1

theorem Uniq.put {m : List (κ × α)} (h : Uniq m) (k : κ) (v : α) : Uniq (put m k v) := by
  induction m with
  | nil => simp [Collector.put, Uniq]
  | cons x m ih =>
    obtain ⟨k1, v1⟩ := x
    obtain ⟨h1, h2⟩ := List.pairwise_cons.mp h
    unfold Collector.put
    split
    · rename_i e
      subst e
      exact List.pairwise_cons.mpr ⟨h1, h2⟩
    · rename_i e
      refine List.pairwise_cons.mpr ⟨fun y hy => ?_, ih h2⟩
      rcases mem_put hy with rfl | hy
      · exact e
      · exact h1 y hy

theorem Uniq.filter {m : List (κ × α)} (h : Uniq m) (p : κ × α → Bool) : Uniq (m.filter p) := List.Pairwise.filter p h

theorem Uniq.del {m : List (κ × α)} (h : Uniq m) (k : κ) : Uniq (del m k) := Uniq.filter h _

theorem mem_of_lookup {m : List (κ × α)} {k : κ} {v : α} (h : m.look k = some v) : (k, v) ∈ m := by
  induction m with
  | nil => simp at h
  | cons x m ih =>
    obtain ⟨k1, v1⟩ := x
    rw [lookup_cons'] at h
    split at h
    · rename_i e
      simp only [Option.some.injEq] at h
      subst e; subst h; simp
    · simp [ih h]

theorem lookup_of_mem {m : List (κ × α)} (h : Uniq m) {k : κ} {v : α} (hm : (k, v) ∈ m) : m.look k = some v := by
  induction m with
  | nil => simp at hm
  | cons x m ih =>
    obtain ⟨k1, v1⟩ := x
    obtain ⟨h1, h2⟩ := List.pairwise_cons.mp h
    rw [lookup_cons']
    rcases List.mem_cons.mp hm with e | hm
    · simp only [Prod.mk.injEq] at e
      rw [if_pos e.1.symm, e.2]
    · rw [if_neg (h1 _ hm), ih h2 hm]

theorem lookup_filter {m : List (κ × α)} (h : Uniq m) (p : κ × α → Bool) (k : κ) :
    (m.filter p).look k = (m.look k).bind fun v => if p (k, v) then some v else none := by
  induction m with
  | nil => rfl
  | cons x m ih =>
    obtain ⟨k1, v1⟩ := x
    obtain ⟨h1, h2⟩ := List.pairwise_cons.mp h
    rw [List.filter_cons, lookup_cons']
    by_cases e : k1 = k
    · subst e
      rw [if_pos rfl]
      by_cases hp : p (k1, v1) = true
      · rw [if_pos hp, lookup_cons', if_pos rfl]; simp [hp]
      · rw [if_neg hp, ih h2]
        have : m.look k1 = none := look_eq_none h1
        rw [this]; simp [hp]
    · rw [if_neg e]
      split
      · rw [lookup_cons', if_neg e, ih h2]
      · exact ih h2

theorem eq_nil_of_lookup {m : List (κ × α)} (h : ∀ k, m.look k = none) : m = [] := by
  cases m with
  | nil => rfl
  | cons x m => obtain ⟨k1, v1⟩ := x; have := h k1; rw [lookup_cons', if_pos rfl] at this; simp at this

end Maps

section Order
variable {κ α : Type} [DecidableEq κ] {lt : κ → κ → Bool}

/-- keys increase -/
def Incr (lt : κ → κ → Bool) (m : List (κ × α)) : Prop := m.Pairwise fun a b => lt a.1 b.1 = true

theorem Incr.uniq (hi : ∀ a, lt a a = false) {m : List (κ × α)} (h : Incr lt m) : Uniq m :=
  List.Pairwise.imp (fun {a b} hab e => by rw [e, hi] at hab; simp at hab) h

theorem Incr.putOrd (ht : ∀ {a b c}, lt a b = true → lt b c = true → lt a c = true) (hl : ∀ {a b}, lt a b = false → a ≠ b → lt b a = true)
    {m : List (κ × α)} (h : Incr lt m) (k : κ) (v : α) : Incr lt (putOrd lt m k v) := by
  induction m with
  | nil => simp [Collector.putOrd, Incr]
  | cons x m ih =>
    obtain ⟨k1, v1⟩ := x
    obtain ⟨h1, h2⟩ := List.pairwise_cons.mp h
    unfold Collector.putOrd
    split
    · rename_i e
      subst e
      exact List.pairwise_cons.mpr ⟨h1, h2⟩
    · rename_i e
      split
      · rename_i hk
        refine List.pairwise_cons.mpr ⟨fun y hy => ?_, h⟩
        rcases List.mem_cons.mp hy with rfl | hy
        · exact hk
        · exact ht hk (h1 y hy)
      · rename_i hk
        refine List.pairwise_cons.mpr ⟨fun y hy => ?_, ih h2⟩
        rcases mem_putOrd hy with rfl | hy
        · exact hl (by simpa using hk) fun e' => e e'.symm
        · exact h1 y hy

theorem Incr.del {m : List (κ × α)} (h : Incr lt m) (k : κ) : Incr lt (del m k) := List.Pairwise.filter _ h

end Order

section Fields
variable {F I : Type} [DecidableEq F] [DecidableEq I] [HasIe F I]

theorem mapFieldsFrom_snd (c : I → Nat) (fs : List F) : (mapFieldsFrom c fs).map (·.2) = fs := by
  induction fs generalizing c with
  | nil => rfl
  | cons f fs ih => simp only [mapFieldsFrom, List.map_cons, ih]

theorem mapFields_inj {a b : List F} (h : (mapFields a : List (FieldRef I × F)) = mapFields b) : a = b := by
  rw [← mapFieldsFrom_snd (fun _ => 0) a, ← mapFieldsFrom_snd (fun _ => 0) b]
  exact congrArg _ h

theorem mapFieldsFrom_index {c : I → Nat} {fs : List F} {x : FieldRef I × F} (h : x ∈ mapFieldsFrom c fs) : c x.1.ie ≤ x.1.index := by
  induction fs generalizing c with
  | nil => simp [mapFieldsFrom] at h
  | cons f fs ih =>
    rcases List.mem_cons.mp h with rfl | h
    · exact Nat.le_refl _
    · have := ih h
      by_cases e : x.1.ie = ie f
      · rw [if_pos e] at this; rw [e]; omega
      · rw [if_neg e] at this; exact this

theorem mapFieldsFrom_uniq (c : I → Nat) (fs : List F) : Uniq (mapFieldsFrom c fs) := by
  induction fs generalizing c with
  | nil => simp [mapFieldsFrom, Uniq]
  | cons f fs ih =>
    refine List.pairwise_cons.mpr ⟨fun x hx e => ?_, ih _⟩
    have := mapFieldsFrom_index hx
    simp only at e
    rw [← e, if_pos rfl] at this
    simp only at this
    omega

theorem mapFields_uniq (fs : List F) : Uniq (mapFields fs : List (FieldRef I × F)) := mapFieldsFrom_uniq _ _

theorem mapFieldsFrom_lookup (c : I → Nat) (fs : List F) (i : I) (n : Nat) (hn : c i ≤ n) :
    (mapFieldsFrom c fs).look ⟨i, n⟩ = (fs.filter fun f => ie f = i)[n - c i]? := by
  induction fs generalizing c with
  | nil => simp [mapFieldsFrom]
  | cons f fs ih =>
    rw [mapFieldsFrom, lookup_cons', List.filter_cons]
    simp only [FieldRef.mk.injEq, decide_eq_true_eq]
    by_cases e : ie f = i
    · subst e
      rw [if_pos rfl]
      by_cases en : c (ie f) = n
      · subst en; simp
      · rw [if_neg (by simpa using en)]
        have := ih (fun i => if i = ie f then c (ie f) + 1 else c i) (by rw [if_pos rfl]; omega)
        rw [this, if_pos rfl, show n - c (ie f) = (n - (c (ie f) + 1)) + 1 by omega, List.getElem?_cons_succ]
    · rw [if_neg (by simp [e]), if_neg e]
      have := ih (fun i => if i = ie f then c (ie f) + 1 else c i) (by rw [if_neg (Ne.symm e)]; exact hn)
      rw [this, if_neg (Ne.symm e)]

/-- a reference stands for an occurrence of an element -/
theorem mapFields_lookup (fs : List F) (r : FieldRef I) : (mapFields fs).look r = (fs.filter fun f => ie f = r.ie)[r.index]? := by
  have := mapFieldsFrom_lookup (fun _ => 0) fs r.ie r.index (Nat.zero_le _)
  exact this

theorem mapFields_ne_nil {fs : List F} (h : fs ≠ []) : (mapFields fs : List (FieldRef I × F)) ≠ [] := by
  cases fs with
  | nil => exact absurd rfl h
  | cons f fs => simp [mapFields, mapFieldsFrom]

theorem mapFields_mem {fs : List F} {x : FieldRef I × F} (h : x ∈ (mapFields fs : List (FieldRef I × F))) : x.1.ie = ie x.2 := by
  suffices ∀ c : I → Nat, x ∈ mapFieldsFrom c fs → x.1.ie = ie x.2 from this _ h
  clear h
  intro c h
  induction fs generalizing c with
  | nil => simp [mapFieldsFrom] at h
  | cons f fs ih =>
    rcases List.mem_cons.mp h with rfl | h
    · rfl
    · exact ih _ h

/-- a scope matches a record if the record has all of its fields, at the same occurrence -/
theorem matches_iff (s record : List F) :
    ScopeKey.matches (mapFields s : ScopeKey F I) (mapFields record) = true ↔
      ∀ (i : I) (n : Nat) (f : F), (s.filter fun f => ie f = i)[n]? = some f → (record.filter fun f => ie f = i)[n]? = some f := by
  unfold ScopeKey.matches
  rw [List.all_eq_true]
  constructor
  · intro h i n f hf
    have hl : (mapFields s).look (⟨i, n⟩ : FieldRef I) = some f := by rw [mapFields_lookup]; exact hf
    have := h _ (mem_of_lookup hl)
    simp only [decide_eq_true_eq] at this
    rw [mapFields_lookup] at this
    exact this
  · intro h x hx
    have := lookup_of_mem (mapFields_uniq s) (k := x.1) (v := x.2) hx
    rw [mapFields_lookup] at this
    simp only [decide_eq_true_eq]
    rw [mapFields_lookup]
    exact h _ _ _ this

end Fields

section ScopeOrder
variable {F I : Type} [DecidableEq F] [DecidableEq I] [FieldOrd F I]

theorem ScopeKey.lt_irrefl (a : ScopeKey F I) : ScopeKey.lt a a = false := by
  induction a with
  | nil => rfl
  | cons x a ih => simp [ScopeKey.lt, FieldOrd.irrefl, ih]

theorem ScopeKey.lt_trans {a b c : ScopeKey F I} (h1 : ScopeKey.lt a b = true) (h2 : ScopeKey.lt b c = true) : ScopeKey.lt a c = true := by
  induction a generalizing b c with
  | nil =>
    cases c with
    | nil => cases b <;> simp [ScopeKey.lt] at h2
    | cons z c => rfl
  | cons x a ih =>
    cases b with
    | nil => simp [ScopeKey.lt] at h1
    | cons y b =>
      cases c with
      | nil => simp [ScopeKey.lt] at h2
      | cons z c =>
        simp only [ScopeKey.lt, Bool.or_eq_true, Bool.and_eq_true, decide_eq_true_eq] at h1 h2 ⊢
        rcases h1 with h1 | ⟨rfl, h1⟩
        · rcases h2 with h2 | ⟨rfl, h2⟩
          · exact .inl (FieldOrd.trans h1 h2)
          · exact .inl h1
        · rcases h2 with h2 | ⟨rfl, h2⟩
          · exact .inl h2
          · exact .inr ⟨rfl, ih h1 h2⟩

theorem ScopeKey.lt_total {a b : ScopeKey F I} (h : ScopeKey.lt a b = false) (hne : a ≠ b) : ScopeKey.lt b a = true := by
  induction a generalizing b with
  | nil =>
    cases b with
    | nil => exact absurd rfl hne
    | cons y b => simp [ScopeKey.lt] at h
  | cons x a ih =>
    cases b with
    | nil => rfl
    | cons y b =>
      simp only [ScopeKey.lt, Bool.or_eq_false_iff, Bool.and_eq_false_iff, decide_eq_false_iff_not] at h
      simp only [ScopeKey.lt, Bool.or_eq_true, Bool.and_eq_true, decide_eq_true_eq]
      by_cases e : x = y
      · subst e
        refine .inr ⟨rfl, ih ?_ fun e => hne (by rw [e])⟩
        rcases h.2 with h | h
        · exact absurd rfl h
        · exact h
      · exact .inl (FieldOrd.total h.1 e)

/-- a scope with more fields behind the same ones is greater -/
theorem ScopeKey.lt_append (a b : ScopeKey F I) (h : b ≠ []) : ScopeKey.lt a (a ++ b) = true := by
  induction a with
  | nil =>
    cases b with
    | nil => exact absurd rfl h
    | cons x b => rfl
  | cons x a ih => simp [ScopeKey.lt, ih]

end ScopeOrder

section Merge
variable {F I : Type} [DecidableEq I]

/-- of two fields for a reference the second, unless the first has more weight -/
def join : Option (Weighted F) → Option (Weighted F) → Option (Weighted F)
  | c, none => c
  | none, some x => some x
  | some c, some x => if c.weight ≤ x.weight then some x else some c

theorem mergeFields_uniq {best m : Metadata F I} (hb : Uniq best) : Uniq (mergeFields best m) := by
  unfold mergeFields
  induction m generalizing best with
  | nil => exact hb
  | cons x m ih =>
    rw [List.foldl_cons]
    refine ih ?_
    split
    · split
      · exact hb.put _ _
      · exact hb
    · exact hb.put _ _

theorem mergeFields_lookup {best m : Metadata F I} (hm : Uniq m) (r : FieldRef I) :
    (mergeFields best m).look r = join (best.look r) (m.look r) := by
  unfold mergeFields
  induction m generalizing best with
  | nil => simp [join]
  | cons x m ih =>
    obtain ⟨k, v⟩ := x
    obtain ⟨h1, h2⟩ := List.pairwise_cons.mp hm
    rw [List.foldl_cons, ih h2, lookup_cons']
    by_cases e : k = r
    · subst e
      have hn : m.look k = none := look_eq_none h1
      rw [hn, if_pos rfl]
      simp only [join]
      cases hb : best.look k with
      | none => simp only [lookup_put, if_pos]
      | some c =>
        simp only [join]
        split
        · rw [lookup_put, if_pos rfl]
        · exact hb
    · rw [if_neg e]
      congr 1
      split
      · split
        · rw [lookup_put, if_neg e]
        · rfl
      · rw [lookup_put, if_neg e]

theorem merge_eq {weight : UInt8} {inc cur : Metadata F I} (h : ∀ x ∈ inc, x.2.weight = weight) : merge weight inc cur = mergeFields cur inc := by
  unfold merge mergeFields
  induction inc generalizing cur with
  | nil => rfl
  | cons x inc ih =>
    rw [List.foldl_cons, List.foldl_cons, ih fun y hy => h y (by simp [hy]), h x (by simp)]

theorem mergeFields_ne_nil {best m : Metadata F I} (h : best ≠ [] ∨ m ≠ []) : mergeFields best m ≠ [] := by
  unfold mergeFields
  induction m generalizing best with
  | nil => simpa using h
  | cons x m ih =>
    rw [List.foldl_cons]
    refine ih (.inl ?_)
    split
    · split
      · exact put_ne_nil _ _ _
      · rename_i hc _
        rintro rfl
        simp at hc
    · exact put_ne_nil _ _ _

end Merge

end Verif.Collector
