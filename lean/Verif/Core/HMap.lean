/-!
# Hash maps and ordered maps

`HashMap<K, V>` is modelled by its lookup function; the iteration order, which Rust leaves unspecified,
is always a separate list constrained by `HMap.Enum`, so that theorems quantify over it.
`BTreeMap<K, V>` is a list of pairs with strictly increasing keys.
-/
namespace Verif

/-- `std::collections::HashMap`, observed through `get`. -/
abbrev HMap (κ α : Type) : Type := κ → Option α

namespace HMap
variable {κ α : Type} [DecidableEq κ]

def empty : HMap κ α := fun _ => none
/-- `insert` -/
def insert (m : HMap κ α) (k : κ) (v : α) : HMap κ α := fun k' => if k' = k then some v else m k'
/-- `remove` -/
def erase (m : HMap κ α) (k : κ) : HMap κ α := fun k' => if k' = k then none else m k'

@[simp] theorem empty_apply (k : κ) : (empty : HMap κ α) k = none := rfl
@[simp] theorem insert_self (m : HMap κ α) (k : κ) (v : α) : insert m k v k = some v := by
  simp [insert]
theorem insert_ne (m : HMap κ α) {k k' : κ} (v : α) (h : k' ≠ k) : insert m k v k' = m k' := by
  simp [insert, h]
@[simp] theorem erase_self (m : HMap κ α) (k : κ) : erase m k k = none := by simp [erase]
theorem erase_ne (m : HMap κ α) {k k' : κ} (h : k' ≠ k) : erase m k k' = m k' := by
  simp [erase, h]

/-- `l` is one possible order of iterating over `m`. -/
structure Enum (l : List (κ × α)) (m : HMap κ α) : Prop where
  nodup : (l.map Prod.fst).Nodup
  mem : ∀ k v, (k, v) ∈ l ↔ m k = some v

/-- Insert all pairs in order (later ones win). -/
def ofList (l : List (κ × α)) : HMap κ α := l.foldl (fun m p => insert m p.1 p.2) empty

theorem foldl_insert_apply (l : List (κ × α)) (m : HMap κ α) (hn : (l.map Prod.fst).Nodup) (k : κ) :
    (l.foldl (fun m p => insert m p.1 p.2) m) k =
      match l.find? (fun p => p.1 = k) with
      | some p => some p.2
      | none => m k := by
  induction l generalizing m with
  | nil => rfl
  | cons p l ih =>
    simp only [List.map_cons, List.nodup_cons] at hn
    simp only [List.foldl_cons]
    rw [ih _ hn.2]
    by_cases hk : p.1 = k
    · have : l.find? (fun p => decide (p.1 = k)) = none := by
        rw [List.find?_eq_none]
        intro q hq hqk
        simp only [decide_eq_true_eq] at hqk
        exact hn.1 (List.mem_map.mpr ⟨q, hq, by rw [hqk, hk]⟩)
      simp [this, hk, insert]
    · simp only [List.find?_cons, hk, decide_false]
      cases l.find? (fun p => decide (p.1 = k)) with
      | some q => rfl
      | none => exact insert_ne _ _ (Ne.symm hk)

/-- inserting the pairs of any enumeration rebuilds the map -/
theorem ofList_enum (l : List (κ × α)) (m : HMap κ α) (h : Enum l m) : ofList l = m := by
  funext k
  rw [ofList, foldl_insert_apply l _ h.nodup]
  cases hf : l.find? (fun p => decide (p.1 = k)) with
  | some p =>
    have h1 := List.mem_of_find?_eq_some hf
    have h2 := List.find?_some hf
    simp only [decide_eq_true_eq] at h2
    obtain ⟨pk, pv⟩ := p
    simp only at h2; subst h2
    exact ((h.mem pk pv).mp h1).symm
  | none =>
    simp only [empty_apply]
    rw [List.find?_eq_none] at hf
    cases hm : m k with
    | none => rfl
    | some v => exact absurd (hf (k, v) ((h.mem k v).mpr hm)) (by simp)

theorem ofList_isEnum (l : List (κ × α)) (hn : (l.map Prod.fst).Nodup) : Enum l (ofList l) := by
  refine ⟨hn, fun k v => ?_⟩
  rw [ofList, foldl_insert_apply l _ hn]
  constructor
  · intro hmem
    cases hf : l.find? (fun p => decide (p.1 = k)) with
    | none =>
      rw [List.find?_eq_none] at hf
      exact absurd (hf _ hmem) (by simp)
    | some p =>
      obtain ⟨pk, pv⟩ := p
      have h1 := List.mem_of_find?_eq_some hf
      have h2 := List.find?_some hf
      simp only [decide_eq_true_eq] at h2; subst h2
      simp only [Option.some.injEq]
      clear hf
      induction l with
      | nil => simp at h1
      | cons q l ih =>
        simp only [List.map_cons, List.nodup_cons] at hn
        rcases List.mem_cons.mp hmem with e1 | e1 <;> rcases List.mem_cons.mp h1 with e2 | e2
        · rw [← e1] at e2; exact (Prod.mk.inj e2).2
        · exact absurd (List.mem_map.mpr ⟨_, e2, by rw [← e1]⟩) hn.1
        · exact absurd (List.mem_map.mpr ⟨_, e1, by rw [← e2]⟩) hn.1
        · first | exact ih hn.2 e1 e2 | exact ih hn.2 e2 e1 | exact ih e1 hn.2 e2 | exact ih e2 hn.2 e1
  · intro h
    cases hf : l.find? (fun p => decide (p.1 = k)) with
    | none => rw [hf] at h; simp at h
    | some p =>
      rw [hf] at h
      simp only [Option.some.injEq] at h
      obtain ⟨pk, pv⟩ := p
      have h1 := List.mem_of_find?_eq_some hf
      have h2 := List.find?_some hf
      simp only [decide_eq_true_eq] at h2
      subst h2; subst h; exact h1

end HMap

/-- `std::collections::BTreeMap` with natural-number keys: pairs in increasing key order. -/
abbrev BMap (α : Type) := List (Nat × α)

namespace BMap
variable {α : Type}

/-- `BTreeMap::insert` -/
def insert (k : Nat) (v : α) : BMap α → BMap α
  | [] => [(k, v)]
  | (k', v') :: rest =>
    if k < k' then (k, v) :: (k', v') :: rest
    else if k = k' then (k, v) :: rest
    else (k', v') :: insert k v rest

/-- the representation invariant -/
def Sorted (m : BMap α) : Prop := (m.map Prod.fst).Pairwise (· < ·)

def keys (m : BMap α) : List Nat := m.map Prod.fst

/-- `BTreeMap::get` -/
def get? (m : BMap α) (k : Nat) : Option α := (m.find? (fun p => p.1 = k)).map Prod.snd

theorem mem_insert (k : Nat) (v : α) (m : BMap α) (hs : Sorted m) (p : Nat × α) :
    p ∈ insert k v m ↔ p = (k, v) ∨ (p ∈ m ∧ p.1 ≠ k) := by
  induction m with
  | nil => simp [insert]
  | cons q rest ih =>
    obtain ⟨k', v'⟩ := q
    simp only [Sorted, List.map_cons, List.pairwise_cons] at hs
    have hrest : ∀ p ∈ rest, k' < p.1 := fun p hp => hs.1 p.1 (List.mem_map.mpr ⟨p, hp, rfl⟩)
    unfold insert
    split
    · rename_i h
      simp only [List.mem_cons]
      constructor
      · rintro (h1 | h1 | h1)
        · exact .inl h1
        · exact .inr ⟨.inl h1, by subst h1; simp; omega⟩
        · exact .inr ⟨.inr h1, by have := hrest p h1; omega⟩
      · rintro (h1 | ⟨h1, -⟩)
        · exact .inl h1
        · exact .inr h1
    · split
      · rename_i h1 h2
        subst h2
        simp only [List.mem_cons]
        constructor
        · rintro (h | h)
          · exact .inl h
          · exact .inr ⟨.inr h, by have := hrest p h; omega⟩
        · rintro (h | ⟨h | h, h'⟩)
          · exact .inl h
          · subst h; simp at h'
          · exact .inr h
      · rename_i h1 h2
        simp only [List.mem_cons, ih hs.2]
        constructor
        · rintro (h | h | h)
          · exact .inr ⟨.inl h, by subst h; simp; omega⟩
          · exact .inl h
          · exact .inr ⟨.inr h.1, h.2⟩
        · rintro (h | ⟨h | h, h'⟩)
          · exact .inr (.inl h)
          · exact .inl h
          · exact .inr (.inr ⟨h, h'⟩)

theorem sorted_insert (k : Nat) (v : α) (m : BMap α) (hs : Sorted m) : Sorted (insert k v m) := by
  induction m with
  | nil => simp [insert, Sorted]
  | cons q rest ih =>
    obtain ⟨k', v'⟩ := q
    have hs0 := hs
    simp only [Sorted, List.map_cons, List.pairwise_cons] at hs
    unfold insert
    split
    · rename_i h
      simp only [Sorted, List.map_cons, List.pairwise_cons, List.mem_cons]
      refine ⟨?_, hs⟩
      rintro a (rfl | ha)
      · exact h
      · exact Nat.lt_trans h (hs.1 a ha)
    · split
      · rename_i h1 h2
        subst h2
        simpa [Sorted] using hs
      · rename_i h1 h2
        simp only [Sorted, List.map_cons, List.pairwise_cons]
        refine ⟨?_, ih hs.2⟩
        intro a ha
        obtain ⟨p, hp, rfl⟩ := List.mem_map.mp ha
        rcases (mem_insert k v rest hs.2 p).mp hp with rfl | ⟨hp', -⟩
        · simp; omega
        · exact hs.1 _ (List.mem_map.mpr ⟨p, hp', rfl⟩)

theorem get?_eq_some (m : BMap α) (hm : Sorted m) (k : Nat) (v : α) :
    get? m k = some v ↔ (k, v) ∈ m := by
  induction m with
  | nil => simp [get?]
  | cons q rest ih =>
    obtain ⟨qk, qv⟩ := q
    simp only [Sorted, List.map_cons, List.pairwise_cons] at hm
    by_cases hq : qk = k
    · subst hq
      simp only [get?, List.find?_cons, decide_true, Option.map_some, Option.some.injEq,
        List.mem_cons, Prod.mk.injEq, true_and]
      constructor
      · intro h; exact .inl h.symm
      · rintro (h | h)
        · exact h.symm
        · exact absurd (hm.1 qk (List.mem_map.mpr ⟨_, h, rfl⟩)) (Nat.lt_irrefl _)
    · have : get? ((qk, qv) :: rest) k = get? rest k := by simp [get?, hq]
      rw [this, ih hm.2]
      simp [Ne.symm hq]

theorem get?_insert (k k' : Nat) (v : α) (m : BMap α) (hs : Sorted m) :
    get? (insert k v m) k' = if k' = k then some v else get? m k' := by
  have hs' := sorted_insert k v m hs
  apply Option.ext
  intro a
  rw [get?_eq_some _ hs', mem_insert _ _ _ hs]
  by_cases hk : k' = k
  · subst hk; simp [eq_comm]
  · simp [hk, get?_eq_some _ hs]

/-- strictly increasing lists with the same members are equal -/
theorem sorted_ext : ∀ {l l' : List Nat}, l.Pairwise (· < ·) → l'.Pairwise (· < ·) →
    (∀ x, x ∈ l ↔ x ∈ l') → l = l'
  | [], [], _, _, _ => rfl
  | [], y :: l', _, _, h => by have := (h y).mpr (by simp); simp at this
  | x :: l, [], _, _, h => by have := (h x).mp (by simp); simp at this
  | x :: l, y :: l', h1, h2, h => by
    simp only [List.pairwise_cons] at h1 h2
    have hxy : x = y := by
      have hx := (h x).mp (by simp)
      have hy := (h y).mpr (by simp)
      rcases List.mem_cons.mp hx with e | e
      · exact e
      · rcases List.mem_cons.mp hy with e' | e'
        · exact e'.symm
        · have := h1.1 y e'; have := h2.1 x e; omega
    subst hxy
    congr 1
    refine sorted_ext h1.2 h2.2 fun z => ?_
    constructor
    · intro hz
      rcases List.mem_cons.mp ((h z).mp (by simp [hz])) with e | e
      · have := h1.1 z hz; omega
      · exact e
    · intro hz
      rcases List.mem_cons.mp ((h z).mpr (by simp [hz])) with e | e
      · have := h2.1 z hz; omega
      · exact e

theorem sorted_length_le : ∀ {l : List Nat} {lo hi : Nat}, l.Pairwise (· < ·) →
    (∀ x ∈ l, lo ≤ x ∧ x < hi) → l.length ≤ hi - lo
  | [], _, _, _, _ => by simp
  | x :: l, lo, hi, h1, h => by
    simp only [List.pairwise_cons] at h1
    have hx := h x (by simp)
    have := sorted_length_le (lo := x + 1) (hi := hi) h1.2
      (fun y hy => ⟨h1.1 y hy, (h y (by simp [hy])).2⟩)
    simp only [List.length_cons]; omega

/-- a strictly increasing list that fills its interval is the interval -/
theorem sorted_full : ∀ {l : List Nat} {lo : Nat}, l.Pairwise (· < ·) →
    (∀ x ∈ l, lo ≤ x ∧ x < lo + l.length) → l = List.range' lo l.length
  | [], _, _, _ => rfl
  | x :: l, lo, h1, h => by
    have h0 := h1
    simp only [List.pairwise_cons] at h1
    have hx := h x (by simp)
    have hle := sorted_length_le (lo := x + 1) (hi := lo + (l.length + 1)) h1.2
      (fun y hy => ⟨h1.1 y hy, (h y (by simp [hy])).2⟩)
    simp only [List.length_cons] at hx
    have hxlo : x = lo := by omega
    subst hxlo
    have := sorted_full (l := l) (lo := x + 1) h1.2
      (fun y hy => ⟨h1.1 y hy, by have := (h y (by simp [hy])).2; simp at this; omega⟩)
    rw [List.length_cons, List.range'_succ, ← this]

theorem filterMap_congr' {α β : Type} {f g : α → Option β} : ∀ {l : List α}, (∀ x ∈ l, f x = g x) →
    l.filterMap f = l.filterMap g
  | [], _ => rfl
  | x :: l, h => by
    simp only [List.filterMap_cons, h x (by simp),
      filterMap_congr' (fun y hy => h y (List.mem_cons_of_mem _ hy))]

theorem map_snd_eq (m : BMap α) (hs : Sorted m) : m.map Prod.snd = (m.map Prod.fst).filterMap (get? m) := by
  rw [List.filterMap_map]
  have : m.filterMap (get? m ∘ Prod.fst) = m.filterMap (some ∘ Prod.snd) := by
    apply filterMap_congr'
    intro p hp
    exact (get?_eq_some m hs p.1 p.2).mpr hp
  rw [this, List.filterMap_eq_map]

end BMap
end Verif
