import Verif.Analytics.Model
/-! # Lemmas about the windowing model -/
namespace Verif

namespace BMap
variable {α β : Type}

theorem sorted_filter (p : Nat × α → Bool) (m : BMap α) (h : Sorted m) : Sorted (m.filter p) := by
  unfold Sorted at *
  exact List.Pairwise.sublist ((List.filter_sublist).map Prod.fst) h

theorem ext_mem : ∀ {m m' : BMap α}, Sorted m → Sorted m' → (∀ p, p ∈ m ↔ p ∈ m') → m = m'
  | [], [], _, _, _ => rfl
  | [], y :: l', _, _, h => by have := (h y).mpr (by simp); simp at this
  | x :: l, [], _, _, h => by have := (h x).mp (by simp); simp at this
  | x :: l, y :: l', h1, h2, h => by
    simp only [Sorted, List.map_cons, List.pairwise_cons] at h1 h2
    have g1 : ∀ p ∈ l, x.1 < p.1 := fun p hp => h1.1 p.1 (List.mem_map.mpr ⟨p, hp, rfl⟩)
    have g2 : ∀ p ∈ l', y.1 < p.1 := fun p hp => h2.1 p.1 (List.mem_map.mpr ⟨p, hp, rfl⟩)
    have hxy : x = y := by
      have hx := (h x).mp (by simp)
      have hy := (h y).mpr (by simp)
      rcases List.mem_cons.mp hx with e | e
      · exact e
      · rcases List.mem_cons.mp hy with e' | e'
        · exact e'.symm
        · have := g1 y e'; have := g2 x e; omega
    subst hxy
    congr 1
    refine ext_mem h1.2 h2.2 fun z => ?_
    constructor
    · intro hz
      rcases List.mem_cons.mp ((h z).mp (by simp [hz])) with e | e
      · have := g1 z hz; subst e; omega
      · exact e
    · intro hz
      rcases List.mem_cons.mp ((h z).mpr (by simp [hz])) with e | e
      · have := g2 z hz; subst e; omega
      · exact e

theorem get?_map (f : α → β) (m : BMap α) (k : Nat) :
    get? (List.map (fun p => (p.1, f p.2)) m) k = (get? m k).map f := by
  induction m with
  | nil => rfl
  | cons q rest ih =>
    by_cases hq : q.1 = k
    · simp [get?, hq]
    · simpa [get?, hq] using ih

theorem insert_map (f : α → β) (k : Nat) (v : α) (m : BMap α) :
    insert k (f v) (List.map (fun p => (p.1, f p.2)) m) = List.map (fun p => (p.1, f p.2)) (insert k v m) := by
  induction m with
  | nil => rfl
  | cons q rest ih =>
    simp only [List.map_cons, insert]
    split
    · simp
    · split
      · simp
      · simp [ih]

theorem sorted_map (f : α → β) (m : BMap α) (h : Sorted m) :
    Sorted (List.map (fun p => (p.1, f p.2)) m : BMap β) := by
  unfold Sorted at *
  simpa [List.map_map, Function.comp_def] using h

theorem mem_unique (m : BMap α) (h : Sorted m) {k : Nat} {v w : α} (h1 : (k, v) ∈ m) (h2 : (k, w) ∈ m) :
    v = w := by
  rw [← get?_eq_some m h] at h1 h2
  rw [h1] at h2; exact Option.some.inj h2

/-- adding an item to one batch adds it once to the concatenation of the batches -/
theorem flatMap_insert_perm (k : Nat) (x : α) (m : BMap (List α)) (hs : Sorted m) :
    List.Perm ((insert k (((get? m k).getD []) ++ [x]) m).flatMap Prod.snd) (m.flatMap Prod.snd ++ [x]) := by
  induction m with
  | nil => simp [insert, get?]
  | cons q rest ih =>
    obtain ⟨k', v'⟩ := q
    have hs0 := hs
    simp only [Sorted, List.map_cons, List.pairwise_cons] at hs
    simp only [insert]
    split
    · rename_i h
      have : get? ((k', v') :: rest) k = none := by
        cases hg : get? ((k', v') :: rest) k with
        | none => rfl
        | some w =>
          have := (get?_eq_some _ hs0 _ _).mp hg
          rcases List.mem_cons.mp this with e | e
          · simp at e; omega
          · have := hs.1 k (List.mem_map.mpr ⟨_, e, rfl⟩); omega
      rw [this]
      simp only [Option.getD_none, List.nil_append, List.flatMap_cons]
      exact (List.perm_append_comm).trans (by simp)
    · split
      · rename_i h1 h2
        subst h2
        simp only [get?, List.find?_cons, decide_true, Option.map_some, Option.getD_some, List.flatMap_cons]
        simp only [List.append_assoc]
        exact List.Perm.append_left _ List.perm_append_comm
      · rename_i h1 h2
        have : get? ((k', v') :: rest) k = get? rest k := by
          have : ¬ k' = k := fun e => h2 e.symm
          simp [get?, this]
        rw [this]
        simp only [List.flatMap_cons, List.append_assoc]
        exact List.Perm.append_left _ (ih hs.2)
end BMap

namespace Analytics
variable {κ ι σ ο : Type}

theorem windowStart_le (t : Nat) : windowStart t ≤ t := Nat.div_mul_le_self _ _
theorem lt_windowStart_add (t : Nat) : t < windowStart t + minuteNs := by
  unfold windowStart
  have := Nat.lt_div_mul_add (a := t) (b := minuteNs) (by decide)
  omega
theorem windowStart_mono {a b : Nat} (h : a ≤ b) : windowStart a ≤ windowStart b :=
  Nat.mul_le_mul_right _ (Nat.div_le_div_right h)

theorem splitWindows_eq (m : BMap σ) (c : Nat) (hs : m.Sorted) :
    splitWindows m c = (m.filter (fun p => p.1 ≤ c), m.filter (fun p => ¬ p.1 ≤ c)) := by
  have hb := BMap.sorted_filter (fun p => decide (p.1 < c)) m hs
  have ha := BMap.sorted_filter (fun p => decide (¬ p.1 < c)) m hs
  unfold splitWindows
  simp only
  split
  · rename_i e he
    have hmem := (BMap.get?_eq_some _ ha _ _).mp he
    have hme : (c, e) ∈ m := (List.mem_filter.mp hmem).1
    congr 1
    · apply BMap.ext_mem (BMap.sorted_insert _ _ _ hb) (BMap.sorted_filter _ _ hs)
      intro p
      rw [BMap.mem_insert _ _ _ hb]
      simp only [List.mem_filter, decide_eq_true_eq]
      constructor
      · rintro (rfl | ⟨⟨h1, h2⟩, -⟩)
        · exact ⟨hme, Nat.le_refl _⟩
        · exact ⟨h1, Nat.le_of_lt h2⟩
      · rintro ⟨h1, h2⟩
        by_cases h : p.1 = c
        · left
          obtain ⟨pk, pv⟩ := p
          simp only at h; subst h
          rw [BMap.mem_unique m hs h1 hme]
        · right
          exact ⟨⟨h1, by omega⟩, h⟩
    · rw [List.filter_filter]
      apply List.filter_congr
      intro p _
      rw [Bool.eq_iff_iff]
      simp only [Bool.and_eq_true, decide_eq_true_eq, ne_eq]
      omega
  · rename_i he
    have hno : ∀ p ∈ m, p.1 ≠ c := by
      intro p hp hpc
      have : (c, p.2) ∈ m.filter (fun p => decide (¬ p.1 < c)) := by
        rw [List.mem_filter]; subst hpc; exact ⟨hp, by simp⟩
      rw [← BMap.get?_eq_some _ ha] at this
      rw [he] at this; cases this
    congr 1
    · apply List.filter_congr
      intro p hp
      have := hno p hp
      simp only [decide_eq_decide]; omega
    · apply List.filter_congr
      intro p hp
      have := hno p hp
      simp only [decide_eq_decide]; omega

theorem mapM_closeWindow {A : Agg κ ι σ ο} {dur : Nat} : ∀ {l : List (Nat × σ)} {res},
    l.mapM (closeWindow A dur) = some res → res = l.map (fun p => ((p.1, p.1 + dur), A.flush p.2))
  | [], res, h => by simp at h; exact h
  | p :: l, res, h => by
    simp only [List.mapM_cons, closeWindow, tadd, Option.bind_eq_bind] at h
    split at h
    · simp only [Option.bind_some, Option.bind_eq_some_iff, Option.pure_def, Option.some.injEq] at h
      obtain ⟨r, hr, rfl⟩ := h
      have := mapM_closeWindow (A := A) (dur := dur) (l := l) (res := r)
        (by simpa [closeWindow, tadd, Option.bind_eq_bind] using hr)
      simp [this]
    · simp at h

theorem mapM_closeWindow_some {A : Agg κ ι σ ο} {dur : Nat} : ∀ {l : List (Nat × σ)},
    (∀ p ∈ l, p.1 + dur ≤ maxTime) →
    l.mapM (closeWindow A dur) = some (l.map (fun p => ((p.1, p.1 + dur), A.flush p.2)))
  | [], _ => rfl
  | p :: l, h => by
    have h1 := h p (by simp)
    have h2 := mapM_closeWindow_some (A := A) (dur := dur) (l := l) (fun q hq => h q (by simp [hq]))
    rw [List.mapM_cons, h2]
    simp [closeWindow, tadd, h1]

end Analytics
end Verif
