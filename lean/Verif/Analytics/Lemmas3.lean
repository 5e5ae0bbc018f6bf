import Verif.Analytics.Lemmas2
/-! # The windowing invariant -/
namespace Verif

namespace HMap
variable {κ α : Type} [DecidableEq κ]
theorem Enum.insert {l : List (κ × α)} {m : HMap κ α} (h : Enum l m) (k : κ) (v : α) :
    Enum ((k, v) :: l.filter (fun p => p.1 ≠ k)) (m.insert k v) := by
  constructor
  · simp only [List.map_cons, List.nodup_cons]
    refine ⟨?_, ?_⟩
    · intro hmem
      obtain ⟨p, hp, e⟩ := List.mem_map.mp hmem
      have := (List.mem_filter.mp hp).2
      simp [e] at this
    · exact List.Pairwise.sublist ((List.filter_sublist).map Prod.fst) h.nodup
  · intro k' v'
    simp only [List.mem_cons, List.mem_filter, Prod.mk.injEq, HMap.insert]
    by_cases hk : k' = k
    · subst hk; simp [eq_comm]
    · simp [hk, h.mem]
end HMap

namespace Analytics
variable {κ ι σ ο : Type} [DecidableEq κ]

theorem lateItems_snoc (A : Agg κ ι σ ο) (lat : Nat) (x : ι) : ∀ (l pre : List ι),
    lateItems A lat pre (l ++ [x]) = lateItems A lat pre l ++ (if IsLate A lat (pre ++ l) x then [x] else [])
  | [], pre => by simp [lateItems]
  | y :: l, pre => by
    simp only [List.cons_append, lateItems, lateItems_snoc A lat x l (pre ++ [y]), List.append_assoc,
      List.nil_append]

theorem acceptedItems_snoc (A : Agg κ ι σ ο) (lat : Nat) (x : ι) : ∀ (l pre : List ι),
    acceptedItems A lat pre (l ++ [x]) =
      acceptedItems A lat pre l ++ (if IsLate A lat (pre ++ l) x then [] else [x])
  | [], pre => by simp [acceptedItems]
  | y :: l, pre => by
    simp only [List.cons_append, acceptedItems, acceptedItems_snoc A lat x l (pre ++ [y]), List.append_assoc,
      List.nil_append]

theorem acceptedItems_sublist (A : Agg κ ι σ ο) (lat : Nat) : ∀ (l pre : List ι),
    (acceptedItems A lat pre l).Sublist l
  | [], _ => by simp [acceptedItems]
  | x :: l, pre => by
    simp only [acceptedItems]
    split
    · exact (acceptedItems_sublist A lat l _).cons x
    · exact (acceptedItems_sublist A lat l _).cons_cons x

/-- the accepted items of a key that fall in a window -/
def windowItems (A : Agg κ ι σ ο) (lat : Nat) (hist : List ι) (k : κ) (s : Nat) : List ι :=
  (acceptedItems A lat [] hist).filter (fun x => decide (A.key x = k ∧ windowStart (A.ts x) = s))

def ofKey (A : Agg κ ι σ ο) (k : κ) (l : List ι) : List ι := l.filter (fun x => decide (A.key x = k))
def batchesOf (k : κ) (bs : List (Batch κ ι)) : List (Batch κ ι) := bs.filter (fun b => decide (b.1 = k))

/-- The state after the inputs `hist`, with the batches `bs` emitted so far and the open batches `G`. -/
structure Inv (A : Agg κ ι σ ο) (dur lat : Nat) (hist : List ι) (bs : List (Batch κ ι))
    (G : κ → BMap (List ι)) (st : WinAgg κ σ) : Prop where
  durEq : st.dur = dur
  latEq : st.lat = lat
  enum : ∃ l, HMap.Enum l st.active
  act : ∀ k, (st.active k).getD [] = (G k).map (fun p => (p.1, A.eval p.2))
  sorted : ∀ k, (G k).Sorted
  good : ∀ k s l, (s, l) ∈ G k → l ≠ [] ∧ l.Sublist hist ∧ ∀ x ∈ l, A.key x = k ∧ windowStart (A.ts x) = s
  goodB : ∀ k s l, (k, s, l) ∈ bs →
    l ≠ [] ∧ l.Sublist hist ∧ ∀ x ∈ l, A.key x = k ∧ windowStart (A.ts x) = s
  perm : ∀ k, (ofKey A k (acceptedItems A lat [] hist)).Perm
    ((batchesOf k bs).flatMap (fun b => b.2.2) ++ (G k).flatMap Prod.snd)
  cur : ∀ k, (st.current k = none ∧ ∀ x ∈ hist, A.key x ≠ k) ∨
    ∃ c, st.current k = some c ∧ (∃ x ∈ hist, A.key x = k ∧ A.ts x = c) ∧
      ∀ x ∈ hist, A.key x = k → A.ts x ≤ c
  closed : ∀ k s l, (k, s, l) ∈ bs → ∃ c, st.current k = some c ∧ s + dur ≤ windowStart (c - lat)
  opened : ∀ k s l, (s, l) ∈ G k → ∃ c, st.current k = some c ∧ windowStart (c - lat) < s + dur
  nodup : 0 < dur → (bs.map (fun b => (b.1, b.2.1))).Nodup
  fullB : 0 < dur → ∀ k s l, (k, s, l) ∈ bs → l = windowItems A lat hist k s
  fullG : 0 < dur → ∀ k s l, (s, l) ∈ G k → l = windowItems A lat hist k s
  miss : 0 < dur → ∀ k s, windowItems A lat hist k s ≠ [] →
    (∃ l, (k, s, l) ∈ bs) ∨ (∃ l, (s, l) ∈ G k)

theorem Inv.new (A : Agg κ ι σ ο) (dur lat : Nat) :
    Inv A dur lat [] [] (fun _ => []) (WinAgg.new dur lat) where
  durEq := rfl
  latEq := rfl
  enum := ⟨[], by simp, by simp [WinAgg.new]⟩
  act k := by simp [WinAgg.new]
  sorted k := by simp [BMap.Sorted]
  good := by simp
  goodB := by simp
  perm k := by simp [acceptedItems, ofKey, batchesOf]
  cur k := .inl ⟨rfl, by simp⟩
  closed := by simp
  opened := by simp
  nodup _ := by simp
  fullB _ := by simp
  fullG _ := by simp
  miss _ := by simp [windowItems, acceptedItems]

theorem getD_max {c : Option Nat} {t : Nat} : max (c.getD t) t = max (c.getD 0) t ∨ c = none := by
  cases c <;> simp

/-- what one successful step does -/
theorem processItem_eq {A : Agg κ ι σ ο} {st st' : WinAgg κ σ} {x : ι} {res late}
    (h : processItem A st x = some (res, late, st')) :
    let cur := (st.current (A.key x)).getD (A.ts x)
    st.lat ≤ cur ∧
    ((A.ts x < cur - st.lat ∧ res = [] ∧ late = [x] ∧
        st' = { st with current := st.current.insert (A.key x) cur }) ∨
     (¬ A.ts x < cur - st.lat ∧ late = [] ∧ st.lat ≤ max cur (A.ts x) ∧
      st.dur ≤ windowStart (max cur (A.ts x) - st.lat) ∧
      ∃ out keep, splitWindows (pushInto A ((st.active (A.key x)).getD []) (windowStart (A.ts x)) x)
          (windowStart (max cur (A.ts x) - st.lat) - st.dur) = (out, keep) ∧
        res = out.map (fun p => ((p.1, p.1 + st.dur), A.flush p.2)) ∧
        st' = { st with current := (st.current.insert (A.key x) cur).insert (A.key x) (max cur (A.ts x)),
                        active := st.active.insert (A.key x) keep })) := by
  simp only [processItem, tsub, Option.bind_eq_bind, Option.pure_def] at h
  intro cur
  split at h
  · rename_i hl
    refine ⟨hl, ?_⟩
    simp only [Option.bind_some] at h
    split at h
    · rename_i hlt
      simp only [Option.some.injEq, Prod.mk.injEq] at h
      obtain ⟨rfl, rfl, rfl⟩ := h
      exact .inl ⟨hlt, rfl, rfl, rfl⟩
    · rename_i hlt
      right
      split at h
      · rename_i hl2
        simp only [Option.bind_some] at h
        split at h
        · rename_i hd
          simp only [Option.bind_some, Option.bind_eq_some_iff, Option.some.injEq, Prod.mk.injEq] at h
          obtain ⟨r, hr, rfl, rfl, rfl⟩ := h
          exact ⟨hlt, rfl, hl2, hd, _, _, rfl, mapM_closeWindow hr, rfl⟩
        · simp at h
      · simp at h
  · simp at h

theorem eval_push (A : Agg κ ι σ ο) (l : List ι) (x : ι) : A.push (A.eval l) x = A.eval (l ++ [x]) := by
  simp [Agg.eval]

theorem pushInto_map (A : Agg κ ι σ ο) (m : BMap (List ι)) (s : Nat) (x : ι) :
    pushInto A (m.map (fun p => (p.1, A.eval p.2))) s x =
      (BMap.insert s (((m.get? s).getD []) ++ [x]) m).map (fun p => (p.1, A.eval p.2)) := by
  unfold pushInto
  rw [BMap.get?_map, ← BMap.insert_map, ← eval_push]
  congr 2
  cases m.get? s <;> rfl

theorem not_late_of_le {A : Agg κ ι σ ο} {lat : Nat} {hist : List ι} {x : ι} {c : Nat}
    (hb : ∀ y ∈ hist, A.key y = A.key x → A.ts y ≤ c) (h : c ≤ A.ts x + lat) : ¬ IsLate A lat hist x := by
  rintro ⟨y, hy, hk, hlt⟩
  have := hb y hy hk
  omega

theorem late_iff {A : Agg κ ι σ ο} {dur lat : Nat} {hist : List ι} {bs G} {st : WinAgg κ σ}
    (inv : Inv A dur lat hist bs G st) (x : ι) (hl : lat ≤ (st.current (A.key x)).getD (A.ts x)) :
    A.ts x < (st.current (A.key x)).getD (A.ts x) - lat ↔ IsLate A lat hist x := by
  rcases inv.cur (A.key x) with ⟨h1, h2⟩ | ⟨c, h1, ⟨y, hy, hyk, hyt⟩, h3⟩
  · rw [h1]; simp only [Option.getD_none]
    constructor
    · intro h; omega
    · rintro ⟨y, hy, hk, -⟩; exact absurd hk (h2 y hy)
  · rw [h1] at hl ⊢; simp only [Option.getD_some] at hl ⊢
    constructor
    · intro h; exact ⟨y, hy, hyk, by omega⟩
    · intro h
      apply Classical.byContradiction
      intro hc
      exact not_late_of_le h3 (by omega) h

theorem windowItems_late {A : Agg κ ι σ ο} {lat : Nat} {hist : List ι} {x : ι} (h : IsLate A lat hist x)
    (k : κ) (s : Nat) : windowItems A lat (hist ++ [x]) k s = windowItems A lat hist k s := by
  simp [windowItems, acceptedItems_snoc, h]

theorem windowItems_accept {A : Agg κ ι σ ο} {lat : Nat} {hist : List ι} {x : ι} (h : ¬ IsLate A lat hist x)
    (k : κ) (s : Nat) : windowItems A lat (hist ++ [x]) k s =
      windowItems A lat hist k s ++ (if A.key x = k ∧ windowStart (A.ts x) = s then [x] else []) := by
  simp only [windowItems, acceptedItems_snoc, List.nil_append, h, if_false, List.filter_append]
  by_cases hh : A.key x = k ∧ windowStart (A.ts x) = s <;> simp [hh]

theorem ofKey_accept {A : Agg κ ι σ ο} {lat : Nat} {hist : List ι} {x : ι} (h : ¬ IsLate A lat hist x)
    (k : κ) : ofKey A k (acceptedItems A lat [] (hist ++ [x])) =
      ofKey A k (acceptedItems A lat [] hist) ++ (if A.key x = k then [x] else []) := by
  simp only [ofKey, acceptedItems_snoc, List.nil_append, h, if_false, List.filter_append]
  by_cases hh : A.key x = k <;> simp [hh]

theorem sublist_snoc {l hist : List ι} (x : ι) (h : l.Sublist hist) : l.Sublist (hist ++ [x]) :=
  h.trans (List.sublist_append_left _ _)

theorem step_inv {A : Agg κ ι σ ο} {dur lat : Nat} {hist : List ι} {bs G} {st st' : WinAgg κ σ} {x res late}
    (inv : Inv A dur lat hist bs G st) (h : processItem A st x = some (res, late, st')) :
    ∃ nb G', Inv A dur lat (hist ++ [x]) (bs ++ nb) G' st' ∧
      late = (if IsLate A lat hist x then [x] else []) ∧
      outsOf ([] : List ι) res = nb.map (Batch.out A dur) := by
  have h := processItem_eq h
  simp only at h
  rw [inv.latEq, inv.durEq] at h
  obtain ⟨hl, h⟩ := h
  have hlate := late_iff inv x hl
  obtain ⟨cur, hcur⟩ : ∃ c, c = (st.current (A.key x)).getD (A.ts x) := ⟨_, rfl⟩
  rw [← hcur] at h hl hlate
  rcases h with ⟨hlt, rfl, rfl, rfl⟩ | ⟨hlt, rfl, hl2, hd, out, keep, hsp, rfl, rfl⟩
  · -- late
    have hL := hlate.mp hlt
    refine ⟨[], G, ?_, by simp [hL], rfl⟩
    have hcur' : st.current (A.key x) = some cur := by
      rcases inv.cur (A.key x) with ⟨h1, h2⟩ | ⟨c, h1, -⟩
      · rw [h1] at hcur; simp only [Option.getD_none] at hcur; omega
      · rw [h1] at hcur ⊢; simp only [Option.getD_some] at hcur; rw [hcur]
    have hins : st.current.insert (A.key x) cur = st.current := by
      funext k
      by_cases hk : k = A.key x
      · subst hk; rw [HMap.insert_self, hcur']
      · rw [HMap.insert_ne _ _ hk]
    have hst : (⟨st.active, st.current.insert (A.key x) cur, dur, lat⟩ : WinAgg κ σ) = st := by
      rw [hins, ← inv.durEq, ← inv.latEq]
    rw [hst, List.append_nil]
    exact {
      durEq := inv.durEq, latEq := inv.latEq, enum := inv.enum, act := inv.act, sorted := inv.sorted
      good := fun k s l hm => let ⟨a, b, c⟩ := inv.good k s l hm; ⟨a, sublist_snoc x b, c⟩
      goodB := fun k s l hm => let ⟨a, b, c⟩ := inv.goodB k s l hm; ⟨a, sublist_snoc x b, c⟩
      perm := fun k => by
        have : acceptedItems A lat [] (hist ++ [x]) = acceptedItems A lat [] hist := by
          simp [acceptedItems_snoc, hL]
        rw [this]; exact inv.perm k
      cur := fun k => by
        rcases inv.cur k with ⟨h1, h2⟩ | ⟨c, h1, ⟨y, hy, hyk⟩, h3⟩
        · left
          refine ⟨h1, fun y hy => ?_⟩
          rcases List.mem_append.mp hy with hy | hy
          · exact h2 y hy
          · simp only [List.mem_singleton] at hy; subst hy
            intro e; subst e; rw [hcur'] at h1; cases h1
        · right
          refine ⟨c, h1, ⟨y, by simp [hy], hyk⟩, fun z hz hzk => ?_⟩
          rcases List.mem_append.mp hz with hz | hz
          · exact h3 z hz hzk
          · simp only [List.mem_singleton] at hz; subst hz; subst hzk
            rw [hcur'] at h1; cases h1; omega
      closed := inv.closed, opened := inv.opened, nodup := inv.nodup
      fullB := fun hd k s l hm => by rw [windowItems_late hL]; exact inv.fullB hd k s l hm
      fullG := fun hd k s l hm => by rw [windowItems_late hL]; exact inv.fullG hd k s l hm
      miss := fun hd k s hm => by rw [windowItems_late hL] at hm; exact inv.miss hd k s hm }
  · -- accepted
    have hL : ¬ IsLate A lat hist x := fun hc => hlt (hlate.mpr hc)
    obtain ⟨key, hkey⟩ : ∃ k, k = A.key x := ⟨_, rfl⟩
    obtain ⟨ws, hws⟩ : ∃ k, k = windowStart (A.ts x) := ⟨_, rfl⟩
    obtain ⟨nc, hnc⟩ : ∃ c, c = max cur (A.ts x) := ⟨_, rfl⟩
    rw [← hkey, ← hws, ← hnc] at hsp
    rw [← hnc] at hl2 hd
    obtain ⟨cutoff, hcut⟩ : ∃ c, c = windowStart (nc - lat) - dur := ⟨_, rfl⟩
    rw [← hcut] at hsp
    obtain ⟨M, hM⟩ : ∃ M, M = BMap.insert ws ((((G key).get? ws).getD []) ++ [x]) (G key) := ⟨_, rfl⟩
    have hMs : BMap.Sorted M := hM ▸ BMap.sorted_insert _ _ _ (inv.sorted key)
    rw [inv.act key, pushInto_map, ← hM, splitWindows_eq _ _ (BMap.sorted_map _ _ hMs)] at hsp
    simp only [List.filter_map, Prod.mk.injEq, Function.comp_def] at hsp
    obtain ⟨rfl, rfl⟩ := hsp
    -- the current time of the key
    have hcurK : cur = A.ts x ∧ st.current key = none ∨ st.current key = some cur := by
      subst hkey
      cases hc : st.current (A.key x) with
      | none => left; rw [hc] at hcur; exact ⟨hcur, rfl⟩
      | some c => right; rw [hc] at hcur; simp at hcur; rw [hcur]
    have hmono : ∀ c, st.current key = some c → c ≤ nc := by
      intro c hc
      rcases hcurK with ⟨-, h⟩ | h
      · rw [hc] at h; cases h
      · rw [hc] at h; cases h; omega
    have hxle : A.ts x ≤ nc := by omega
    -- the window of `x` is above every closed one
    have hwsnew : windowStart (nc - lat) ≤ ws := by
      rw [hws]
      apply windowStart_mono
      omega
    obtain ⟨nb, hnb⟩ : ∃ nb : List (Batch κ ι), nb = (M.filter (fun p => decide (p.1 ≤ cutoff))).map
        (fun p => (key, p.1, p.2)) := ⟨_, rfl⟩
    obtain ⟨G', hG'⟩ : ∃ G' : κ → BMap (List ι), G' = fun k =>
        if k = key then M.filter (fun p => decide (¬ p.1 ≤ cutoff)) else G k := ⟨_, rfl⟩
    have hG'key : G' key = M.filter (fun p => decide (¬ p.1 ≤ cutoff)) := by rw [hG']; simp
    have hG'ne : ∀ k, k ≠ key → G' k = G k := by intro k hk; rw [hG']; simp [hk]
    have memnb : ∀ k s l, (k, s, l) ∈ nb ↔ k = key ∧ (s, l) ∈ M ∧ s ≤ cutoff := by
      intro k s l
      rw [hnb]
      simp only [List.mem_map, List.mem_filter, decide_eq_true_eq, Prod.mk.injEq, Prod.exists]
      constructor
      · rintro ⟨a, b, ⟨h1, h2⟩, rfl, rfl, rfl⟩; exact ⟨rfl, h1, h2⟩
      · rintro ⟨rfl, h1, h2⟩; exact ⟨s, l, ⟨h1, h2⟩, rfl, rfl, rfl⟩
    have memG' : ∀ s l, (s, l) ∈ G' key ↔ (s, l) ∈ M ∧ ¬ s ≤ cutoff := by
      intro s l
      rw [hG'key]
      simp only [List.mem_filter, decide_eq_true_eq]
    have memM : ∀ s l, (s, l) ∈ M ↔ (s = ws ∧ l = ((G key).get? ws).getD [] ++ [x]) ∨ ((s, l) ∈ G key ∧ s ≠ ws) := by
      intro s l
      rw [hM, BMap.mem_insert _ _ _ (inv.sorted key)]
      simp only [Prod.mk.injEq]
    have getG : ∀ l, (G key).get? ws = some l ↔ (ws, l) ∈ G key := fun l => BMap.get?_eq_some _ (inv.sorted key) _ _
    have goodM : ∀ s l, (s, l) ∈ M → l ≠ [] ∧ l.Sublist (hist ++ [x]) ∧
        ∀ y ∈ l, A.key y = key ∧ windowStart (A.ts y) = s := by
      intro s l hm
      rcases (memM s l).mp hm with ⟨rfl, rfl⟩ | ⟨hm, -⟩
      · refine ⟨by simp, ?_, ?_⟩
        · apply List.Sublist.append _ (List.Sublist.refl _)
          cases hg : (G key).get? s with
          | none => simp
          | some l => exact (inv.good key s l ((getG l).mp hg)).2.1
        · intro y hy
          rcases List.mem_append.mp hy with hy | hy
          · cases hg : (G key).get? s with
            | none => rw [hg] at hy; simp at hy
            | some l => rw [hg] at hy; exact (inv.good key s l ((getG l).mp hg)).2.2 y hy
          · simp only [List.mem_singleton] at hy; subst hy; exact ⟨hkey.symm, hws.symm⟩
      · obtain ⟨a, b, c⟩ := inv.good key s l hm
        exact ⟨a, sublist_snoc x b, c⟩
    have hWkey : ∀ s, s ≠ ws → windowItems A lat (hist ++ [x]) key s = windowItems A lat hist key s := by
      intro s hs
      rw [windowItems_accept hL, if_neg, List.append_nil]
      rintro ⟨-, e⟩; exact hs (e ▸ hws.symm ▸ rfl)
    have hWne : ∀ k s, k ≠ key → windowItems A lat (hist ++ [x]) k s = windowItems A lat hist k s := by
      intro k s hk
      rw [windowItems_accept hL, if_neg, List.append_nil]
      rintro ⟨e, -⟩; exact hk (e ▸ hkey.symm ▸ rfl)
    -- with positive duration the window of `x` was never emitted
    have hfresh : 0 < dur → ∀ l, (key, ws, l) ∉ bs := by
      intro hdur l hm
      obtain ⟨c, hc, hle⟩ := inv.closed key ws l hm
      have h1 := windowStart_mono (a := c - lat) (b := nc - lat) (by have := hmono c hc; omega)
      have := hmono c hc
      -- closed: ws + dur ≤ windowStart (c - lat) ≤ windowStart (nc - lat) ≤ ws
      omega
    have hWws : 0 < dur → windowItems A lat hist key ws = ((G key).get? ws).getD [] := by
      intro hdur
      cases hg : (G key).get? ws with
      | some l => exact (inv.fullG hdur key ws l ((getG l).mp hg)).symm
      | none =>
        apply Classical.byContradiction
        intro hne
        rcases inv.miss hdur key ws hne with ⟨l, hl⟩ | ⟨l, hl⟩
        · exact hfresh hdur l hl
        · rw [(getG l).mpr hl] at hg; cases hg
    have fullM : 0 < dur → ∀ s l, (s, l) ∈ M → l = windowItems A lat (hist ++ [x]) key s := by
      intro hdur s l hm
      rcases (memM s l).mp hm with ⟨rfl, rfl⟩ | ⟨hm, hne⟩
      · rw [windowItems_accept hL, if_pos ⟨hkey.symm, hws.symm⟩, hWws hdur]
      · rw [hWkey s hne]; exact inv.fullG hdur key s l hm
    refine ⟨nb, G', ?_, by simp [hL], ?_⟩
    · exact {
        durEq := rfl, latEq := rfl
        enum := let ⟨l, hl⟩ := inv.enum; ⟨_, hl.insert _ _⟩
        act := fun k => by
          show Option.getD (HMap.insert st.active (A.key x) _ k) [] = _
          by_cases hk : k = key
          · subst hk; rw [hkey, HMap.insert_self, ← hkey, hG'key]; rfl
          · rw [HMap.insert_ne _ _ (hkey ▸ hk), hG'ne k hk]; exact inv.act k
        sorted := fun k => by
          by_cases hk : k = key
          · subst hk; rw [hG'key]; exact BMap.sorted_filter _ _ hMs
          · rw [hG'ne k hk]; exact inv.sorted k
        good := fun k s l hm => by
          by_cases hk : k = key
          · subst hk; exact goodM s l ((memG' s l).mp hm).1
          · rw [hG'ne k hk] at hm
            obtain ⟨a, b, c⟩ := inv.good k s l hm
            exact ⟨a, sublist_snoc x b, c⟩
        goodB := fun k s l hm => by
          rcases List.mem_append.mp hm with hm | hm
          · obtain ⟨a, b, c⟩ := inv.goodB k s l hm
            exact ⟨a, sublist_snoc x b, c⟩
          · obtain ⟨rfl, h1, -⟩ := (memnb k s l).mp hm
            exact goodM s l h1
        perm := fun k => by
          rw [ofKey_accept hL]
          by_cases hk : k = key
          · subst hk
            rw [if_pos hkey.symm, hG'key]
            have e1 : (batchesOf k (bs ++ nb)).flatMap (fun b => b.2.2) =
                (batchesOf k bs).flatMap (fun b => b.2.2) ++
                  (M.filter (fun p => decide (p.1 ≤ cutoff))).flatMap Prod.snd := by
              have e2 : batchesOf k nb = nb := by
                unfold batchesOf
                rw [List.filter_eq_self]
                intro b hb
                exact decide_eq_true ((memnb b.1 b.2.1 b.2.2).mp hb).1
              unfold batchesOf at e2 ⊢
              rw [List.filter_append, List.flatMap_append, e2, hnb, List.flatMap_map]
            rw [e1, List.append_assoc]
            have e3 : ((M.filter (fun p => decide (p.1 ≤ cutoff))).flatMap Prod.snd ++
                (M.filter (fun p => decide (¬ p.1 ≤ cutoff))).flatMap Prod.snd).Perm
                ((G k).flatMap Prod.snd ++ [x]) := by
              rw [← List.flatMap_append]
              have := (List.filter_append_perm (fun p : Nat × List ι => decide (p.1 ≤ cutoff)) M).flatMap_right Prod.snd
              refine List.Perm.trans (List.Perm.of_eq ?_) (this.trans ?_)
              · congr 3
                funext p; simp only [decide_not]
              · rw [hM]; exact BMap.flatMap_insert_perm ws x (G k) (inv.sorted k)
            refine ((inv.perm k).append_right [x]).trans ?_
            rw [List.append_assoc]
            exact List.Perm.append_left _ e3.symm
          · rw [if_neg (fun e => hk (e.symm.trans hkey.symm)), List.append_nil, hG'ne k hk]
            have e2 : batchesOf k nb = [] := by
              unfold batchesOf
              rw [List.filter_eq_nil_iff]
              intro b hb
              rw [((memnb b.1 b.2.1 b.2.2).mp hb).1]
              simp [Ne.symm hk]
            unfold batchesOf at e2 ⊢
            rw [List.filter_append, e2, List.append_nil]
            exact inv.perm k
        cur := fun k => by
          show (HMap.insert (HMap.insert st.current (A.key x) cur) (A.key x) (max cur (A.ts x)) k = none ∧ _) ∨
            ∃ c, HMap.insert (HMap.insert st.current (A.key x) cur) (A.key x) (max cur (A.ts x)) k = some c ∧ _
          by_cases hk : k = key
          · subst hk
            right
            refine ⟨nc, by rw [hkey, HMap.insert_self, ← hnc], ?_, ?_⟩
            · by_cases hcx : cur ≤ A.ts x
              · exact ⟨x, by simp, hkey.symm, by omega⟩
              · rcases hcurK with ⟨h, -⟩ | h
                · omega
                · rcases inv.cur k with ⟨h1, -⟩ | ⟨c, h1, ⟨y, hy, hyk, hyt⟩, -⟩
                  · rw [h] at h1; cases h1
                  · rw [h] at h1; cases h1
                    exact ⟨y, by simp [hy], hyk, by omega⟩
            · intro y hy hyk
              rcases List.mem_append.mp hy with hy | hy
              · rcases inv.cur k with ⟨-, h2⟩ | ⟨c, h1, -, h3⟩
                · exact absurd hyk (h2 y hy)
                · have := h3 y hy hyk; have := hmono c h1; omega
              · simp only [List.mem_singleton] at hy; subst hy; exact hxle
          · rw [HMap.insert_ne _ _ (hkey ▸ hk), HMap.insert_ne _ _ (hkey ▸ hk)]
            rcases inv.cur k with ⟨h1, h2⟩ | ⟨c, h1, ⟨y, hy, hyk⟩, h3⟩
            · left
              refine ⟨h1, fun y hy => ?_⟩
              rcases List.mem_append.mp hy with hy | hy
              · exact h2 y hy
              · simp only [List.mem_singleton] at hy; subst hy
                intro e; exact hk (e ▸ hkey.symm ▸ rfl)
            · right
              refine ⟨c, h1, ⟨y, by simp [hy], hyk⟩, fun z hz hzk => ?_⟩
              rcases List.mem_append.mp hz with hz | hz
              · exact h3 z hz hzk
              · simp only [List.mem_singleton] at hz; subst hz
                exact absurd (hzk.symm.trans hkey.symm) hk
        closed := fun k s l hm => by
          show ∃ c, HMap.insert (HMap.insert st.current (A.key x) cur) (A.key x) (max cur (A.ts x)) k = some c ∧ _
          rcases List.mem_append.mp hm with hm | hm
          · obtain ⟨c, hc, hle⟩ := inv.closed k s l hm
            by_cases hk : k = key
            · subst hk
              refine ⟨nc, by rw [hkey, HMap.insert_self, ← hnc], ?_⟩
              have h1 := windowStart_mono (a := c - lat) (b := nc - lat) (by have := hmono c hc; omega)
              omega
            · rw [HMap.insert_ne _ _ (hkey ▸ hk), HMap.insert_ne _ _ (hkey ▸ hk)]
              exact ⟨c, hc, hle⟩
          · obtain ⟨rfl, h1, h2⟩ := (memnb k s l).mp hm
            refine ⟨nc, by rw [hkey, HMap.insert_self, ← hnc], by omega⟩
        opened := fun k s l hm => by
          show ∃ c, HMap.insert (HMap.insert st.current (A.key x) cur) (A.key x) (max cur (A.ts x)) k = some c ∧ _
          by_cases hk : k = key
          · subst hk
            have := ((memG' s l).mp hm).2
            refine ⟨nc, by rw [hkey, HMap.insert_self, ← hnc], by omega⟩
          · rw [hG'ne k hk] at hm
            rw [HMap.insert_ne _ _ (hkey ▸ hk), HMap.insert_ne _ _ (hkey ▸ hk)]
            exact inv.opened k s l hm
        nodup := fun hdur => by
          rw [List.map_append, List.nodup_append]
          refine ⟨inv.nodup hdur, ?_, ?_⟩
          · rw [hnb, List.map_map]
            have : BMap.Sorted (M.filter (fun p => decide (p.1 ≤ cutoff))) := BMap.sorted_filter _ _ hMs
            unfold BMap.Sorted at this
            rw [List.pairwise_map] at this
            unfold List.Nodup
            rw [List.pairwise_map]
            exact this.imp (fun {a b} hab e => by simp at e; omega)
          · intro a ha b hb e
            subst e
            obtain ⟨⟨k1, s1, l1⟩, h1, rfl⟩ := List.mem_map.mp ha
            obtain ⟨⟨k2, s2, l2⟩, h2, e⟩ := List.mem_map.mp hb
            simp only [Prod.mk.injEq] at e
            obtain ⟨rfl, rfl⟩ := e
            obtain ⟨rfl, h3, h4⟩ := (memnb _ _ _).mp h2
            rcases (memM s2 l2).mp h3 with ⟨rfl, -⟩ | ⟨h5, -⟩
            · exact hfresh hdur l1 h1
            · obtain ⟨c, hc, hle⟩ := inv.closed _ _ _ h1
              obtain ⟨c', hc', hlt'⟩ := inv.opened _ _ _ h5
              rw [hc] at hc'; cases hc'
              omega
        fullB := fun hdur k s l hm => by
          rcases List.mem_append.mp hm with hm | hm
          · by_cases hk : k = key
            · subst hk
              by_cases hs : s = ws
              · subst hs; exact absurd hm (hfresh hdur l)
              · rw [hWkey s hs]; exact inv.fullB hdur k s l hm
            · rw [hWne k s hk]; exact inv.fullB hdur k s l hm
          · obtain ⟨rfl, h1, -⟩ := (memnb k s l).mp hm
            exact fullM hdur s l h1
        fullG := fun hdur k s l hm => by
          by_cases hk : k = key
          · subst hk; exact fullM hdur s l ((memG' s l).mp hm).1
          · rw [hG'ne k hk] at hm
            rw [hWne k s hk]; exact inv.fullG hdur k s l hm
        miss := fun hdur k s hm => by
          by_cases hk : k = key
          · subst hk
            have hin : (∃ l, (k, s, l) ∈ bs) ∨ ∃ l, (s, l) ∈ M := by
              by_cases hs : s = ws
              · subst hs; exact .inr ⟨_, (memM _ _).mpr (.inl ⟨rfl, rfl⟩)⟩
              · rw [hWkey s hs] at hm
                rcases inv.miss hdur k s hm with ⟨l, hl⟩ | ⟨l, hl⟩
                · exact .inl ⟨l, hl⟩
                · exact .inr ⟨l, (memM _ _).mpr (.inr ⟨hl, hs⟩)⟩
            rcases hin with ⟨l, hl⟩ | ⟨l, hl⟩
            · exact .inl ⟨l, by simp [hl]⟩
            · by_cases hsc : s ≤ cutoff
              · exact .inl ⟨l, List.mem_append_right _ ((memnb _ _ _).mpr ⟨rfl, hl, hsc⟩)⟩
              · exact .inr ⟨l, (memG' s l).mpr ⟨hl, hsc⟩⟩
          · rw [hWne k s hk] at hm
            rcases inv.miss hdur k s hm with ⟨l, hl⟩ | ⟨l, hl⟩
            · exact .inl ⟨l, by simp [hl]⟩
            · exact .inr ⟨l, by rw [hG'ne k hk]; exact hl⟩ }
    · rw [hnb]
      simp [outsOf, Batch.out, List.map_map, Function.comp_def]

/-- What holds of the batches once everything has been emitted. -/
structure Final (A : Agg κ ι σ ο) (dur lat : Nat) (hist : List ι) (bs : List (Batch κ ι)) : Prop where
  goodB : ∀ k s l, (k, s, l) ∈ bs →
    l ≠ [] ∧ l.Sublist hist ∧ ∀ x ∈ l, A.key x = k ∧ windowStart (A.ts x) = s
  perm : ∀ k, (ofKey A k (acceptedItems A lat [] hist)).Perm ((batchesOf k bs).flatMap (fun b => b.2.2))
  nodup : 0 < dur → (bs.map (fun b => (b.1, b.2.1))).Nodup
  fullB : 0 < dur → ∀ k s l, (k, s, l) ∈ bs → l = windowItems A lat hist k s
  miss : 0 < dur → ∀ k s, windowItems A lat hist k s ≠ [] → ∃ l, (k, s, l) ∈ bs

theorem batchesOf_append (k : κ) (a b : List (Batch κ ι)) :
    batchesOf k (a ++ b) = batchesOf k a ++ batchesOf k b := List.filter_append ..

/-- the batches handed out by the final flush -/
def flushBatches (G : κ → BMap (List ι)) (ord : List (κ × BMap σ)) : List (Batch κ ι) :=
  ord.flatMap (fun e => (G e.1).map (fun p => (e.1, p.1, p.2)))

theorem mem_flushBatches {G : κ → BMap (List ι)} {ord : List (κ × BMap σ)} {k s l} :
    (k, s, l) ∈ flushBatches G ord ↔ k ∈ ord.map Prod.fst ∧ (s, l) ∈ G k := by
  simp only [flushBatches, List.mem_flatMap, List.mem_map, Prod.mk.injEq, Prod.exists]
  constructor
  · rintro ⟨a, b, h1, c, d, h2, rfl, rfl, rfl⟩
    exact ⟨⟨_, _, h1, rfl⟩, h2⟩
  · rintro ⟨⟨a, b, h1, rfl⟩, h2⟩
    exact ⟨a, b, h1, s, l, h2, rfl, rfl, rfl⟩

theorem batchesOf_flushBatches {G : κ → BMap (List ι)} (k : κ) : ∀ {ord : List (κ × BMap σ)},
    (ord.map Prod.fst).Nodup → batchesOf k (flushBatches G ord) =
      if k ∈ ord.map Prod.fst then (G k).map (fun p => (k, p.1, p.2)) else []
  | [], _ => rfl
  | e :: ord, h => by
    simp only [List.map_cons, List.nodup_cons] at h
    have ih := batchesOf_flushBatches (G := G) k h.2
    have : flushBatches G (e :: ord) = (G e.1).map (fun p => (e.1, p.1, p.2)) ++ flushBatches G ord := rfl
    rw [this, batchesOf_append, ih]
    by_cases hk : k = e.1
    · subst hk
      rw [if_neg h.1, List.append_nil, if_pos (by simp)]
      unfold batchesOf
      rw [List.filter_eq_self]
      intro b hb
      obtain ⟨p, -, rfl⟩ := List.mem_map.mp hb
      simp
    · have : batchesOf k ((G e.1).map (fun p => (e.1, p.1, p.2))) = [] := by
        unfold batchesOf
        rw [List.filter_eq_nil_iff]
        intro b hb
        obtain ⟨p, -, rfl⟩ := List.mem_map.mp hb
        simp [Ne.symm hk]
      rw [this, List.nil_append]
      have hiff : k ∈ (e :: ord).map Prod.fst ↔ k ∈ ord.map Prod.fst := by
        rw [List.map_cons, List.mem_cons]; simp only [hk, false_or]
      by_cases hm : k ∈ ord.map Prod.fst
      · rw [if_pos hm, if_pos (hiff.mpr hm)]
      · rw [if_neg hm, if_neg (fun h => hm (hiff.mp h))]

theorem nodup_flushBatches {G : κ → BMap (List ι)} (hs : ∀ k, (G k).Sorted) : ∀ {ord : List (κ × BMap σ)},
    (ord.map Prod.fst).Nodup → ((flushBatches G ord).map (fun b => (b.1, b.2.1))).Nodup
  | [], _ => by simp [flushBatches]
  | e :: ord, h => by
    simp only [List.map_cons, List.nodup_cons] at h
    have ih := nodup_flushBatches hs h.2
    have : flushBatches G (e :: ord) = (G e.1).map (fun p => (e.1, p.1, p.2)) ++ flushBatches G ord := rfl
    rw [this, List.map_append, List.nodup_append]
    refine ⟨?_, ih, ?_⟩
    · have := hs e.1
      unfold BMap.Sorted at this
      rw [List.pairwise_map] at this
      rw [List.map_map]
      unfold List.Nodup
      rw [List.pairwise_map]
      exact this.imp (fun {a b} hab he => by simp at he; omega)
    · intro a ha b hb hab
      subst hab
      obtain ⟨⟨k1, s1, l1⟩, h1, rfl⟩ := List.mem_map.mp ha
      obtain ⟨⟨k2, s2, l2⟩, h2, he⟩ := List.mem_map.mp hb
      obtain ⟨p, -, hp⟩ := List.mem_map.mp h1
      simp only [Prod.mk.injEq] at hp he
      obtain ⟨rfl, rfl, rfl⟩ := hp
      obtain ⟨rfl, -⟩ := he
      exact h.1 (mem_flushBatches.mp h2).1

theorem flushBatches_out {A : Agg κ ι σ ο} {G : κ → BMap (List ι)} (dur : Nat) : ∀ (ord : List (κ × BMap σ)),
    (∀ e ∈ ord, e.2 = (G e.1).map (fun p => (p.1, A.eval p.2))) →
    (outsOf [] ((ord.flatMap Prod.snd).map (fun p => ((p.1, p.1 + dur), A.flush p.2))) : List (Out ι ο)) =
      (flushBatches G ord).map (Batch.out A dur)
  | [], _ => rfl
  | e :: ord, h => by
    have ih := flushBatches_out (A := A) (G := G) dur ord (fun e he => h e (by simp [he]))
    have : flushBatches G (e :: ord) = (G e.1).map (fun p => (e.1, p.1, p.2)) ++ flushBatches G ord := rfl
    rw [this, List.map_append, ← ih]
    simp [outsOf, h e, Batch.out, List.map_map, Function.comp_def]

theorem winsOf_append : ∀ (a b : List (Out ι ο)), winsOf (a ++ b) = winsOf a ++ winsOf b
  | [], _ => rfl
  | .win w v :: a, b => by simp [winsOf, winsOf_append a b]
  | .late x :: a, b => by simp [winsOf, winsOf_append a b]
theorem latesOf_append : ∀ (a b : List (Out ι ο)), latesOf (a ++ b) = latesOf a ++ latesOf b
  | [], _ => rfl
  | .win w v :: a, b => by simp [latesOf, latesOf_append a b]
  | .late x :: a, b => by simp [latesOf, latesOf_append a b]
theorem winsOf_outsOf (late : List ι) (res : List ((Nat × Nat) × ο)) :
    winsOf (outsOf late res) = outsOf [] res := by
  have h1 : ∀ l : List ι, winsOf (l.map (Out.late (ο := ο))) = [] := by
    intro l; induction l <;> simp_all [winsOf]
  have h2 : ∀ l : List ((Nat × Nat) × ο), winsOf (l.map (fun w => Out.win (ι := ι) w.1 w.2)) =
      l.map (fun w => Out.win w.1 w.2) := by
    intro l; induction l <;> simp_all [winsOf]
  simp [outsOf, winsOf_append, h1, h2]
theorem latesOf_outsOf (late : List ι) (res : List ((Nat × Nat) × ο)) : latesOf (outsOf late res) = late := by
  have h1 : ∀ l : List ι, latesOf (l.map (Out.late (ο := ο))) = l := by
    intro l; induction l <;> simp_all [latesOf]
  have h2 : ∀ l : List ((Nat × Nat) × ο), latesOf (l.map (fun w => Out.win (ι := ι) w.1 w.2)) = [] := by
    intro l; induction l <;> simp_all [latesOf]
  simp [outsOf, latesOf_append, h1, h2]

theorem allOuts_spec {A : Agg κ ι σ ο} {ordOf : HMap κ (BMap σ) → List (κ × BMap σ)} (ho : IsOrder ordOf)
    {dur lat : Nat} : ∀ {items hist : List ι} {bs G} {st : WinAgg κ σ} {outs},
    Inv A dur lat hist bs G st → allOuts A ordOf st items = some outs →
    ∃ nb, winsOf outs = nb.map (Batch.out A dur) ∧ latesOf outs = lateItems A lat hist items ∧
      Final A dur lat (hist ++ items) (bs ++ nb)
  | [], hist, bs, G, st, outs, inv, h => by
    simp only [allOuts, flushAll, Option.bind_eq_bind, Option.bind_eq_some_iff, Option.pure_def,
      Option.some.injEq] at h
    obtain ⟨⟨res, st'⟩, ⟨r, hr, e⟩, rfl⟩ := h
    simp only [Prod.mk.injEq] at e
    obtain ⟨rfl, rfl⟩ := e
    have hr := mapM_closeWindow hr
    obtain ⟨l0, hl0⟩ := inv.enum
    have hE := ho _ _ hl0
    obtain ⟨ord, hord⟩ : ∃ o, o = ordOf st.active := ⟨_, rfl⟩
    rw [← hord] at hr hE
    rw [inv.durEq] at hr
    have hG : ∀ e ∈ ord, e.2 = (G e.1).map (fun p => (p.1, A.eval p.2)) := by
      intro e he
      have := (hE.mem e.1 e.2).mp he
      rw [← inv.act, this]; rfl
    have hnotin : ∀ k, k ∉ ord.map Prod.fst → G k = [] := by
      intro k hk
      have h1 := inv.act k
      cases ha : st.active k with
      | some m => exact absurd (List.mem_map.mpr ⟨_, (hE.mem k m).mpr ha, rfl⟩) hk
      | none => rw [ha] at h1; simpa using h1.symm
    have hin : ∀ k s l, (s, l) ∈ G k → (k, s, l) ∈ flushBatches G ord := by
      intro k s l hm
      refine mem_flushBatches.mpr ⟨?_, hm⟩
      apply Classical.byContradiction
      intro hk
      rw [hnotin k hk] at hm; simp at hm
    refine ⟨flushBatches G ord, ?_, ?_, ?_⟩
    · rw [winsOf_outsOf, hr, flushBatches_out dur ord hG]
    · rw [latesOf_outsOf]; rfl
    · rw [List.append_nil]
      exact {
        goodB := fun k s l hm => by
          rcases List.mem_append.mp hm with hm | hm
          · exact inv.goodB k s l hm
          · exact inv.good k s l (mem_flushBatches.mp hm).2
        perm := fun k => by
          rw [batchesOf_append, batchesOf_flushBatches k hE.nodup, List.flatMap_append]
          refine (inv.perm k).trans (List.Perm.append_left _ (List.Perm.of_eq ?_))
          split
          · rw [List.flatMap_map]
          · rename_i hk; rw [hnotin k hk]; rfl
        nodup := fun hd => by
          rw [List.map_append, List.nodup_append]
          refine ⟨inv.nodup hd, nodup_flushBatches inv.sorted hE.nodup, ?_⟩
          intro a ha b hb hab
          subst hab
          obtain ⟨⟨k1, s1, l1⟩, h1, rfl⟩ := List.mem_map.mp ha
          obtain ⟨⟨k2, s2, l2⟩, h2, he⟩ := List.mem_map.mp hb
          simp only [Prod.mk.injEq] at he
          obtain ⟨rfl, rfl⟩ := he
          obtain ⟨c, hc, hle⟩ := inv.closed _ _ _ h1
          obtain ⟨c', hc', hlt⟩ := inv.opened _ _ _ (mem_flushBatches.mp h2).2
          rw [hc] at hc'; cases hc'; omega
        fullB := fun hd k s l hm => by
          rcases List.mem_append.mp hm with hm | hm
          · exact inv.fullB hd k s l hm
          · exact inv.fullG hd k s l (mem_flushBatches.mp hm).2
        miss := fun hd k s hm => by
          rcases inv.miss hd k s hm with ⟨l, hl⟩ | ⟨l, hl⟩
          · exact ⟨l, List.mem_append_left _ hl⟩
          · exact ⟨l, List.mem_append_right _ (hin k s l hl)⟩ }
  | x :: items, hist, bs, G, st, outs, inv, h => by
    simp only [allOuts, Option.bind_eq_bind, Option.bind_eq_some_iff, Option.pure_def, Option.some.injEq] at h
    obtain ⟨⟨res, late, st'⟩, hp, outs', ho', rfl⟩ := h
    obtain ⟨nb, G', inv', hlate, hres⟩ := step_inv inv hp
    obtain ⟨nb', hw, hl, hf⟩ := allOuts_spec ho inv' ho'
    refine ⟨nb ++ nb', ?_, ?_, ?_⟩
    · rw [winsOf_append, winsOf_outsOf, hres, hw, List.map_append]
    · rw [latesOf_append, latesOf_outsOf, hl, hlate]; rfl
    · rw [← List.append_assoc bs]
      rw [List.append_assoc hist] at hf
      exact hf

/-- the run does not panic when all times involved are representable -/
theorem allOuts_some {A : Agg κ ι σ ο} {ordOf : HMap κ (BMap σ) → List (κ × BMap σ)} (ho : IsOrder ordOf)
    {dur lat : Nat} : ∀ {items hist : List ι} {bs G} {st : WinAgg κ σ},
    Inv A dur lat hist bs G st →
    (∀ x ∈ hist ++ items, lat + dur + minuteNs ≤ A.ts x ∧ A.ts x + dur ≤ maxTime) →
    ∃ outs, allOuts A ordOf st items = some outs
  | [], hist, bs, G, st, inv, h => by
    obtain ⟨l0, hl0⟩ := inv.enum
    have hE := ho _ _ hl0
    have : ∀ p ∈ (ordOf st.active).flatMap Prod.snd, p.1 + st.dur ≤ maxTime := by
      intro p hp
      obtain ⟨e, he, hpe⟩ := List.mem_flatMap.mp hp
      have h1 := (hE.mem e.1 e.2).mp he
      have h2 := inv.act e.1
      rw [h1] at h2
      simp only [Option.getD_some] at h2
      rw [h2] at hpe
      obtain ⟨q, hq, rfl⟩ := List.mem_map.mp hpe
      obtain ⟨hne, hsub, hk⟩ := inv.good e.1 q.1 q.2 hq
      obtain ⟨y, hy⟩ := List.exists_mem_of_ne_nil _ hne
      have h3 := (h y (by simp [hsub.subset hy])).2
      have h4 := windowStart_le (A.ts y)
      rw [(hk y hy).2] at h4
      rw [inv.durEq]; simp only; omega
    exact ⟨_, by simp only [allOuts, flushAll, mapM_closeWindow_some this]; rfl⟩
  | x :: items, hist, bs, G, st, inv, h => by
    have hstep : ∃ r, processItem A st x = some r := by
      have hx := h x (by simp)
      have hcurge : lat + dur + minuteNs ≤ (st.current (A.key x)).getD (A.ts x) := by
        rcases inv.cur (A.key x) with ⟨h1, -⟩ | ⟨c, h1, ⟨y, hy, -, hyt⟩, -⟩
        · rw [h1]; exact hx.1
        · rw [h1]; simp only [Option.getD_some]; rw [← hyt]; exact (h y (by simp [hy])).1
      obtain ⟨cur, hcur⟩ : ∃ c, c = (st.current (A.key x)).getD (A.ts x) := ⟨_, rfl⟩
      rw [← hcur] at hcurge
      have hws := lt_windowStart_add (max cur (A.ts x) - lat)
      simp only [processItem, tsub, Option.bind_eq_bind, Option.pure_def, ← hcur, inv.latEq, inv.durEq]
      rw [if_pos (by omega)]
      simp only [Option.bind_some]
      split
      · exact ⟨_, rfl⟩
      · rw [if_pos (by omega)]
        simp only [Option.bind_some]
        rw [if_pos (by omega)]
        simp only [Option.bind_some]
        obtain ⟨M, hM⟩ : ∃ M, M = BMap.insert (windowStart (A.ts x))
          ((((G (A.key x)).get? (windowStart (A.ts x))).getD []) ++ [x]) (G (A.key x)) := ⟨_, rfl⟩
        have hMs : BMap.Sorted M := hM ▸ BMap.sorted_insert _ _ _ (inv.sorted _)
        rw [inv.act, pushInto_map, ← hM, splitWindows_eq _ _ (BMap.sorted_map _ _ hMs)]
        rw [mapM_closeWindow_some]
        · exact ⟨_, rfl⟩
        · intro p hp
          have hp := (List.mem_filter.mp hp).1
          obtain ⟨q, hq, rfl⟩ := List.mem_map.mp hp
          rw [hM] at hq
          rcases (BMap.mem_insert _ _ _ (inv.sorted _) _).mp hq with rfl | ⟨hq, -⟩
          · have := windowStart_le (A.ts x); simp only; omega
          · obtain ⟨hne, hsub, hk⟩ := inv.good _ q.1 q.2 hq
            obtain ⟨y, hy⟩ := List.exists_mem_of_ne_nil _ hne
            have h3 := (h y (by simp [hsub.subset hy])).2
            have h4 := windowStart_le (A.ts y)
            rw [(hk y hy).2] at h4
            simp only; omega
    obtain ⟨⟨res, late, st'⟩, hp⟩ := hstep
    obtain ⟨nb, G', inv', -, -⟩ := step_inv inv hp
    obtain ⟨outs, hout⟩ := allOuts_some ho (items := items) inv' (by simpa using h)
    exact ⟨_, by simp only [allOuts, hp, Option.bind_eq_bind, Option.bind_some, hout]; rfl⟩

end Analytics
end Verif
