import Verif.Collector.InventorySpec
import Verif.Collector.Ledger
/-!
# Lemmas about labels
-/
namespace Verif.Collector.LabelHist
open Hist MapFile
variable {A V : Type} [DecidableEq A]

/-- what an upsert makes of a name: nothing if it does not have it -/
theorem upsert_look (weight : UInt8) (labels : List (Label V)) (m : LabelMap V) (name : String) :
    ((∀ l ∈ labels, l.name ≠ name) ∧ (labels.foldl (upsertLabel weight) m).look name = m.look name) ∨
    ∃ pre v post, labels = pre ++ ⟨name, v⟩ :: post ∧ (∀ l ∈ post, l.name ≠ name) ∧
      (labels.foldl (upsertLabel weight) m).look name =
        match m.look name with
        | some cur => if weight ≥ cur.weight then some ⟨⟨name, v⟩, weight⟩ else some cur
        | none => some ⟨⟨name, v⟩, weight⟩ := by
  induction labels using snoc_induction with
  | nil => exact .inl ⟨by simp, rfl⟩
  | append_singleton labels l ih =>
    rw [List.foldl_append]
    simp only [List.foldl_cons, List.foldl_nil]
    generalize labels.foldl (upsertLabel weight) m = m' at ih
    by_cases hn : l.name = name
    · right
      refine ⟨labels, l.value, [], by rw [← hn], by simp, ?_⟩
      subst hn
      unfold upsertLabel
      rcases ih with ⟨-, e⟩ | ⟨pre, v, post, -, -, e⟩
      · rw [e]
        cases hm : m.look l.name with
        | none => simp [lookup_put]
        | some cur =>
          simp only
          split
          · simp [lookup_put]
          · rw [e, hm]
      · rw [e]
        cases hm : m.look l.name with
        | none => simp [lookup_put]
        | some cur =>
          simp only
          by_cases hw : weight ≥ cur.weight
          · simp [hw, lookup_put]
          · simp only [hw, if_false]
            rw [e, hm]
            simp [hw]
    · have hsame : (upsertLabel weight m' l).look name = m'.look name := by
        unfold upsertLabel
        split
        · split
          · simp [lookup_put, hn]
          · rfl
        · simp [lookup_put, hn]
      rw [hsame]
      rcases ih with ⟨h, e⟩ | ⟨pre, v, post, h1, h2, e⟩
      · refine .inl ⟨fun x hx => ?_, e⟩
        rcases List.mem_append.mp hx with hx | hx
        · exact h x hx
        · simp only [List.mem_singleton] at hx; subst hx; exact hn
      · refine .inr ⟨pre, v, post ++ [l], by rw [h1]; simp, fun x hx => ?_, e⟩
        rcases List.mem_append.mp hx with hx | hx
        · exact h2 x hx
        · simp only [List.mem_singleton] at hx; subst hx; exact hn

theorem delete_look (weight : UInt8) (names : List String) (m : LabelMap V) (name : String) :
    (names.foldl (deleteLabel weight) m).look name =
      if name ∈ names then (match m.look name with | some cur => if weight ≥ cur.weight then none else some cur | none => none) else m.look name := by
  induction names generalizing m with
  | nil => simp
  | cons x names ih =>
    rw [List.foldl_cons, ih]
    have hx : (deleteLabel weight m x).look name =
        if x = name then (match m.look name with | some cur => if weight ≥ cur.weight then none else some cur | none => none) else m.look name := by
      unfold deleteLabel
      by_cases e : x = name
      · subst e
        cases hm : m.look x with
        | none => simp [hm]
        | some cur =>
          simp only [if_true]
          split
          · simp [lookup_del]
          · exact hm
      · rw [if_neg e]
        split
        · split
          · simp [lookup_del, e]
          · rfl
        · rfl
    rw [hx]
    by_cases e : x = name
    · subst e
      cases hm : m.look x with
      | none => simp
      | some cur => by_cases hw : weight ≥ cur.weight <;> simp [hw]
    · have e' : name ≠ x := fun h => e h.symm
      simp [e, e']

/-- what the cache has for a label of an address -/
def slot (c : List (A × LabelMap V)) (p : A × String) : Option (WeightedLabel V) := ((c.look p.1).getD []).look p.2

/-- entries have labels, at most one for a name, which is that of the label -/
def Good (c : List (A × LabelMap V)) : Prop :=
  ∀ ip m, c.look ip = some m → m ≠ [] ∧ Uniq m ∧ ∀ name wl, m.look name = some wl → wl.label.name = name

theorem upsert_uniq (weight : UInt8) (labels : List (Label V)) (m : LabelMap V) (h : Uniq m) : Uniq (labels.foldl (upsertLabel weight) m) := by
  induction labels generalizing m with
  | nil => exact h
  | cons l labels ih =>
    refine ih _ ?_
    unfold upsertLabel
    split
    · split
      · exact h.put _ _
      · exact h
    · exact h.put _ _

theorem delete_uniq (weight : UInt8) (names : List String) (m : LabelMap V) (h : Uniq m) : Uniq (names.foldl (deleteLabel weight) m) := by
  induction names generalizing m with
  | nil => exact h
  | cons l names ih =>
    refine ih _ ?_
    unfold deleteLabel
    split
    · split
      · exact h.del _
      · exact h
    · exact h

theorem upsert_ne_nil (weight : UInt8) (labels : List (Label V)) (m : LabelMap V) (h : labels ≠ []) : labels.foldl (upsertLabel weight) m ≠ [] := by
  cases labels with
  | nil => exact absurd rfl h
  | cons l labels =>
    intro e
    rcases upsert_look weight (l :: labels) m l.name with ⟨h, -⟩ | ⟨pre, v, post, -, -, h⟩
    · exact h l (by simp) rfl
    · rw [e, look_nil] at h
      split at h
      · split at h <;> simp at h
      · simp at h

theorem keep_look (c : List (A × LabelMap V)) (ip ip' : A) (m : LabelMap V) : ((keepLabels c ip m).look ip').getD [] = if ip = ip' then m else (c.look ip').getD [] := by
  unfold keepLabels
  split
  · rename_i h
    rw [lookup_del]
    split
    · simp at h; simp [h]
    · rfl
  · rw [lookup_put]
    split <;> rfl

theorem Good.keep {c : List (A × LabelMap V)} (h : Good c) (ip : A) {m : LabelMap V} (h1 : Uniq m) (h2 : ∀ name wl, m.look name = some wl → wl.label.name = name) :
    Good (keepLabels c ip m) := by
  intro ip' m' hl
  unfold keepLabels at hl
  split at hl
  · rw [lookup_del] at hl
    split at hl
    · simp at hl
    · exact h _ _ hl
  · rename_i hne
    rw [lookup_put] at hl
    split at hl
    · simp only [Option.some.injEq] at hl
      subst hl
      exact ⟨by simpa using hne, h1, h2⟩
    · exact h _ _ hl

theorem Good.getD {c : List (A × LabelMap V)} (h : Good c) (ip : A) : Uniq ((c.look ip).getD []) ∧ ∀ name wl, ((c.look ip).getD []).look name = some wl → wl.label.name = name := by
  cases hc : c.look ip with
  | none => exact ⟨List.Pairwise.nil, fun _ _ h => by simp at h⟩
  | some m => exact (h _ _ hc).2

theorem Good.apply {c : List (A × LabelMap V)} (h : Good c) (o : LabelOp A V) : Good (applyLabels c o) := by
  cases o with
  | upsert ip weight labels =>
    simp only [applyLabels]
    split
    · exact h
    · rename_i hne
      intro ip' m' hl
      rw [lookup_put] at hl
      split at hl
      · simp only [Option.some.injEq] at hl
        subst hl
        refine ⟨upsert_ne_nil _ _ _ (by simpa using hne), upsert_uniq _ _ _ (h.getD ip).1, fun name wl hw => ?_⟩
        rcases upsert_look weight labels ((c.look ip).getD []) name with ⟨-, e⟩ | ⟨pre, v, post, -, -, e⟩
        · exact (h.getD ip).2 name wl (e ▸ hw)
        · rw [e] at hw
          split at hw
          · rename_i cur hc
            split at hw
            · simp only [Option.some.injEq] at hw
              subst hw; rfl
            · exact (h.getD ip).2 name wl (hc.trans hw)
          · simp only [Option.some.injEq] at hw
            subst hw; rfl
      · exact h _ _ hl
  | delete ip weight names =>
    simp only [applyLabels]
    split
    · exact h
    · split
      · rename_i m hm
        refine h.keep ip (delete_uniq _ _ _ (h _ _ hm).2.1) fun name wl hw => ?_
        rw [delete_look] at hw
        refine (h _ _ hm).2.2 name wl ?_
        split at hw
        · split at hw
          · rename_i cur hc
            split at hw
            · simp at hw
            · exact hc.trans hw
          · simp at hw
        · exact hw
      · exact h
  | deleteAll ip weight =>
    simp only [applyLabels]
    split
    · rename_i m hm
      refine h.keep ip ((h _ _ hm).2.1.filter _) fun name wl hw => ?_
      rw [lookup_filter (h _ _ hm).2.1] at hw
      refine (h _ _ hm).2.2 name wl ?_
      cases hl : m.look name with
      | none => rw [hl] at hw; simp at hw
      | some x =>
        rw [hl] at hw
        simp only [Option.bind_some] at hw
        split at hw
        · exact hw
        · simp at hw
    · exact h

/-- what an operation makes of a slot -/
theorem slot_apply {c : List (A × LabelMap V)} (h : Good c) (o : LabelOp A V) (p : A × String) :
    (∃ w v, Puts o p w v ∧ (∀ w' v', Puts o p w' v' → w' = w ∧ v' = v) ∧ (∀ w', ¬ Drops o p w') ∧
      slot (applyLabels c o) p = match slot c p with | some cur => if w ≥ cur.weight then some ⟨⟨p.2, v⟩, w⟩ else some cur | none => some ⟨⟨p.2, v⟩, w⟩) ∨
    (∃ w, (∀ w' v', ¬ Puts o p w' v') ∧ Drops o p w ∧ (∀ w', Drops o p w' → w' = w) ∧
      slot (applyLabels c o) p = match slot c p with | some cur => if w ≥ cur.weight then none else some cur | none => none) ∨
    ((∀ w' v', ¬ Puts o p w' v') ∧ (∀ w', ¬ Drops o p w') ∧ slot (applyLabels c o) p = slot c p) := by
  obtain ⟨ip', name⟩ := p
  cases o with
  | upsert ip weight labels =>
    have hd : ∀ w', ¬ Drops (LabelOp.upsert ip weight labels) (ip', name) w' := by
      rintro w' (⟨ns, e, -⟩ | e) <;> simp at e
    by_cases hip : ip = ip'
    · subst hip
      rcases upsert_look weight labels ((c.look ip).getD []) name with ⟨hno, e⟩ | ⟨pre, v, post, h1, h2, e⟩
      · refine .inr (.inr ⟨?_, hd, ?_⟩)
        · rintro w' v' ⟨pre, post, e, -⟩
          simp only [LabelOp.upsert.injEq] at e
          refine hno ⟨name, v'⟩ ?_ rfl
          rw [e.2.2]; simp
        · simp only [slot, applyLabels]
          split
          · rfl
          · rw [lookup_put, if_pos rfl]
            exact e
      · have hne : labels.isEmpty = false := by rw [h1]; simp
        refine .inl ⟨weight, v, ⟨pre, post, by rw [h1], h2⟩, ?_, hd, ?_⟩
        · rintro w' v' ⟨pre', post', e', h2'⟩
          simp only [LabelOp.upsert.injEq] at e'
          obtain ⟨-, rfl, e'⟩ := e'
          refine ⟨rfl, ?_⟩
          rw [h1] at e'
          have hrev := congrArg (fun l => (l.reverse.find? fun x => x.name = name)) e'
          simp only [List.reverse_append, List.reverse_cons, List.append_assoc, List.find?_append] at hrev
          have g1 : post.reverse.find? (fun x => x.name = name) = none := List.find?_eq_none.mpr (by intro x hx; simpa using h2 x (by simpa using hx))
          have g2 : post'.reverse.find? (fun x => x.name = name) = none := List.find?_eq_none.mpr (by intro x hx; simpa using h2' x (by simpa using hx))
          rw [g1, g2] at hrev
          simp at hrev
          exact hrev.symm
        · simp only [slot, applyLabels, hne]
          simp only [Bool.false_eq_true, if_false]
          rw [lookup_put, if_pos rfl]
          exact e
    · refine .inr (.inr ⟨?_, hd, ?_⟩)
      · rintro w' v' ⟨pre, post, e, -⟩
        simp only [LabelOp.upsert.injEq] at e
        exact hip e.1
      · simp only [slot, applyLabels]
        split
        · rfl
        · rw [lookup_put, if_neg hip]
  | delete ip weight names =>
    have hp : ∀ w' v', ¬ Puts (LabelOp.delete ip weight names : LabelOp A V) (ip', name) w' v' := by
      rintro w' v' ⟨pre, post, e, -⟩; simp at e
    have hs : slot (applyLabels c (.delete ip weight names)) (ip', name) = if ip = ip' ∧ name ∈ names then
        (match slot c (ip', name) with | some cur => if weight ≥ cur.weight then none else some cur | none => none) else slot c (ip', name) := by
      simp only [slot, applyLabels]
      by_cases hn : names.isEmpty = true
      · rw [if_pos hn, if_neg (by rintro ⟨-, h⟩; simp at hn; subst hn; simp at h)]
      · rw [if_neg hn]
        cases hc : c.look ip with
        | none =>
          simp only
          split
          · rename_i h; obtain ⟨rfl, -⟩ := h; simp [hc]
          · rfl
        | some m =>
          simp only
          rw [keep_look]
          by_cases hip : ip = ip'
          · subst hip
            simp only [if_true, true_and, hc, Option.getD_some, delete_look]
          · simp [hip]
    by_cases hin : ip = ip' ∧ name ∈ names
    · rw [if_pos hin] at hs
      obtain ⟨rfl, hin⟩ := hin
      refine .inr (.inl ⟨weight, hp, .inl ⟨names, rfl, hin⟩, ?_, hs⟩)
      rintro w' (⟨ns, e, -⟩ | e)
      · simp only [LabelOp.delete.injEq] at e; exact e.2.1.symm
      · simp at e
    · rw [if_neg hin] at hs
      refine .inr (.inr ⟨hp, ?_, hs⟩)
      rintro w' (⟨ns, e, h⟩ | e)
      · simp only [LabelOp.delete.injEq] at e
        obtain ⟨rfl, -, rfl⟩ := e
        exact hin ⟨rfl, h⟩
      · simp at e
  | deleteAll ip weight =>
    have hp : ∀ w' v', ¬ Puts (LabelOp.deleteAll ip weight : LabelOp A V) (ip', name) w' v' := by
      rintro w' v' ⟨pre, post, e, -⟩; simp at e
    have hs : slot (applyLabels c (.deleteAll ip weight)) (ip', name) = if ip = ip' then
        (match slot c (ip', name) with | some cur => if weight ≥ cur.weight then none else some cur | none => none) else slot c (ip', name) := by
      simp only [slot, applyLabels]
      cases hc : c.look ip with
      | none =>
        simp only
        split
        · rename_i h; subst h; simp [hc]
        · rfl
      | some m =>
        simp only
        rw [keep_look]
        by_cases hip : ip = ip'
        · subst hip
          simp only [if_true, hc, Option.getD_some, lookup_filter (h _ _ hc).2.1]
          cases hm : m.look name with
          | none => rfl
          | some cur => by_cases hw : weight < cur.weight <;> simp [hw, UInt8.not_lt.mp, UInt8.not_le.mpr]
        · simp [hip]
    by_cases hin : ip = ip'
    · rw [if_pos hin] at hs
      subst hin
      refine .inr (.inl ⟨weight, hp, .inr rfl, ?_, hs⟩)
      rintro w' (⟨ns, e, -⟩ | e)
      · simp at e
      · simp only [LabelOp.deleteAll.injEq] at e; exact e.2.symm
    · rw [if_neg hin] at hs
      refine .inr (.inr ⟨hp, ?_, hs⟩)
      rintro w' (⟨ns, e, h⟩ | e)
      · simp at e
      · simp only [LabelOp.deleteAll.injEq] at e
        exact hin e.1

theorem survives_snoc (ops : List (LabelOp A V)) (o : LabelOp A V) (p : A × String) (w : UInt8) (v : V) :
    Survives (ops ++ [o]) p w v ↔ Puts o p w v ∨ (Survives ops p w v ∧ ¬ Ends o p w) := by
  have := in_append (puts := Puts) (ends := Ends) ops [o] p w v
  rw [in_single] at this
  show SurvivesIn Puts Ends _ _ _ _ ↔ _ ∨ SurvivesIn Puts Ends _ _ _ _ ∧ _
  simpa using this

/-- the state of a slot is what a history says -/
theorem slot_run (ops : List (LabelOp A V)) (p : A × String) :
    match slot (ops.foldl applyLabels []) p with
    | none => ∀ w v, ¬ Survives ops p w v
    | some wl => Survives ops p wl.weight wl.label.value ∧ ∀ w v, Survives ops p w v → w ≤ wl.weight ∧ (w = wl.weight → v = wl.label.value) := by
  have hgood : ∀ ops : List (LabelOp A V), Good (ops.foldl applyLabels []) := by
    intro ops
    induction ops using snoc_induction with
    | nil => intro ip m h; simp at h
    | append_singleton ops o ih => rw [List.foldl_append]; exact ih.apply o
  induction ops using snoc_induction with
  | nil =>
    simp only [List.foldl_nil, slot, look_nil, Option.getD_none]
    rintro w v ⟨pre, o, post, e, -⟩
    simp at e
  | append_singleton ops o ih =>
    rw [List.foldl_append, List.foldl_cons, List.foldl_nil]
    have hg := hgood ops
    generalize List.foldl applyLabels [] ops = c at ih hg
    simp only [survives_snoc]
    rcases slot_apply hg o p with ⟨w, v, h1, h2, h3, e⟩ | ⟨w, h1, h2, h3, e⟩ | ⟨h1, h2, e⟩ <;> rw [e]
    · have hends : ∀ w', Ends o p w' ↔ w' ≤ w := by
        intro w'
        constructor
        · rintro ⟨w2, hw, ⟨v2, hp⟩ | hd⟩
          · rw [(h2 _ _ hp).1] at hw; exact hw
          · exact absurd hd (h3 _)
        · intro hw; exact ⟨w, hw, .inl ⟨v, h1⟩⟩
      cases hs : slot c p with
      | none =>
        rw [hs] at ih
        refine ⟨.inl h1, ?_⟩
        rintro w' v' (hp | ⟨hp, -⟩)
        · obtain ⟨rfl, rfl⟩ := h2 _ _ hp
          exact ⟨UInt8.le_refl _, fun _ => rfl⟩
        · exact absurd hp (ih _ _)
      | some cur =>
        rw [hs] at ih
        simp only at ih ⊢
        by_cases hw : w ≥ cur.weight
        · rw [if_pos hw]
          refine ⟨.inl h1, ?_⟩
          rintro w' v' (hp | ⟨hp, hne⟩)
          · obtain ⟨rfl, rfl⟩ := h2 _ _ hp
            exact ⟨UInt8.le_refl _, fun _ => rfl⟩
          · exact absurd ((hends _).mpr (UInt8.le_trans (ih.2 _ _ hp).1 hw)) hne
        · rw [if_neg hw]
          refine ⟨.inr ⟨ih.1, fun h => hw ((hends _).mp h)⟩, ?_⟩
          rintro w' v' (hp | ⟨hp, hne⟩)
          · obtain ⟨rfl, rfl⟩ := h2 _ _ hp
            have hlt := UInt8.not_le.mp hw
            exact ⟨UInt8.le_of_lt hlt, fun e => absurd (e ▸ hlt) (UInt8.lt_irrefl _)⟩
          · exact ih.2 _ _ hp
    · have hends : ∀ w', Ends o p w' ↔ w' ≤ w := by
        intro w'
        constructor
        · rintro ⟨w2, hw, ⟨v2, hp⟩ | hd⟩
          · exact absurd hp (h1 _ _)
          · rw [h3 _ hd] at hw; exact hw
        · intro hw; exact ⟨w, hw, .inr h2⟩
      cases hs : slot c p with
      | none =>
        rw [hs] at ih
        rintro w' v' (hp | ⟨hp, -⟩)
        · exact h1 _ _ hp
        · exact ih _ _ hp
      | some cur =>
        rw [hs] at ih
        simp only at ih ⊢
        by_cases hw : w ≥ cur.weight
        · rw [if_pos hw]
          rintro w' v' (hp | ⟨hp, hne⟩)
          · exact h1 _ _ hp
          · exact hne ((hends _).mpr (UInt8.le_trans (ih.2 _ _ hp).1 hw))
        · rw [if_neg hw]
          refine ⟨.inr ⟨ih.1, fun h => hw ((hends _).mp h)⟩, ?_⟩
          rintro w' v' (hp | ⟨hp, -⟩)
          · exact absurd hp (h1 _ _)
          · exact ih.2 _ _ hp
    · have hends : ∀ w', ¬ Ends o p w' := by
        rintro w' ⟨w2, hw, ⟨v2, hp⟩ | hd⟩
        · exact h1 _ _ hp
        · exact h2 _ hd
      have : ∀ w v, (Puts o p w v ∨ Survives ops p w v ∧ ¬Ends o p w) ↔ Survives ops p w v := by
        intro w v
        constructor
        · rintro (hp | ⟨hp, -⟩)
          · exact absurd hp (h1 _ _)
          · exact hp
        · exact fun h => .inr ⟨h, hends _⟩
      simp only [this]
      exact ih

theorem good_run (ops : List (LabelOp A V)) : Good (ops.foldl applyLabels []) := by
  induction ops using snoc_induction with
  | nil => intro ip m h; simp at h
  | append_singleton ops o ih => rw [List.foldl_append]; exact ih.apply o

/-- what a message is labelled with is what the history says -/
theorem answers_run (ops : List (LabelOp A V)) (ip : A) (res : Option (List (Label V))) (h : LabelsOf (ops.foldl applyLabels []) ip res) : Answers ops ip res := by
  have hs := fun name => slot_run ops (ip, name)
  have hg := good_run ops
  generalize List.foldl applyLabels [] ops = c at h hs hg
  unfold LabelsOf at h
  simp only [slot] at hs
  cases hc : c.look ip with
  | none =>
    rw [hc] at h hs
    exact .inl ⟨h, fun name => by simpa using hs name⟩
  | some m =>
    rw [hc] at h hs
    obtain ⟨hne, hu, hname⟩ := hg _ _ hc
    obtain ⟨l, hperm, rfl⟩ := h
    refine .inr ⟨l, rfl, ?_, ?_, ?_⟩
    · rintro rfl
      have := hperm.length_eq
      simp only [List.length_nil, List.length_map] at this
      exact hne (List.length_eq_zero_iff.mp this.symm)
    · rw [(hperm.map _).nodup_iff, List.map_map]
      have : m.map ((fun x : Label V => x.name) ∘ fun x => x.2.label) = m.map (·.1) := by
        refine List.map_congr_left fun x hx => ?_
        exact hname x.1 x.2 (lookup_of_mem hu hx)
      rw [this]
      exact List.pairwise_map.mpr hu
    · intro x
      rw [hperm.mem_iff, List.mem_map]
      constructor
      · rintro ⟨y, hy, rfl⟩
        have hl := lookup_of_mem hu hy
        have hn := hname _ _ hl
        have := hs y.1
        simp only [Option.getD_some, hl] at this
        rw [hn]
        exact ⟨_, this.1, fun w v hv => (this.2 w v hv).1⟩
      · rintro ⟨w, hw1, hw2⟩
        have := hs x.name
        cases hl : m.look x.name with
        | none =>
          simp only [Option.getD_some, hl] at this
          exact absurd hw1 (this _ _)
        | some wl =>
          simp only [Option.getD_some, hl] at this
          refine ⟨(x.name, wl), mem_of_lookup hl, ?_⟩
          have hn := hname _ _ hl
          have hv := (this.2 _ _ hw1)
          have heq : w = wl.weight := UInt8.le_antisymm hv.1 (hw2 _ _ this.1)
          have hval := hv.2 heq
          cases x; cases wl with | mk lab wt => cases lab; simp_all

end Verif.Collector.LabelHist
