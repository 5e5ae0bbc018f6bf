import Verif.UdpNotif.Json
/-!
# Lemmas of documents and of structures
-/
namespace Verif.Notif

/-! ## Values -/

theorem normList_map : ∀ l : List Json, normList l = l.map norm
  | [] => rfl
  | j :: l => by rw [normList, normList_map l]; rfl

theorem normMembers_map : ∀ m : Members, normMembers m = m.map fun x => (x.1, norm x.2)
  | [] => rfl
  | (k, v) :: m => by rw [normMembers, normMembers_map m]; rfl

theorem normMembers_append (a b : Members) : normMembers (a ++ b) = normMembers a ++ normMembers b := by simp [normMembers_map]

/-- names -/
def keys (m : Members) : List String := m.map (·.1)

theorem insertM_keys (m : Members) (k : String) (v : Json) : keys (insertM m k v) = if k ∈ keys m then keys m else keys m ++ [k] := by
  induction m with
  | nil => simp [insertM, keys]
  | cons x m ih =>
    obtain ⟨k', v'⟩ := x
    unfold keys at ih ⊢
    rw [insertM]
    by_cases h : k' = k
    · subst h; simp
    · have h' : ¬ k = k' := fun e => h e.symm
      rw [if_neg h]
      simp only [List.map_cons, ih, List.mem_cons, h', false_or]
      split <;> simp

theorem insertM_nodup (m : Members) (k : String) (v : Json) (h : (keys m).Nodup) : (keys (insertM m k v)).Nodup := by
  rw [insertM_keys]
  split
  · exact h
  · next hn => exact List.nodup_append.2 ⟨h, by simp, fun a ha b hb => by simp only [List.mem_singleton] at hb; subst hb; exact fun e => hn (e ▸ ha)⟩

theorem insertM_new (m : Members) (k : String) (v : Json) (h : k ∉ keys m) : insertM m k v = m ++ [(k, v)] := by
  induction m with
  | nil => rfl
  | cons x m ih =>
    obtain ⟨k', v'⟩ := x
    unfold keys at ih h
    simp only [List.map_cons, List.mem_cons, not_or] at h
    rw [insertM, if_neg (fun e => h.1 e.symm), ih h.2]
    rfl

theorem insertM_mem {m : Members} {k : String} {v : Json} {x : String × Json} (h : x ∈ insertM m k v) : x ∈ m ∨ x = (k, v) := by
  induction m with
  | nil => exact .inr (by simpa [insertM] using h)
  | cons y m ih =>
    obtain ⟨k', v'⟩ := y
    rw [insertM] at h
    split at h
    · rcases List.mem_cons.1 h with h | h
      · exact .inr h
      · exact .inl (List.mem_cons_of_mem _ h)
    · rcases List.mem_cons.1 h with h | h
      · exact .inl (h ▸ List.mem_cons_self ..)
      · rcases ih h with h | h
        · exact .inl (List.mem_cons_of_mem _ h)
        · exact .inr h

theorem fold_nodup (m : Members) : ∀ a : Members, (keys a).Nodup → (keys (m.foldl (fun a x => insertM a x.1 x.2) a)).Nodup := by
  induction m with
  | nil => exact fun a h => h
  | cons x m ih => exact fun a h => ih _ (insertM_nodup a x.1 x.2 h)

theorem dedup_nodup (m : Members) : (keys (dedup m)).Nodup := fold_nodup m [] (by simp [keys])

theorem fold_mem (m : Members) : ∀ (a : Members) (x : String × Json), x ∈ m.foldl (fun a x => insertM a x.1 x.2) a → x ∈ a ∨ x ∈ m := by
  induction m with
  | nil => exact fun a x h => .inl h
  | cons y m ih =>
    intro a x h
    rcases ih _ x h with h | h
    · rcases insertM_mem h with h | h
      · exact .inl h
      · exact .inr (h ▸ List.mem_cons_self ..)
    · exact .inr (List.mem_cons_of_mem _ h)

theorem dedup_mem {m : Members} {x : String × Json} (h : x ∈ dedup m) : x ∈ m := by
  rcases fold_mem m [] x h with h | h
  · cases h
  · exact h

theorem fold_new (m : Members) : ∀ a : Members, (keys (a ++ m)).Nodup → m.foldl (fun a x => insertM a x.1 x.2) a = a ++ m := by
  induction m with
  | nil => intro a _; simp
  | cons x m ih =>
    intro a h
    have hx : x.1 ∉ keys a := by
      intro hm
      unfold keys at h hm
      rw [List.map_append, List.nodup_append] at h
      exact h.2.2 x.1 hm x.1 (by simp) rfl
    rw [List.foldl_cons, insertM_new _ _ _ hx, ih _ (by simpa using h)]
    simp

theorem dedup_new (m : Members) (h : (keys m).Nodup) : dedup m = m := fold_new m [] (by simpa using h)

theorem keys_norm (m : Members) : keys (normMembers m) = keys m := by
  rw [normMembers_map]; simp [keys, Function.comp_def]

mutual
/-- values stay as they are -/
theorem norm_norm : ∀ j : Json, norm (norm j) = norm j
  | .arr l => by
    rw [norm, norm, normList_norm l]
  | .obj m => by
    have h : normMembers (dedup (normMembers m)) = dedup (normMembers m) := by
      rw [normMembers_map]
      conv => rhs; rw [← List.map_id (dedup (normMembers m))]
      refine List.map_congr_left fun x hx => ?_
      have := normMembers_norm m x (dedup_mem hx)
      show (x.1, norm x.2) = x
      rw [this]
    rw [norm, norm, h, dedup_new _ (dedup_nodup _)]
  | .null => rfl
  | .bool _ => rfl
  | .int _ => rfl
  | .frac _ => rfl
  | .str _ => rfl
/-- elements too -/
theorem normList_norm : ∀ l : List Json, normList (normList l) = normList l
  | [] => rfl
  | j :: l => by rw [normList, normList, norm_norm j, normList_norm l]
/-- and members -/
theorem normMembers_norm : ∀ (m : List (String × Json)) (x : String × Json), x ∈ normMembers m → norm x.2 = x.2
  | [], x, h => by cases h
  | (k, v) :: m, x, h => by
    rw [normMembers] at h
    rcases List.mem_cons.1 h with h | h
    · subst h; exact norm_norm v
    · exact normMembers_norm m x h
end

/-- of each object each name occurs once -/
inductive Uniq : Json → Prop where
  | null : Uniq .null
  | bool (b : Bool) : Uniq (.bool b)
  | int (i : Int) : Uniq (.int i)
  | frac (n : Nat) : Uniq (.frac n)
  | str (s : String) : Uniq (.str s)
  | arr (l : List Json) : (∀ j ∈ l, Uniq j) → Uniq (.arr l)
  | obj (m : Members) : (keys m).Nodup → (∀ x ∈ m, Uniq x.2) → Uniq (.obj m)

theorem norm_uniq {j : Json} (h : Uniq j) : norm j = j := by
  induction h with
  | arr l _ ih =>
    rw [norm, normList_map]
    congr 1
    conv => rhs; rw [← List.map_id l]
    exact List.map_congr_left fun x hx => ih x hx
  | obj m hk _ ih =>
    have : normMembers m = m := by
      rw [normMembers_map]
      conv => rhs; rw [← List.map_id m]
      refine List.map_congr_left fun x hx => ?_
      show (x.1, norm x.2) = x
      rw [ih x hx]
    rw [norm, this, dedup_new m hk]
  | _ => rfl

theorem norm_obj_members {m : Members} (h : norm (.obj m) = .obj m) : (keys m).Nodup ∧ ∀ x ∈ m, norm x.2 = x.2 := by
  rw [norm] at h
  injection h with h
  refine ⟨h ▸ dedup_nodup _, fun x hx => ?_⟩
  rw [← h] at hx
  exact normMembers_norm m x (dedup_mem hx)

/-! ## Fields -/

theorem valuesOf_append (n : List String) (a b : Members) : valuesOf n (a ++ b) = valuesOf n a ++ valuesOf n b := by simp [valuesOf, List.filterMap_append]
theorem without_append (n : List String) (a b : Members) : without n (a ++ b) = without n a ++ without n b := by simp [without, List.filter_append]

theorem valuesOf_cons (n : List String) (k : String) (v : Json) (m : Members) : valuesOf n ((k, v) :: m) = if k ∈ n then v :: valuesOf n m else valuesOf n m := by
  unfold valuesOf
  rw [List.filterMap_cons]
  by_cases h : k ∈ n <;> simp [h]
theorem without_cons (n : List String) (k : String) (v : Json) (m : Members) : without n ((k, v) :: m) = if k ∈ n then without n m else (k, v) :: without n m := by
  unfold without
  rw [List.filter_cons]
  by_cases h : k ∈ n <;> simp [h]
theorem valuesOf_nil (n : List String) : valuesOf n [] = [] := rfl
theorem without_nil (n : List String) : without n [] = [] := rfl

theorem valuesOf_putOpt (n : List String) (k : String) (f : α → Json) (o : Option α) : valuesOf n (putOpt k f o) = if k ∈ n then (o.map f).toList else [] := by
  cases o with
  | none => simp [putOpt, valuesOf]
  | some a => simp [putOpt, valuesOf_cons, valuesOf_nil]
theorem without_putOpt (n : List String) (k : String) (f : α → Json) (o : Option α) : without n (putOpt k f o) = if k ∈ n then [] else putOpt k f o := by
  cases o with
  | none => simp [putOpt, without]
  | some a => simp [putOpt, without_cons, without_nil]

/-- members have none of some names -/
def Free (n : List String) (m : Members) : Prop := ∀ x ∈ m, x.1 ∉ n

theorem valuesOf_free {n : List String} {m : Members} (h : Free n m) : valuesOf n m = [] := by
  unfold valuesOf
  rw [List.filterMap_eq_nil_iff]
  intro x hx
  rw [if_neg (h x hx)]
theorem without_free {n : List String} {m : Members} (h : Free n m) : without n m = m := by
  unfold without
  rw [List.filter_eq_self]
  intro x hx
  simpa using h x hx
theorem takeFirst_free {n : List String} {m : Members} (h : Free n m) : takeFirst n m = none := by
  induction m with
  | nil => rfl
  | cons x m ih =>
    rw [takeFirst, if_neg (h x (by simp)), ih fun y hy => h y (by simp [hy])]
    rfl

theorem free_sub {a b : List String} {m : Members} (h : Free b m) (hs : ∀ x ∈ a, x ∈ b) : Free a m := fun x hx he => h x hx (hs _ he)
theorem without_isFree (n : List String) (m : Members) : Free n (without n m) := by
  intro x hx
  unfold without at hx
  simpa using (List.mem_filter.1 hx).2
theorem without_mem {n : List String} {m : Members} {x : String × Json} : x ∈ without n m ↔ x ∈ m ∧ x.1 ∉ n := by
  unfold without
  rw [List.mem_filter]
  simp

theorem free_keys {n : List String} {m m' : Members} (h : Free n m) (hs : ∀ k ∈ keys m', k ∈ keys m) : Free n m' := by
  intro x hx he
  have := hs x.1 (List.mem_map.2 ⟨x, hx, rfl⟩)
  obtain ⟨y, hy, e⟩ := List.mem_map.1 this
  exact h y hy (e ▸ he)

theorem keys_insert_mem {m : Members} {k k' : String} {v : Json} (h : k ∈ keys (insertM m k' v)) : k ∈ keys m ∨ k = k' := by
  rw [insertM_keys] at h
  split at h
  · exact .inl h
  · simpa using h

theorem fold_keys (m : Members) : ∀ (a : Members) (k : String), k ∈ keys (m.foldl (fun a x => insertM a x.1 x.2) a) ↔ k ∈ keys a ∨ k ∈ keys m := by
  induction m with
  | nil => intro a k; simp [keys]
  | cons x m ih =>
    intro a k
    rw [List.foldl_cons, ih, insertM_keys]
    by_cases h : x.1 ∈ keys a
    · rw [if_pos h]
      constructor
      · rintro (h' | h')
        · exact .inl h'
        · exact .inr (List.mem_cons_of_mem _ h')
      · rintro (h' | h')
        · exact .inl h'
        · rcases List.mem_cons.1 h' with h' | h'
          · exact .inl (h' ▸ h)
          · exact .inr h'
    · rw [if_neg h]
      simp only [List.mem_append, List.mem_singleton]
      constructor
      · rintro ((h' | h') | h')
        · exact .inl h'
        · exact .inr (List.mem_cons.2 (.inl h'))
        · exact .inr (List.mem_cons_of_mem _ h')
      · rintro (h' | h')
        · exact .inl (.inl h')
        · rcases List.mem_cons.1 h' with h' | h'
          · exact .inl (.inr h')
          · exact .inr h'

theorem dedup_keys (m : Members) (k : String) : k ∈ keys (dedup m) ↔ k ∈ keys m := by
  unfold dedup
  rw [fold_keys]
  simp [keys]

/-- the last value of a name -/
def lastOf (m : Members) (k : String) : Option Json := (m.filterMap fun x => if x.1 = k then some x.2 else none).getLast?

/-- the first value of a name -/
def firstOf (m : Members) (k : String) : Option Json := m.lookup k

theorem firstOf_insert (m : Members) (k k' : String) (v : Json) : firstOf (insertM m k' v) k = if k' = k then some v else firstOf m k := by
  unfold firstOf
  induction m with
  | nil =>
    rw [insertM, List.lookup_cons]
    by_cases h : k' = k
    · subst h; simp
    · have : (k == k') = false := by simpa using fun e => h e.symm
      simp [this, h]
  | cons x m ih =>
    obtain ⟨k1, v1⟩ := x
    rw [insertM]
    by_cases h1 : k1 = k'
    · rw [if_pos h1]
      subst h1
      by_cases h : k1 = k
      · subst h; simp
      · have : (k == k1) = false := by simpa using fun e => h e.symm
        simp [List.lookup_cons, this, h]
    · rw [if_neg h1]
      by_cases h : k1 = k
      · subst h
        simp [List.lookup_cons, show ¬ k' = k1 from fun e => h1 e.symm]
      · have : (k == k1) = false := by simpa using fun e => h e.symm
        simp [List.lookup_cons, this, ih]

theorem dedup_value (m : Members) (k : String) : firstOf (dedup m) k = lastOf m k := by
  have key : ∀ (m a : Members), firstOf (m.foldl (fun a x => insertM a x.1 x.2) a) k = (lastOf m k).or (firstOf a k) := by
    intro m
    induction m with
    | nil => intro a; simp [lastOf]
    | cons x m ih =>
      intro a
      rw [List.foldl_cons, ih, firstOf_insert]
      unfold lastOf
      rw [List.filterMap_cons]
      by_cases h : x.1 = k
      · simp only [h, if_true]
        rw [List.getLast?_cons]
        cases (m.filterMap fun x => if x.1 = k then some x.2 else none).getLast? <;> simp
      · simp only [h, if_false]
  have := key m []
  unfold dedup
  rw [this]
  simp [firstOf]

end Verif.Notif
