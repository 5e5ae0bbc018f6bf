import Verif.YangPush.StorageSpec
/-! # Facts about the cache of YANG libraries -/
namespace Verif.YangPush
open Collector

section Names

theorem append_at_inj {a b u v : List Char} (ha : '@' ∉ a) (hb : '@' ∉ b) (h : a ++ '@' :: u = b ++ '@' :: v) : a = b ∧ u = v := by
  induction a generalizing b with
  | nil =>
    cases b with
    | nil => simpa using h
    | cons y b =>
      simp only [List.nil_append, List.cons_append, List.cons.injEq] at h
      exact absurd (by simp [← h.1]) hb
  | cons x a ih =>
    cases b with
    | nil =>
      simp only [List.nil_append, List.cons_append, List.cons.injEq] at h
      exact absurd (by simp [h.1]) ha
    | cons y b =>
      simp only [List.cons_append, List.cons.injEq] at h
      have := ih (fun hm => ha (by simp [hm])) (fun hm => hb (by simp [hm])) h.2
      exact ⟨by rw [h.1, this.1], this.2⟩

theorem revisionFile_toList (n r : String) : (revisionFile n r).toList = n.toList ++ '@' :: (r.toList ++ ".yang".toList) := by
  simp [revisionFile, String.toList_append]

theorem revisionFile_inj {n m r q : String} (hn : '@' ∉ n.toList) (hm : '@' ∉ m.toList) (h : revisionFile n r = revisionFile m q) : n = m := by
  have := congrArg String.toList h
  rw [revisionFile_toList, revisionFile_toList] at this
  exact String.toList_inj.mp (append_at_inj hn hm this).1

theorem revisionFile_ne {n m r : String} (hm : '@' ∉ m.toList) : revisionFile n r ≠ m := by
  intro h
  apply hm
  rw [← h, revisionFile_toList]
  simp

theorem savedFile_inj {l : Library} {n m : String} (hn : '@' ∉ n.toList) (hm : '@' ∉ m.toList) (h : l.savedFile n = l.savedFile m) : n = m := by
  unfold Library.savedFile at h
  cases hx : l.savedRevision n <;> cases hy : l.savedRevision m <;> simp only [hx, hy] at h
  · exact h
  · exact absurd h.symm (revisionFile_ne hn)
  · exact absurd h (revisionFile_ne hm)
  · exact revisionFile_inj hn hm h

/-- a schema is in its file -/
theorem saveSchemas_look {l : Library} {schemas files : List (String × String)} (hu : Uniq schemas) (hn : ∀ x ∈ schemas, '@' ∉ x.1.toList) {n s : String}
    (h : schemas.look n = some s) : (l.saveSchemas schemas files).look (l.savedFile n) = some s := by
  unfold Library.saveSchemas
  have key : ∀ (ss files : List (String × String)), (∀ x ∈ ss, '@' ∉ x.1.toList) → '@' ∉ n.toList → (∀ x ∈ ss, x.1 ≠ n) →
      (ss.foldl (fun files s => put files (l.savedFile s.1) s.2) files).look (l.savedFile n) = files.look (l.savedFile n) := by
    intro ss
    induction ss with
    | nil => intros; rfl
    | cons x ss ih =>
      intro files h1 h2 h3
      rw [List.foldl_cons, ih _ (fun y hy => h1 y (by simp [hy])) h2 (fun y hy => h3 y (by simp [hy])), lookup_put,
        if_neg fun e => h3 x (by simp) (savedFile_inj (h1 x (by simp)) h2 e)]
  induction schemas generalizing files with
  | nil => simp at h
  | cons x schemas ih =>
    obtain ⟨k, v⟩ := x
    obtain ⟨h1, h2⟩ := List.pairwise_cons.mp hu
    rw [List.foldl_cons]
    rw [lookup_cons'] at h
    split at h
    · rename_i e
      subst e
      simp only [Option.some.injEq] at h
      subst h
      rw [key _ _ (fun y hy => hn y (by simp [hy])) (hn (k, v) (by simp)) (fun y hy => (h1 y hy).symm), lookup_put, if_pos rfl]
    · exact ih h2 (fun y hy => hn y (by simp [hy])) h

theorem loadEntries_look {files : List (String × String)} {es : List (String × Option String)} {f : String → Option String}
    (hf : ∀ x ∈ es, loadSchema files x.1 x.2 = f x.1) (hs : ∀ x ∈ es, (f x.1).isSome) (m : List (String × String)) :
    ∃ m', loadEntries files es m = some m' ∧ ∀ n, m'.look n = if n ∈ es.map (·.1) then f n else m.look n := by
  induction es generalizing m with
  | nil => exact ⟨m, rfl, by simp⟩
  | cons x es ih =>
    obtain ⟨k, r⟩ := x
    obtain ⟨s, hs'⟩ := Option.isSome_iff_exists.mp (hs (k, r) (by simp))
    simp only at hs'
    obtain ⟨m', h1, h2⟩ := ih (fun y hy => hf y (by simp [hy])) (fun y hy => hs y (by simp [hy])) (put m k s)
    have hl := hf (k, r) (by simp)
    simp only [hs'] at hl
    refine ⟨m', by simp only [loadEntries, hl, h1], fun n => ?_⟩
    rw [h2, lookup_put]
    by_cases e : k = n
    · subst e; simp [hs']
    · rw [if_neg e]
      have e1 : ¬ n = k := fun h => e h.symm
      simp only [List.map_cons, List.mem_cons, e1, false_or]

/-- a module or submodule is saved with the revision that it is listed in -/
theorem Tidy.savedRevision {l : Library} {schemas : List (String × String)} (h : Tidy l schemas) {n : String} {r : Option String} (hl : Lists l n r) : l.savedRevision n = r := by
  unfold Library.savedRevision
  cases hm : l.findModule n with
  | some m =>
    obtain ⟨s, hs, hmem⟩ := findModule_mem hm
    exact h.once n _ _ ⟨s, hs, .inl ⟨m, hmem, .inl ⟨findModule_name hm, rfl⟩⟩⟩ hl
  | none =>
    simp only
    cases hi : l.findImports n with
    | some ms =>
      obtain ⟨h1, h2⟩ := h.named.imports hi
      obtain ⟨s, hs, hmem⟩ := findImports_mem hi
      cases ms with
      | nil => exact absurd rfl h1
      | cons m ms =>
        simp only [List.head?_cons, Option.bind_some]
        exact h.once n _ _ ⟨s, hs, .inr ⟨_, hmem, m, by simp, .inl ⟨h2 m (by simp), rfl⟩⟩⟩ hl
    | none =>
      simp only
      cases hu : l.findSubmodule n with
      | some u =>
        obtain ⟨e, s, hs, m, hmem, hu⟩ := findSubmodule_mem hu
        exact h.once n _ _ ⟨s, hs, .inl ⟨m, hmem, .inr ⟨u, hu, e, rfl⟩⟩⟩ hl
      | none =>
        exfalso
        obtain ⟨s, hs, ⟨m, hmem, ⟨rfl, _⟩ | ⟨u, hu', rfl, _⟩⟩ | ⟨x, hx, m, hmem, ⟨rfl, _⟩ | ⟨u, hu', _⟩⟩⟩ := hl
        · have := findModule_isSome hs hmem
          rw [hm] at this; cases this
        · have := findSubmodule_isSome hs hmem hu'
          rw [hu] at this; cases this
        · have := findImports_isSome hs hx
          rw [← (h.named s hs x hx).2 m hmem, hi] at this; cases this
        · rw [h.plain s hs x hx m hmem] at hu'; cases hu'

theorem Tidy.load {l : Library} {schemas : List (String × String)} (h : Tidy l schemas) :
    ∃ m, l.loadSchemas (l.saveSchemas schemas []) = some m ∧ ∀ n, ((∃ r, Lists l n r) → m.look n = schemas.look n) ∧ ((¬ ∃ r, Lists l n r) → m.look n = none) := by
  obtain ⟨m, h1, h2⟩ := loadEntries_look (files := l.saveSchemas schemas []) (es := l.entries) (f := fun n => schemas.look n)
    (fun x hx => by
      have hx' := mem_entries.mp (show (x.1, x.2) ∈ l.entries from hx)
      obtain ⟨a, c⟩ := h.listed _ _ hx'
      have b := h.savedRevision hx'
      obtain ⟨r, hr⟩ := Option.isSome_iff_exists.mp a
      obtain ⟨s, hs⟩ := Option.isSome_iff_exists.mp c
      have := saveSchemas_look (l := l) (files := []) h.uniq h.names hs
      unfold Library.savedFile at this
      rw [b, hr] at this
      unfold loadSchema
      rw [hr, Option.bind_some, this, hs]) (fun x hx => (h.listed _ _ (mem_entries.mp (show (x.1, x.2) ∈ l.entries from hx))).2) []
  refine ⟨m, h1, fun n => ?_⟩
  have hiff : n ∈ l.entries.map (·.1) ↔ ∃ r, Lists l n r := by
    simp only [List.mem_map]
    constructor
    · rintro ⟨⟨a, r⟩, hx, rfl⟩; exact ⟨r, mem_entries.mp hx⟩
    · rintro ⟨r, hr⟩; exact ⟨(n, r), mem_entries.mpr hr, rfl⟩
  refine ⟨fun hl => ?_, fun hl => ?_⟩
  · rw [h2 n, if_pos (hiff.mpr hl)]
  · rw [h2 n, if_neg (fun h => hl (hiff.mp h))]
    rfl

end Names

section Subs
variable {A X : Type} [DecidableEq A] [DecidableEq X]

theorem mem_addSub {subs : List (SubInfo A X)} {i x : SubInfo A X} (h : x ∈ addSub subs i) : x ∈ subs ∨ x = i := by
  unfold addSub at h
  split at h
  · exact .inl h
  · simpa using h

theorem addSub_mono {subs : List (SubInfo A X)} {i x : SubInfo A X} (h : x ∈ subs) : x ∈ addSub subs i := by
  unfold addSub
  split
  · exact h
  · simp [h]

theorem addSub_has (subs : List (SubInfo A X)) (i : SubInfo A X) : ∃ x ∈ addSub subs i, x.ident = i.ident := by
  unfold addSub
  split
  · rename_i h
    obtain ⟨x, hx, e⟩ := List.any_eq_true.mp h
    exact ⟨x, hx, by simpa using e⟩
  · exact ⟨i, by simp, rfl⟩

theorem mem_addSub_new {subs : List (SubInfo A X)} {i : SubInfo A X} (h : ∀ x ∈ subs, x.ident ≠ i.ident) : i ∈ addSub subs i := by
  unfold addSub
  rw [if_neg]
  · simp
  · intro hc
    obtain ⟨x, hx, e⟩ := List.any_eq_true.mp hc
    exact h x hx (by simpa using e)

end Subs

section Perm
variable {κ α : Type} [DecidableEq κ]

theorem Uniq.perm {m m' : List (κ × α)} (h : Uniq m) (hp : m'.Perm m) : Uniq m' :=
  (List.Perm.pairwise_iff (R := fun a b : κ × α => a.1 ≠ b.1) (fun hab => hab.symm) hp).mpr h

theorem look_perm {m m' : List (κ × α)} (h : Uniq m) (hp : m'.Perm m) (k : κ) : m'.look k = m.look k := by
  cases hl : m.look k with
  | some v => exact lookup_of_mem (Uniq.perm h hp) (hp.mem_iff.mpr (mem_of_lookup hl))
  | none =>
    cases hl' : m'.look k with
    | none => rfl
    | some v =>
      have := lookup_of_mem h (hp.mem_iff.mp (mem_of_lookup hl'))
      rw [hl] at this
      cases this

end Perm

section Load
variable {A X : Type} [DecidableEq A] [DecidableEq X]

/-- a subscription by address and number -/
def LibCache.number (c : LibCache A X) (ip : A) (id : UInt32) : Option (SubInfo A X) := (c.byId.look ip).bind (·.look id)

theorem number_setId (c : LibCache A X) (i : SubInfo A X) (x : List (String × Ref)) (y : List (Ident A X × Ref)) (ip : A) (id : UInt32) :
    LibCache.number ⟨x, y, c.setId i⟩ ip id = if i.peer.ip = ip ∧ i.id = id then some i else c.number ip id := by
  unfold LibCache.number LibCache.setId
  simp only
  rw [lookup_put]
  by_cases e : i.peer.ip = ip
  · subst e
    rw [if_pos rfl, Option.bind_some, lookup_put]
    by_cases e2 : i.id = id
    · simp [e2]
    · rw [if_neg e2, if_neg (by simp [e2])]
      cases c.byId.look i.peer.ip <;> rfl
  · rw [if_neg e, if_neg (by simp [e])]

/-- what a cache has fits what is to be found -/
structure Fits (f : Ident A X → Option Ref) (c : LibCache A X) : Prop where
  uniq : Uniq c.byInfo
  info : ∀ k r, c.byInfo.look k = some r → f k = some r

theorem loadSubs_content (r : Ref) (c : LibCache A X) (subs : List (SubInfo A X)) : (loadSubs r c subs).byContent = c.byContent := by
  unfold loadSubs
  induction subs generalizing c with
  | nil => rfl
  | cons i subs ih => rw [List.foldl_cons, ih]

theorem loadSubs_fits {f : Ident A X → Option Ref} {r : Ref} {c : LibCache A X} {subs : List (SubInfo A X)} (h : Fits f c)
    (hs : ∀ i ∈ subs, f i.ident = some r) : Fits f (loadSubs r c subs) := by
  unfold loadSubs
  induction subs generalizing c with
  | nil => exact h
  | cons i subs ih =>
    rw [List.foldl_cons]
    refine ih ⟨h.uniq.put _ _, fun k q hk => ?_⟩ fun j hj => hs j (by simp [hj])
    simp only [lookup_put] at hk
    split at hk
    · rename_i e
      subst e
      rw [← hk]
      exact hs i (by simp)
    · exact h.info k q hk

theorem loadSubs_some {r : Ref} {c : LibCache A X} {subs : List (SubInfo A X)} {k : Ident A X}
    (h : (c.byInfo.look k).isSome ∨ ∃ i ∈ subs, i.ident = k) : ((loadSubs r c subs).byInfo.look k).isSome := by
  unfold loadSubs
  induction subs generalizing c with
  | nil => simpa using h
  | cons i subs ih =>
    rw [List.foldl_cons]
    refine ih ?_
    simp only [lookup_put]
    by_cases e : i.ident = k
    · simp [e]
    · rw [if_neg e]
      simpa [e] using h

theorem loadSubs_mem {r : Ref} {c : LibCache A X} {subs : List (SubInfo A X)} {k : Ident A X} {q : Ref}
    (h : (loadSubs r c subs).byInfo.look k = some q) : c.byInfo.look k = some q ∨ q = r ∧ ∃ i ∈ subs, i.ident = k := by
  unfold loadSubs at h
  induction subs generalizing c with
  | nil => exact .inl h
  | cons i subs ih =>
    rw [List.foldl_cons] at h
    rcases ih h with h | ⟨h1, j, hj, e⟩
    · simp only [lookup_put] at h
      split at h
      · rename_i e
        simp only [Option.some.injEq] at h
        exact .inr ⟨h.symm, i, by simp, e⟩
      · exact .inl h
    · exact .inr ⟨h1, j, by simp [hj], e⟩

theorem loadSubs_uniq {r : Ref} {c : LibCache A X} {subs : List (SubInfo A X)} (h : Uniq c.byInfo) : Uniq (loadSubs r c subs).byInfo := by
  unfold loadSubs
  induction subs generalizing c with
  | nil => exact h
  | cons i subs ih => rw [List.foldl_cons]; exact ih (h.put _ _)

theorem loadSubs_number {r : Ref} {c : LibCache A X} {subs : List (SubInfo A X)} {g : A → UInt32 → Option (SubInfo A X)}
    (hc : ∀ ip id i, c.number ip id = some i → g ip id = some i) (hs : ∀ i ∈ subs, g i.peer.ip i.id = some i) (ip : A) (id : UInt32) :
    (∀ i, (loadSubs r c subs).number ip id = some i → g ip id = some i) ∧
    ((c.number ip id).isSome ∨ (∃ i ∈ subs, i.peer.ip = ip ∧ i.id = id) → ((loadSubs r c subs).number ip id).isSome) := by
  unfold loadSubs
  induction subs generalizing c with
  | nil => exact ⟨fun i h => hc ip id i h, fun h => by simpa using h⟩
  | cons i subs ih =>
    rw [List.foldl_cons]
    have := ih (c := { c with byId := c.setId i, byInfo := put c.byInfo i.ident r }) (fun ip id j h => by
      rw [number_setId] at h
      split at h
      · rename_i e
        rw [← e.1, ← e.2, hs i (by simp)]
        exact h
      · exact hc ip id j h) (fun j hj => hs j (by simp [hj]))
    refine ⟨this.1, fun h => this.2 ?_⟩
    rw [number_setId]
    by_cases e : i.peer.ip = ip ∧ i.id = id
    · simp [e]
    · rw [if_neg e]
      rcases h with h | ⟨j, hj, e'⟩
      · exact .inl h
      · rcases List.mem_cons.mp hj with rfl | hj
        · exact absurd e' e
        · exact .inr ⟨j, hj, e'⟩

theorem fromDisk_some {c : LibCache A X} {d : Disk A X} (h : ∀ x ∈ d, (x.2.library.loadSchemas x.2.files).isSome) : ∃ c', fromDisk c d = some c' := by
  induction d generalizing c with
  | nil => exact ⟨c, rfl⟩
  | cons x d ih =>
    obtain ⟨dir, e⟩ := x
    obtain ⟨m, hm⟩ := Option.isSome_iff_exists.mp (h (dir, e) (by simp))
    simp only at hm
    simp only [fromDisk, hm]
    exact ih fun y hy => h y (by simp [hy])

/-- induction over the directories that are read -/
theorem fromDisk_ind {P : LibCache A X → Disk A X → Prop} {c c' : LibCache A X} {d : Disk A X} (h : fromDisk c d = some c') (h0 : P c [])
    (hs : ∀ c pre dir e post, d = pre ++ (dir, e) :: post → P c pre →
      P (loadSubs ⟨e.library.contentId, dir⟩ { c with byContent := put c.byContent e.library.contentId ⟨e.library.contentId, dir⟩ } e.subs) (pre ++ [(dir, e)])) : P c' d := by
  have key : ∀ (d2 : Disk A X) (pre : Disk A X) (c : LibCache A X), d = pre ++ d2 → P c pre → fromDisk c d2 = some c' → P c' d := by
    intro d2
    induction d2 with
    | nil =>
      intro pre c e hp h
      simp only [fromDisk, Option.some.injEq] at h
      rw [e, List.append_nil, ← h]
      exact hp
    | cons x d2 ih =>
      intro pre c e hp h
      obtain ⟨dir, en⟩ := x
      unfold fromDisk at h
      split at h
      · cases h
      · exact ih (pre ++ [(dir, en)]) _ (by simp [e]) (hs c pre dir en d2 e hp) h
  exact key d [] c rfl h0 h

end Load

end Verif.YangPush
