import Verif.YangPush.ExtendingWell
import Verif.YangPush.ContentId
/-! # C141 and C142: content identifiers and extending of YANG libraries -/
namespace Verif.Props
open Collector YangPush YangPush.Load

/-! ## C141: a library with other schemas has another content identifier -/

/-- **C141**, in part, for libraries of the same modules that differ in one schema: their content identifiers differ, if the digest tells texts apart. -/
theorem c141_schema_partial {digest : String → String} (hd : ∀ a b, digest a = digest b → a = b) {b b' : Builder} {lib lib' : Library} {schemas schemas' : List (String × String)}
    (hb : b.build digest = some (lib, schemas)) (hb' : b'.build digest = some (lib', schemas')) (hs : lib.sets = lib'.sets) {n : String} {revision : Option String}
    (hl : Lists lib n revision) (ho : ∀ k, k ≠ n → schemas.look k = schemas'.look k) (he : lib.contentId = lib'.contentId) : schemas.look n = schemas'.look n := by
  unfold Builder.build at hb hb'
  obtain ⟨ts, hts, e⟩ := Option.map_eq_some_iff.mp hb
  obtain ⟨ts', hts', e'⟩ := Option.map_eq_some_iff.mp hb'
  cases e; cases e'
  have hmem := skeleton_lists hl
  simp only at hs he hmem
  have hj := hd _ _ he
  rw [texts_eq] at hts hts'
  rw [← hs] at hts'
  obtain ⟨e1, a1⟩ := mapM_id_eq hts
  obtain ⟨e2, a2⟩ := mapM_id_eq hts'
  have k1 : (b.schemas.look n).isSome := a1 _ (List.mem_map_of_mem (f := evalText b.schemas) hmem)
  have k2 : (b'.schemas.look n).isSome := a2 _ (List.mem_map_of_mem (f := evalText b'.schemas) hmem)
  have hj := congrArg String.toList hj
  rw [e1, e2, join_holes b.schemas n, join_holes b'.schemas n, ← holes_congr ho] at hj
  have := fill_inj (List.mem_map.mpr ⟨_, hmem, by simp⟩) hj
  obtain ⟨x, hx⟩ := Option.isSome_iff_exists.mp k1
  obtain ⟨y, hy⟩ := Option.isSome_iff_exists.mp k2
  rw [hx, hy] at this ⊢
  simp only [Option.getD_some] at this
  rw [String.toList_inj.mp this]

example : (∀ a b : String, id a = id b → a = b) ∧
    (⟨[("a", { name := "a", revision := none, features := ["f"] })], [], [("a", "module a {}")], []⟩ : Builder).build id =
      some (⟨"fmodule a {}", [⟨"ALL", [{ name := "a", revision := none, features := ["f"] }], []⟩]⟩, [("a", "module a {}")]) ∧
    Lists ⟨"fmodule a {}", [⟨"ALL", [{ name := "a", revision := none, features := ["f"] }], []⟩]⟩ "a" none :=
  ⟨fun _ _ h => h, by decide +kernel, ⟨_, List.mem_singleton.mpr rfl, .inl ⟨_, List.mem_singleton.mpr rfl, .inl ⟨rfl, rfl⟩⟩⟩⟩

/-- **C141** fails of two schemas, or of features: texts are put together without anything between them, so two libraries of the same modules with other schemas have the same
content identifier, whatever the digest. -/
theorem c141_schemas_disproved (digest : String → String) :
    ∃ (b b' : Builder) (lib lib' : Library) (schemas schemas' : List (String × String)), b.build digest = some (lib, schemas) ∧ b'.build digest = some (lib', schemas') ∧
      lib = lib' ∧ schemas.look "a" ≠ schemas'.look "a" ∧ schemas.look "b" ≠ schemas'.look "b" :=
  ⟨⟨[("a", { name := "a", revision := none }), ("b", { name := "b", revision := none })], [], [("a", "module a {}\n"), ("b", "module b {}")], []⟩,
    ⟨[("a", { name := "a", revision := none }), ("b", { name := "b", revision := none })], [], [("a", "module a {}"), ("b", "\nmodule b {}")], []⟩, _, _, _, _, rfl, rfl,
    by
      have : String.join ["module a {}\n", "module b {}"] = String.join ["module a {}", "\nmodule b {}"] := by decide +kernel
      exact congrArg (fun t => (⟨digest t, [⟨"ALL", [{ name := "a", revision := none }, { name := "b", revision := none }], []⟩]⟩ : Library)) this, by decide, by decide⟩

/-- **C141** fails of features: two libraries with the same schemas and other features have the same content identifier, whatever the digest. -/
theorem c141_features_disproved (digest : String → String) :
    ∃ (b b' : Builder) (lib lib' : Library) (schemas : List (String × String)) (m m' : Module), b.build digest = some (lib, schemas) ∧ b'.build digest = some (lib', schemas) ∧
      lib.contentId = lib'.contentId ∧ lib.findModule "a" = some m ∧ lib'.findModule "a" = some m' ∧ "ab" ∈ m.features ∧ "ab" ∉ m'.features :=
  ⟨⟨[("a", { name := "a", revision := none, features := ["ab", "c"] })], [], [("a", "module a {}")], []⟩,
    ⟨[("a", { name := "a", revision := none, features := ["a", "bc"] })], [], [("a", "module a {}")], []⟩, _, _, _,
    { name := "a", revision := none, features := ["ab", "c"] }, { name := "a", revision := none, features := ["a", "bc"] }, rfl, rfl,
    by
      have : String.join ["ab", "c", "module a {}"] = String.join ["a", "bc", "module a {}"] := by decide +kernel
      exact congrArg digest this, rfl, rfl, by decide, by decide⟩

/-! ## C142: extending a library -/

/-- **C142**, in part, for libraries whose modules and submodules are listed once each, where modules of both that are imported only have the same revision and modules of both with
the same schema list the same submodules: with the checker that allows all, one library can be extended with another. Schemas of the other are preferred, and so are its features;
what it lists takes the place of what was there, except for modules with the same schema, and all else is left as it was. -/
theorem c142_extended_partial {mg : List String → List String → List String} (hmg : ∀ a b f, f ∈ mg a b ↔ f ∈ a ∨ f ∈ b) {l ext : Library} {schemas extSchemas : List (String × String)}
    (hl : Whole l schemas) (hx : Whole ext extSchemas) (hc : Extends l schemas ext extSchemas) (digest : String → String) :
    ∃ b b' lib schemas', intoBuilder (permissive mg) l schemas = .ok b ∧ b.extend (permissive mg) ext extSchemas = .ok b' ∧ b'.build digest = some (lib, schemas') ∧
      (∀ n, (∃ r, Lists ext n r) → schemas'.look n = extSchemas.look n) ∧
      (∀ n, (∃ r, Lists l n r) → (¬ ∃ r, Lists ext n r) → schemas'.look n = schemas.look n) ∧
      (∀ n, (¬ ∃ r, Lists l n r) → (¬ ∃ r, Lists ext n r) → schemas'.look n = none) ∧
      (∀ n, ¬ HasModule ext n → lib.findModule n = l.findModule n) ∧
      (∀ m, IsModule ext m → ∃ m', lib.findModule m.name = some m' ∧ (∀ f, f ∈ m'.features ↔ f ∈ m.features) ∧
        (m' = { m with features := m'.features } ∨ ∃ e, IsModule l e ∧ schemas.look m.name = extSchemas.look m.name ∧ m' = { e with features := m'.features })) ∧
      (∀ n, ¬ HasImport ext n → lib.findImports n = l.findImports n) ∧
      ∀ m, IsImport ext m → ∃ e, lib.findImports m.name = some [e] ∧ e.revision = m.revision ∧ (IsImport ext e ∨ IsImport l e) := by
  have hn : Named l := fun s hs x hx => by
    obtain ⟨m, e, e'⟩ := hl.single s hs x hx
    rw [e]; simp [e']
  have hnx : Named ext := fun s hs x hx' => by
    obtain ⟨m, e, e'⟩ := hx.single s hs x hx'
    rw [e]; simp [e']
  have hnd : ((worksOf l).map Work.name).Nodup := by rw [works_names]; exact hl.distinct
  have hndx : ((worksOf ext).map Work.name).Nodup := by rw [works_names]; exact hx.distinct
  have hgiven : ∀ w ∈ worksOf l, (schemas.look w.name).isSome := fun w hw => by
    obtain ⟨r, hr⟩ := works_lists.mp ⟨w, hw, rfl⟩
    exact hl.given _ _ hr
  have hgivenx : ∀ w ∈ worksOf ext, (extSchemas.look w.name).isSome := fun w hw => by
    obtain ⟨r, hr⟩ := works_lists.mp ⟨w, hw, rfl⟩
    exact hx.given _ _ hr
  -- the first library
  obtain ⟨b, hb⟩ := addHeads_ok (p := false) hmg (schemas := schemas) (hs := headsOf l) hnd covered_empty (fun w hw => by
      rcases mem_heads.mp hw with ⟨m, rfl, _⟩ | ⟨m, rfl, _⟩
      · intro e he; simp [Builder.empty, List.look] at he
      · intro e he; simp [Builder.empty, List.look] at he) (fun _ w _ => by simp [Builder.empty, List.look]) hgiven
  have r1 := addListed_spec hmg false hnd covered_empty hb
  have c1 := r1.complete (l := l) hn complete_empty (fun _ n => by simp [Builder.empty, List.look]) (addListed_uniq hb complete_empty.uniqM complete_empty.uniqI)
  have uniqMod : ∀ {l : Library}, ((worksOf l).map Work.name).Nodup → ∀ {m : Module} {w : Work}, IsModule l m → w ∈ worksOf l → w.name = m.name → w = .full m := by
    intro l hnd m w hm hw e
    obtain ⟨i, hi, hi'⟩ := List.mem_iff_getElem.mp (works_full.mpr hm)
    obtain ⟨j, hj, hj'⟩ := List.mem_iff_getElem.mp hw
    have := (List.getElem_inj (h₀ := by rw [List.length_map]; exact hi) (h₁ := by rw [List.length_map]; exact hj) hnd).mp (by
      rw [List.getElem_map, List.getElem_map, hi', hj', e]; rfl)
    subst this
    rw [← hj', hi']
  have hmods : ∀ n, b.modules.look n = l.findModule n := by
    intro n
    cases hm : l.findModule n with
    | some m =>
      obtain ⟨s, hs, hmem⟩ := findModule_mem hm
      obtain ⟨m', h1, h2⟩ := r1.modSelf m (works_full.mpr ⟨s, hs, hmem⟩)
      rw [findModule_name hm] at h1
      rw [h1, h2.1 (by simp [Builder.empty, List.look])]
    | none =>
      rw [r1.modOther n fun m hm' e => ?_]
      · simp [Builder.empty, List.look]
      · obtain ⟨s, hs, hmem⟩ := works_full.mp hm'
        have := findModule_isSome hs hmem
        rw [e, hm] at this; cases this
  have himps : ∀ n, b.imports.look n = l.findImports n := by
    intro n
    cases hm : l.findImports n with
    | some ms =>
      obtain ⟨s, hs, hmem⟩ := findImports_mem hm
      obtain ⟨m, e, en⟩ := hl.single s hs _ hmem
      simp only at e en
      subst e
      obtain ⟨es, h1, h2, _⟩ := r1.impSelf m (works_imported.mpr ⟨s, hs, _, hmem, List.mem_singleton.mpr rfl⟩)
      rw [en] at h1
      rw [h1, h2 (by simp [Builder.empty, List.look])]
    | none =>
      rw [r1.impOther n fun m hm' e => ?_]
      · simp [Builder.empty, List.look]
      · obtain ⟨s, hs, x, hx', hmem⟩ := works_imported.mp hm'
        have := findImports_isSome hs hx'
        rw [← (hn s hs x hx').2 m hmem, e, hm] at this; cases this
  have hschema : ∀ n, (∃ r, Lists l n r) → b.schemas.look n = schemas.look n := by
    intro n hr
    obtain ⟨w, hw, rfl⟩ := works_lists.mpr hr
    exact r1.hit w hw
  -- the other library
  have hext : ∀ b0 : Builder, b0.extend (permissive mg) ext extSchemas = Builder.addListed (permissive mg) extSchemas true b0 (worksOf ext) := fun b0 => by
    unfold Builder.extend worksOf
    rw [hx.single.heads]
  obtain ⟨b', hb'⟩ := addHeads_ok (p := true) hmg (schemas := extSchemas) (hs := headsOf ext) hndx c1.covered (fun w hw => by
      rcases mem_heads.mp hw with ⟨m, rfl, hm⟩ | ⟨m, rfl, hm⟩
      · intro e he hs
        rw [hmods] at he
        obtain ⟨s, hs', hmem⟩ := findModule_mem he
        have hname := findModule_name he
        refine hc.modules e m ⟨s, hs', hmem⟩ hm hname ?_
        rw [hname, ← hs]
        exact (hschema _ ⟨e.revision, s, hs', .inl ⟨e, hmem, .inl ⟨hname, rfl⟩⟩⟩).symm
      · intro es hes
        rw [himps] at hes
        obtain ⟨s, hs', hmem⟩ := findImports_mem hes
        obtain ⟨e, ee, en⟩ := hl.single s hs' _ hmem
        simp only at ee en
        subst ee
        exact ⟨e, List.mem_singleton.mpr rfl, hc.imports e m ⟨s, hs', _, hmem, List.mem_singleton.mpr rfl⟩ hm en⟩) (fun e => (by cases e)) hgivenx
  have r2 := addListed_spec hmg true hndx c1.covered hb'
  have c2 := r2.complete (l := ext) hnx c1 (fun e => (by cases e)) (addListed_uniq hb' c1.uniqM c1.uniqI)
  obtain ⟨lib, hlib, hfm, hfi⟩ := c2.build digest
  refine ⟨b, b', lib, b'.schemas, hb, by rw [hext]; exact hb', hlib, fun n hr => ?_, fun n hr hr' => ?_, fun n hr hr' => ?_, fun n hn' => ?_, fun m hm => ?_, fun n hn' => ?_, fun m hm => ?_⟩
  · obtain ⟨w, hw, rfl⟩ := works_lists.mpr hr
    exact r2.hit w hw
  · rw [r2.miss n fun w hw e => hr' (works_lists.mp ⟨w, hw, e⟩)]
    exact hschema n hr
  · rw [r2.miss n fun w hw e => hr' (works_lists.mp ⟨w, hw, e⟩), r1.miss n fun w hw e => hr (works_lists.mp ⟨w, hw, e⟩)]
    simp [Builder.empty, List.look]
  · rw [hfm, r2.modOther n fun m hm e => hn' (by obtain ⟨s, hs, hmem⟩ := works_full.mp hm; exact ⟨s, hs, m, hmem, e⟩), hmods]
  · obtain ⟨m', h1, h2⟩ := r2.modSelf m (works_full.mpr hm)
    refine ⟨m', by rw [hfm]; exact h1, ?_⟩
    cases he : b.modules.look m.name with
    | none => rw [h2.1 he]; exact ⟨fun _ => Iff.rfl, .inl rfl⟩
    | some e =>
      obtain ⟨h3, h4⟩ := h2.2 e he rfl
      refine ⟨h3, h4.imp id fun h => ?_⟩
      rw [hmods] at he
      obtain ⟨s, hs', hmem⟩ := findModule_mem he
      refine ⟨e, ⟨s, hs', hmem⟩, ?_, h.2⟩
      rw [← h.1]
      exact (hschema _ ⟨e.revision, s, hs', .inl ⟨e, hmem, .inl ⟨findModule_name he, rfl⟩⟩⟩).symm
  · rw [hfi, r2.impOther n fun m hm e => hn' (by obtain ⟨s, hs, x, hx', hmem⟩ := works_imported.mp hm; exact ⟨s, hs, x, hx', m, hmem, e⟩), himps]
  · obtain ⟨es, h1, h2, h3, h4⟩ := r2.impSelf m (works_imported.mpr hm)
    rcases h4 with rfl | h4
    · exact ⟨m, by rw [hfi]; exact h1, rfl, .inl hm⟩
    · have h4' := h4
      rw [himps] at h4'
      obtain ⟨s, hs', hmem⟩ := findImports_mem h4'
      obtain ⟨e, ee, en⟩ := hl.single s hs' _ hmem
      simp only at ee en
      subst ee
      obtain ⟨e', he', hr⟩ := h3
      simp only [List.mem_singleton] at he'
      subst he'
      exact ⟨e', by rw [hfi]; exact h1, hr, .inr ⟨s, hs', _, hmem, List.mem_singleton.mpr rfl⟩⟩

namespace ExtendDemo

/-- the library of a device -/
def lib : Library := ⟨"x", [⟨"set", [{ name := "a", revision := some "1", features := ["f"], submodules := [⟨"s", some "1"⟩] }, { name := "b", revision := some "1" }], [("c", [{ name := "c", revision := some "3" }])]⟩]⟩
def schemas : List (String × String) := [("a", "A"), ("b", "B"), ("c", "C"), ("s", "S")]

/-- what it is extended with: another revision of a module, another module, and one that is imported only -/
def ext : Library := ⟨"y", [⟨"set", [{ name := "a", revision := some "2", features := ["g"] }, { name := "d", revision := some "1" }], [("c", [{ name := "c", revision := some "3" }])]⟩]⟩
def extSchemas : List (String × String) := [("a", "A2"), ("d", "D"), ("c", "C")]

theorem whole : Whole lib schemas where
  distinct := by unfold Distinct; decide
  single s hs x hx := by
    simp only [lib, List.mem_singleton] at hs
    subst hs
    simp only [List.mem_singleton] at hx
    subst hx
    exact ⟨_, rfl, rfl⟩
  given n r h := by
    have := mem_entries.mpr h
    simp only [lib, Library.entries, ModuleSet.entries, List.flatMap_cons, List.flatMap_nil, List.map_cons, List.map_nil, List.append_nil, List.cons_append, List.nil_append, List.mem_cons,
      Prod.mk.injEq, List.not_mem_nil, or_false] at this
    rcases this with ⟨rfl, _⟩ | ⟨rfl, _⟩ | ⟨rfl, _⟩ | ⟨rfl, _⟩ <;> rfl

theorem wholeExt : Whole ext extSchemas where
  distinct := by unfold Distinct; decide
  single s hs x hx := by
    simp only [ext, List.mem_singleton] at hs
    subst hs
    simp only [List.mem_singleton] at hx
    subst hx
    exact ⟨_, rfl, rfl⟩
  given n r h := by
    have := mem_entries.mpr h
    simp only [ext, Library.entries, ModuleSet.entries, List.flatMap_cons, List.flatMap_nil, List.map_cons, List.map_nil, List.append_nil, List.cons_append, List.nil_append, List.mem_cons,
      Prod.mk.injEq, List.not_mem_nil, or_false] at this
    rcases this with ⟨rfl, _⟩ | ⟨rfl, _⟩ | ⟨rfl, _⟩ <;> rfl

theorem fits : Extends lib schemas ext extSchemas where
  imports e m he hm _ := by
    obtain ⟨s, hs, x, hx, he⟩ := he
    obtain ⟨s', hs', x', hx', hm⟩ := hm
    simp only [lib, List.mem_singleton] at hs
    simp only [ext, List.mem_singleton] at hs'
    subst hs; subst hs'
    simp only [List.mem_singleton] at hx hx'
    subst hx; subst hx'
    simp only [List.mem_singleton] at he hm
    subst he; subst hm
    rfl
  modules e m he hm _ _ u hu := by
    obtain ⟨s', hs', hm⟩ := hm
    simp only [ext, List.mem_singleton] at hs'
    subst hs'
    simp only [List.mem_cons, List.not_mem_nil, or_false] at hm
    rcases hm with rfl | rfl <;> cases hu

end ExtendDemo

example : Whole ExtendDemo.lib ExtendDemo.schemas ∧ Whole ExtendDemo.ext ExtendDemo.extSchemas ∧
    Extends ExtendDemo.lib ExtendDemo.schemas ExtendDemo.ext ExtendDemo.extSchemas ∧ (∀ a b f, f ∈ (a : List String) ++ b ↔ f ∈ a ∨ f ∈ b) :=
  ⟨ExtendDemo.whole, ExtendDemo.wholeExt, ExtendDemo.fits, fun _ _ _ => List.mem_append⟩

/-- **C142** fails of a module that is imported only and has another revision: though the checker allows all, the library cannot be extended. -/
theorem c142_revision_disproved :
    ∃ (l ext : Library) (schemas extSchemas : List (String × String)) (b : Builder) (mg : List String → List String → List String), (∀ a b f, f ∈ mg a b ↔ f ∈ a ∨ f ∈ b) ∧
      Single l ∧ Single ext ∧ intoBuilder (permissive mg) l schemas = .ok b ∧ (∀ n r, Lists ext n r → (extSchemas.look n).isSome) ∧
      b.extend (permissive mg) ext extSchemas = .error (.moduleNotFound "c") := by
  refine ⟨⟨"x", [⟨"set", [], [("c", [{ name := "c", revision := some "1" }])]⟩]⟩, ⟨"y", [⟨"set", [], [("c", [{ name := "c", revision := some "2" }])]⟩]⟩, [("c", "C")], [("c", "C2")],
    ⟨[], [("c", [{ name := "c", revision := some "1" }])], [("c", "C")], []⟩, (· ++ ·), fun _ _ _ => List.mem_append, ?_, ?_, by decide +kernel, ?_, by decide +kernel⟩
  · intro s hs x hx
    simp only [List.mem_singleton] at hs
    subst hs
    simp only [List.mem_singleton] at hx
    subst hx
    exact ⟨_, rfl, rfl⟩
  · intro s hs x hx
    simp only [List.mem_singleton] at hs
    subst hs
    simp only [List.mem_singleton] at hx
    subst hx
    exact ⟨_, rfl, rfl⟩
  · rintro n r ⟨s, hs, h⟩
    simp only [List.mem_singleton] at hs
    subst hs
    simp only [List.not_mem_nil, false_and, exists_false, List.mem_singleton, exists_eq_left, or_false, false_or] at h
    rw [← h.1]
    rfl

/-- **C142** fails of a library with two revisions of a module that is imported only: it cannot be extended with anything. -/
theorem c142_revisions_disproved :
    ∃ (l : Library) (schemas : List (String × String)) (mg : List String → List String → List String), (∀ a b f, f ∈ mg a b ↔ f ∈ a ∨ f ∈ b) ∧ Named l ∧
      (∀ n r, Lists l n r → (schemas.look n).isSome) ∧ intoBuilder (permissive mg) l schemas = .error (.moduleNotFound "c") := by
  refine ⟨⟨"x", [⟨"set", [], [("c", [{ name := "c", revision := some "1" }, { name := "c", revision := some "2" }])]⟩]⟩, [("c", "C")], (· ++ ·), fun _ _ _ => List.mem_append, ?_, ?_,
    by decide +kernel⟩
  · intro s hs x hx
    simp only [List.mem_singleton] at hs
    subst hs
    simp only [List.mem_singleton] at hx
    subst hx
    simp
  · rintro n r ⟨s, hs, h⟩
    simp only [List.mem_singleton] at hs
    subst hs
    simp only [List.not_mem_nil, false_and, exists_false, List.mem_singleton, exists_eq_left, or_false, false_or, List.mem_cons] at h
    obtain ⟨m, rfl | rfl, ⟨rfl, _⟩ | ⟨u, hu, _⟩⟩ := h <;> first | rfl | cases hu

end Verif.Props
