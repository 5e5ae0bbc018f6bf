import Verif.YangPush.Library
import Verif.Collector.Lemmas
/-! # What YANG libraries list -/
namespace Verif.YangPush
open Collector

/-- a library lists a module or submodule in a revision -/
def Lists (l : Library) (name : String) (revision : Option String) : Prop :=
  ∃ s ∈ l.sets,
    (∃ m ∈ s.modules, m.name = name ∧ m.revision = revision ∨ ∃ u ∈ m.submodules, u.name = name ∧ u.revision = revision) ∨
    ∃ x ∈ s.imports, ∃ m ∈ x.2, m.name = name ∧ m.revision = revision ∨ ∃ u ∈ m.submodules, u.name = name ∧ u.revision = revision

/-- modules that are imported only are listed by their names, in at least one revision, as `ModuleSet::new` does -/
def Named (l : Library) : Prop := ∀ s ∈ l.sets, ∀ x ∈ s.imports, x.2 ≠ [] ∧ ∀ m ∈ x.2, m.name = x.1

/-- modules that are imported only have no submodules -/
def Plain (l : Library) : Prop := ∀ s ∈ l.sets, ∀ x ∈ s.imports, ∀ m ∈ x.2, m.submodules = []

theorem mem_entries {l : Library} {name : String} {revision : Option String} : (name, revision) ∈ l.entries ↔ Lists l name revision := by
  simp only [Library.entries, ModuleSet.entries, Lists, List.mem_flatMap, List.mem_append, List.mem_cons, List.mem_map, Prod.mk.injEq]
  constructor
  · rintro ⟨s, hs, ⟨m, hm, h⟩ | ⟨x, hx, m, hm, h⟩⟩
    · refine ⟨s, hs, .inl ⟨m, hm, ?_⟩⟩
      rcases h with h | ⟨u, hu, h⟩
      · exact .inl ⟨h.1.symm, h.2.symm⟩
      · exact .inr ⟨u, hu, h⟩
    · refine ⟨s, hs, .inr ⟨x, hx, m, hm, ?_⟩⟩
      rcases h with h | ⟨u, hu, h⟩
      · exact .inl ⟨h.1.symm, h.2.symm⟩
      · exact .inr ⟨u, hu, h⟩
  · rintro ⟨s, hs, ⟨m, hm, h⟩ | ⟨x, hx, m, hm, h⟩⟩
    · refine ⟨s, hs, .inl ⟨m, hm, ?_⟩⟩
      rcases h with h | ⟨u, hu, h⟩
      · exact .inl ⟨h.1.symm, h.2.symm⟩
      · exact .inr ⟨u, hu, h⟩
    · refine ⟨s, hs, .inr ⟨x, hx, m, hm, ?_⟩⟩
      rcases h with h | ⟨u, hu, h⟩
      · exact .inl ⟨h.1.symm, h.2.symm⟩
      · exact .inr ⟨u, hu, h⟩

/-! ## Finding modules -/

theorem findModule_name {lib : Library} {n : String} {m : Module} (h : lib.findModule n = some m) : m.name = n := by
  obtain ⟨s, _, hs⟩ := List.exists_of_findSome?_eq_some h
  simpa using List.find?_some hs

theorem findModule_mem {lib : Library} {n : String} {m : Module} (h : lib.findModule n = some m) : ∃ s ∈ lib.sets, m ∈ s.modules := by
  obtain ⟨s, hm, hs⟩ := List.exists_of_findSome?_eq_some h
  exact ⟨s, hm, List.mem_of_find?_eq_some hs⟩

theorem findSubmodule_mem {lib : Library} {n : String} {u : Submodule} (h : lib.findSubmodule n = some u) : u.name = n ∧ ∃ s ∈ lib.sets, ∃ m ∈ s.modules, u ∈ m.submodules := by
  obtain ⟨s, hs, h⟩ := List.exists_of_findSome?_eq_some h
  obtain ⟨m, hm, h⟩ := List.exists_of_findSome?_eq_some h
  exact ⟨by simpa using List.find?_some h, s, hs, m, hm, List.mem_of_find?_eq_some h⟩

theorem findImports_mem {lib : Library} {n : String} {ms : List ImportOnly} (h : lib.findImports n = some ms) : ∃ s ∈ lib.sets, (n, ms) ∈ s.imports := by
  obtain ⟨s, hs, h⟩ := List.exists_of_findSome?_eq_some h
  exact ⟨s, hs, mem_of_lookup h⟩

theorem Named.imports {lib : Library} (h : Named lib) {n : String} {ms : List ImportOnly} (hn : lib.findImports n = some ms) : ms ≠ [] ∧ ∀ m ∈ ms, m.name = n := by
  obtain ⟨s, hs, hm⟩ := findImports_mem hn
  exact h s hs _ hm

theorem findModule_isSome {lib : Library} {s : ModuleSet} (hs : s ∈ lib.sets) {m : Module} (hm : m ∈ s.modules) : (lib.findModule m.name).isSome := by
  unfold Library.findModule
  rw [List.findSome?_isSome_iff]
  exact ⟨s, hs, by rw [List.find?_isSome]; exact ⟨m, hm, by simp⟩⟩

theorem findSubmodule_isSome {lib : Library} {s : ModuleSet} (hs : s ∈ lib.sets) {m : Module} (hm : m ∈ s.modules) {u : Submodule} (hu : u ∈ m.submodules) :
    (lib.findSubmodule u.name).isSome := by
  unfold Library.findSubmodule
  rw [List.findSome?_isSome_iff]
  refine ⟨s, hs, ?_⟩
  rw [List.findSome?_isSome_iff]
  exact ⟨m, hm, by rw [List.find?_isSome]; exact ⟨u, hu, by simp⟩⟩

theorem findImports_isSome {lib : Library} {s : ModuleSet} (hs : s ∈ lib.sets) {x : String × List ImportOnly} (hx : x ∈ s.imports) : (lib.findImports x.1).isSome := by
  unfold Library.findImports
  rw [List.findSome?_isSome_iff]
  refine ⟨s, hs, ?_⟩
  cases h : s.imports.look x.1 with
  | some _ => rfl
  | none =>
    exfalso
    revert h hx
    generalize s.imports = l
    intro hx h
    induction l with
    | nil => cases hx
    | cons y l ih =>
      rw [show y = (y.1, y.2) from rfl, lookup_cons'] at h
      split at h
      · cases h
      · rcases List.mem_cons.mp hx with rfl | hx
        · rename_i hne; exact hne rfl
        · exact ih hx h

end Verif.YangPush
