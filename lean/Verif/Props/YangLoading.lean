import Verif.YangPush.LoadingWell
/-! # C138 to C140: loading of YANG libraries from devices -/
namespace Verif.Props
open Collector YangPush YangPush.Load

/-! ## C138: loading ends -/

/-- **C138**: whatever a library says, a device answers and schemas depend on, loading ends, in one way, and the device is asked once at most for each name, in a revision that the
library lists. -/
theorem c138_ends {lib : Library} (hn : Named lib) (dev : Device) (k : Checker) (seed : List String) :
    ∃ r asked, Ends lib dev k seed r asked ∧ (∀ r' asked', Ends lib dev k seed r' asked' → r' = r ∧ asked' = asked) ∧ (asked.map (·.1)).Nodup ∧ ∀ x ∈ asked, Lists lib x.1 x.2 := by
  cases hq : seedWork lib seed with
  | error e =>
    refine ⟨.error e, [], ⟨0, by simp only [load, hq]⟩, ?_, by simp, by simp⟩
    rintro r' asked' ⟨n, h⟩
    simp only [load, hq, Option.some.injEq, Prod.mk.injEq] at h
    exact ⟨h.1.symm, h.2.symm⟩
  | ok q =>
    obtain ⟨n, ⟨r, asked⟩, h⟩ := loop_ends hn dev k ⟨q, [], .empty, []⟩ fun w hw => ((seedWork_spec hn hq).1 w hw).1
    obtain ⟨h1, h2⟩ := loop_asked hn (s := ⟨q, [], .empty, []⟩) ⟨fun w hw => ((seedWork_spec hn hq).1 w hw).1, rfl, List.nodup_nil, by simp⟩ h
    refine ⟨r, asked, ⟨n, by simp only [load, hq]; exact h⟩, ?_, h1, fun x hx => mem_entries.mp (h2 x hx)⟩
    rintro r' asked' ⟨n', h'⟩
    simp only [load, hq] at h'
    have e1 := loop_mono h n'
    have e2 := loop_mono h' n
    rw [Nat.add_comm] at e2
    rw [e1] at e2
    cases e2
    exact ⟨rfl, rfl⟩

namespace LoadDemo

/-- a library with a module that has two submodules and is augmented by another, and modules that are imported -/
def lib : Library :=
  ⟨"x", [⟨"set", [{ name := "a", revision := some "1", submodules := [⟨"s", some "1"⟩, ⟨"t", none⟩], augmentedBy := ["b"] }, { name := "b", revision := some "2" },
      { name := "z", revision := none }], [("c", [{ name := "c", revision := some "3" }])]⟩]⟩

/-- the module and its submodules include each other, and the modules import each other -/
def dev : Device where
  schema n _ := some n
  deps t := some (if t = "a" then ⟨["c"], ["s", "t"]⟩ else if t = "s" then ⟨["a"], ["t"]⟩ else if t = "t" then ⟨[], ["s"]⟩ else if t = "b" then ⟨["a", "ietf-missing"], []⟩ else ⟨["c"], []⟩)

theorem named : Named lib := by
  intro s hs x hx
  simp only [lib, List.mem_singleton] at hs
  subst hs
  simp only [List.mem_singleton] at hx
  subst hx
  simp

end LoadDemo

example : Named LoadDemo.lib ∧ Ends LoadDemo.lib LoadDemo.dev (permissive (· ++ ·)) ["b"] (.ok ⟨[("b", { name := "b", revision := some "2" }), ("a", { name := "a", revision := some "1", submodules := [⟨"s", some "1"⟩, ⟨"t", none⟩], augmentedBy := ["b"] })],
      [("c", [{ name := "c", revision := some "3" }])], [("b", "b"), ("a", "a"), ("c", "c"), ("s", "s"), ("t", "t")], [("s", ⟨"s", some "1"⟩), ("t", ⟨"t", none⟩)]⟩)
    [("b", some "2"), ("a", some "1"), ("c", some "3"), ("s", some "1"), ("t", none)] :=
  ⟨LoadDemo.named, 20, by decide +kernel⟩

/-! ## C139: what is loaded is what is needed -/

/-- **C139**: if loading ends well, there are schemas for exactly what the modules that were asked for need, each in the revision that the library lists. -/
theorem c139_needed {lib : Library} (hn : Named lib) {dev : Device} {k : Checker} {seed : List String} {b : Builder} {asked : List (String × Option String)}
    (h : Ends lib dev k seed (.ok b) asked) :
    (∀ n, (b.schemas.look n).isSome ↔ Needed lib dev.deps b.schemas seed n) ∧
    ∀ n t, b.schemas.look n = some t → ∃ revision, Lists lib n revision ∧ dev.schema n revision = some t ∧ (∀ m, lib.findModule n = some m → revision = m.revision) := by
  obtain ⟨v, hi⟩ := h.inv hn
  refine ⟨fun n => ⟨fun hs => hi.needv n ((hi.keys n).mp hs), fun hs => (hi.keys n).mpr (hi.needed hs)⟩, fun n t ht => ?_⟩
  rcases hi.source n t ht with ⟨m, h1, _, h3⟩ | ⟨h0, ms, m, h1, h2, _, h4⟩ | ⟨h0, u, h1, _, h3⟩
  · obtain ⟨s, hs, hm⟩ := findModule_mem h1
    exact ⟨m.revision, ⟨s, hs, .inl ⟨m, hm, .inl ⟨findModule_name h1, rfl⟩⟩⟩, h3, fun m' e => by rw [h1] at e; cases e; rfl⟩
  · obtain ⟨s, hs, hm⟩ := findImports_mem h1
    exact ⟨m.revision, ⟨s, hs, .inr ⟨_, hm, m, h2, .inl ⟨(hn.imports h1).2 m h2, rfl⟩⟩⟩, h4, fun m' e => by rw [h0] at e; cases e⟩
  · obtain ⟨e, s, hs, m, hm, hu⟩ := findSubmodule_mem h1
    exact ⟨u.revision, ⟨s, hs, .inl ⟨m, hm, .inr ⟨u, hu, e, rfl⟩⟩⟩, h3, fun m' e => by rw [h0] at e; cases e⟩

/-- **C139**, the library that is made: its modules are those of the device's library that are needed, as they are there. Those that are imported only are there in one revision. -/
theorem c139_library {lib : Library} (hn : Named lib) {dev : Device} {k : Checker} {seed : List String} {b : Builder} {asked : List (String × Option String)}
    (h : Ends lib dev k seed (.ok b) asked) {digest : String → String} {lib' : Library} {schemas : List (String × String)} (hb : b.build digest = some (lib', schemas)) :
    schemas = b.schemas ∧
    (∀ n, Needed lib dev.deps schemas seed n → lib'.findModule n = lib.findModule n) ∧
    (∀ n, ¬ Needed lib dev.deps schemas seed n → lib'.findModule n = none) ∧
    (∀ n ms, lib'.findImports n = some ms → Needed lib dev.deps schemas seed n ∧ ¬ HasModule lib n ∧ ∃ m, ms = [m] ∧ IsImport lib m ∧ m.name = n) ∧
    ∀ n, Needed lib dev.deps schemas seed n → HasImport lib n → ¬ HasModule lib n → ¬ HasSubmodule lib n → (lib'.findImports n).isSome := by
  obtain ⟨v, hi⟩ := h.inv hn
  obtain ⟨c1, _⟩ := c139_needed hn h
  unfold Builder.build at hb
  obtain ⟨ts, hts, e⟩ := Option.map_eq_some_iff.mp hb
  cases e
  have hfm : ∀ n, Library.findModule ⟨digest (String.join ts), [⟨"ALL", b.modules.map (·.2), b.imports⟩]⟩ n = b.modules.look n := by
    intro n
    have : ∀ l : List (String × Module), (∀ n e, (n, e) ∈ l → e.name = n) → (l.map (·.2)).find? (fun m => m.name = n) = l.look n := by
      intro l hk
      induction l with
      | nil => rfl
      | cons x l ih =>
        obtain ⟨k, e⟩ := x
        have := hk k e (by simp)
        rw [List.map_cons, List.find?_cons, lookup_cons']
        simp only [this]
        split
        · rename_i h; rw [if_pos (by simpa using h)]
        · rename_i h; rw [if_neg (by simpa using h)]; exact ih fun n e h => hk n e (by simp [h])
    rw [← this b.modules fun n e hm => findModule_name (hi.mods n e (lookup_of_mem hi.uniqM hm)).2]
    simp only [Library.findModule, List.findSome?_cons, List.findSome?_nil]
    cases (b.modules.map (·.2)).find? (fun m => m.name = n) <;> rfl
  have hfi : ∀ n, Library.findImports ⟨digest (String.join ts), [⟨"ALL", b.modules.map (·.2), b.imports⟩]⟩ n = b.imports.look n := by
    intro n
    simp only [Library.findImports, List.findSome?_cons, List.findSome?_nil]
    cases b.imports.look n <;> rfl
  refine ⟨rfl, fun n hneed => ?_, fun n hneed => ?_, fun n ms hms => ?_, fun n hneed h1 h2 h3 => ?_⟩
  · rw [hfm]
    cases hm : b.modules.look n with
    | some m => rw [(hi.mods n m hm).2]
    | none =>
      obtain ⟨t, ht⟩ := Option.isSome_iff_exists.mp ((c1 n).mpr hneed)
      rcases hi.source n t ht with ⟨m, _, e, _⟩ | ⟨e, _⟩ | ⟨e, _⟩
      · simp only at e; rw [hm] at e; cases e
      · exact e.symm
      · exact e.symm
  · rw [hfm]
    cases hm : b.modules.look n with
    | none => rfl
    | some m => exact absurd (hi.needv n (hi.mods n m hm).1) hneed
  · rw [hfi] at hms
    obtain ⟨i1, i2, all, m, i3, i4, rfl⟩ := hi.imps n ms hms
    obtain ⟨s, hs, hm⟩ := findImports_mem i3
    refine ⟨hi.needv n i1, fun hm => ?_, m, rfl, ⟨s, hs, _, hm, i4⟩, (hn.imports i3).2 m i4⟩
    rw [← findModule_some_iff, i2] at hm
    cases hm
  · rw [hfi]
    obtain ⟨t, ht⟩ := Option.isSome_iff_exists.mp ((c1 n).mpr hneed)
    rcases hi.source n t ht with ⟨m, e, _⟩ | ⟨_, ms, m, _, _, e, _⟩ | ⟨_, u, e, _⟩
    · exact absurd (findModule_some_iff.mp (by rw [e]; rfl)) h2
    · simp only at e; rw [e]; rfl
    · exact absurd (findSubmodule_some_iff.mp (by rw [e]; rfl)) h3

/-- what is not needed is left out -/
example : ¬ Needed LoadDemo.lib LoadDemo.dev.deps [("b", "b"), ("a", "a"), ("c", "c"), ("s", "s"), ("t", "t")] ["b"] "z" ∧
    Needed LoadDemo.lib LoadDemo.dev.deps [("b", "b"), ("a", "a"), ("c", "c"), ("s", "s"), ("t", "t")] ["b"] "t" := by
  obtain ⟨h, _⟩ := c139_needed LoadDemo.named (dev := LoadDemo.dev) (k := permissive (· ++ ·)) (seed := ["b"]) (b := ⟨[("b", { name := "b", revision := some "2" }), ("a", { name := "a", revision := some "1", submodules := [⟨"s", some "1"⟩, ⟨"t", none⟩], augmentedBy := ["b"] })],
      [("c", [{ name := "c", revision := some "3" }])], [("b", "b"), ("a", "a"), ("c", "c"), ("s", "s"), ("t", "t")], [("s", ⟨"s", some "1"⟩), ("t", ⟨"t", none⟩)]⟩)
    (asked := [("b", some "2"), ("a", some "1"), ("c", some "3"), ("s", some "1"), ("t", none)]) ⟨20, by decide +kernel⟩
  exact ⟨fun hn => absurd ((h "z").mpr hn) (by decide), (h "t").mp (by decide)⟩

/-! ## C140: loading goes well -/

/-- **C140**, in part, for modules that include exactly the submodules that the library lists with them, and modules that are imported only without submodules: if the library has the
modules that are asked for and the device gives a schema that can be read for all that the library lists, loading ends well, and a library is made. -/
theorem c140_loaded_partial {lib : Library} (hn : Named lib) {dev : Device} (hs : Sound lib dev) (k : Checker) {seed : List String} (hseed : ∀ n ∈ seed, HasModule lib n ∨ HasImport lib n)
    (digest : String → String) : ∃ b asked lib' schemas, Ends lib dev k seed (.ok b) asked ∧ b.build digest = some (lib', schemas) := by
  obtain ⟨q, hq⟩ := seedWork_ok hn hseed
  have hi := LoadInv.init (dev := dev) hn hq
  obtain ⟨n, ⟨r, asked⟩, h⟩ := loop_ends hn dev k ⟨q, [], .empty, []⟩ hi.legit
  obtain ⟨b, rfl⟩ := loop_well hn hs hi ⟨fun pre p u post e => by
    simp only at e
    exact absurd (by rw [e]; simp) (seedWork_sub hq p u).1, fun p u => (seedWork_sub hq p u).2⟩ h
  obtain ⟨v, hv⟩ := hi.loop hn h
  obtain ⟨ts, hts⟩ := hv.build hn hs
  exact ⟨b, asked, _, _, ⟨n, by simp only [load, hq]; exact h⟩, by unfold Builder.build; rw [hts]; rfl⟩

theorem LoadDemo.sound : Sound LoadDemo.lib LoadDemo.dev where
  given n r _ := ⟨n, _, rfl, rfl⟩
  listed m t d hm ht hd u hu := by
    obtain ⟨s, hs, hm⟩ := hm
    simp only [LoadDemo.lib, List.mem_singleton] at hs
    subst hs
    simp only [List.mem_cons, List.not_mem_nil, or_false] at hm
    rcases hm with rfl | rfl | rfl
    · cases ht; cases hd
      simp only [List.mem_cons, List.not_mem_nil, or_false] at hu
      rcases hu with rfl | rfl <;> decide
    · cases hu
    · cases hu
  included m t d hm ht hd i hi _ := by
    obtain ⟨s, hs, hm⟩ := hm
    simp only [LoadDemo.lib, List.mem_singleton] at hs
    subst hs
    simp only [List.mem_cons, List.not_mem_nil, or_false] at hm
    rcases hm with rfl | rfl | rfl <;> (cases ht; cases hd)
    · have : i = "s" ∨ i = "t" := by simpa using hi
      rcases this with rfl | rfl
      · exact ⟨⟨"s", some "1"⟩, by simp, rfl⟩
      · exact ⟨⟨"t", none⟩, by simp, rfl⟩
    · exact absurd hi (by simp)
    · exact absurd hi (by simp)
  nested m hm u hu t d ht hd i hi _ := by
    obtain ⟨s, hs, hm⟩ := hm
    simp only [LoadDemo.lib, List.mem_singleton] at hs
    subst hs
    simp only [List.mem_cons, List.not_mem_nil, or_false] at hm
    rcases hm with rfl | rfl | rfl
    · simp only [List.mem_cons, List.not_mem_nil, or_false] at hu
      rcases hu with rfl | rfl <;> (cases ht; cases hd)
      · have : i = "t" := by simpa using hi
        subst this
        exact ⟨⟨"t", none⟩, by simp, rfl⟩
      · have : i = "s" := by simpa using hi
        subst this
        exact ⟨⟨"s", some "1"⟩, by simp, rfl⟩
    · cases hu
    · cases hu
  once m m' u u' hm hm' hu hu' e := by
    obtain ⟨s, hs, hm⟩ := hm
    obtain ⟨s', hs', hm'⟩ := hm'
    simp only [LoadDemo.lib, List.mem_singleton] at hs hs'
    subst hs; subst hs'
    simp only [List.mem_cons, List.not_mem_nil, or_false] at hm hm'
    rcases hm with rfl | rfl | rfl
    · rcases hm' with rfl | rfl | rfl
      · simp only [List.mem_cons, List.not_mem_nil, or_false] at hu hu'
        rcases hu with rfl | rfl <;> rcases hu' with rfl | rfl <;> first | rfl | exact absurd e (by decide)
      · cases hu'
      · cases hu'
    · cases hu
    · cases hu
  plain s hs x hx m hm := by
    simp only [LoadDemo.lib, List.mem_singleton] at hs
    subst hs
    simp only [List.mem_singleton] at hx
    subst hx
    simp only [List.mem_singleton] at hm
    subst hm
    rfl
  simple m t d hm ht hd i hi := by
    obtain ⟨s, hs, x, hx, hm⟩ := hm
    simp only [LoadDemo.lib, List.mem_singleton] at hs
    subst hs
    simp only [List.mem_singleton] at hx
    subst hx
    simp only [List.mem_singleton] at hm
    subst hm
    cases ht; cases hd
    exact absurd hi (by simp)

example : Named LoadDemo.lib ∧ Sound LoadDemo.lib LoadDemo.dev ∧ ∀ n ∈ ["b", "c"], HasModule LoadDemo.lib n ∨ HasImport LoadDemo.lib n :=
  ⟨LoadDemo.named, LoadDemo.sound, fun n hn => by
    simp only [List.mem_cons, List.not_mem_nil, or_false] at hn
    rcases hn with rfl | rfl
    · exact .inl (findModule_some_iff.mp (by decide))
    · exact .inr ((findImports_some_iff LoadDemo.named).mp (by decide))⟩

/-- a library with a module that is imported only and has a submodule -/
def importedSubLib : Library := ⟨"x", [⟨"set", [{ name := "a", revision := some "1" }], [("c", [{ name := "c", revision := some "3", submodules := [⟨"s", some "1"⟩] }])]⟩]⟩

def importedSubDev : Device where
  schema n _ := some n
  deps t := some (if t = "a" then ⟨["c"], []⟩ else if t = "c" then ⟨[], ["s"]⟩ else ⟨[], []⟩)

/-- **C140** fails for modules that are imported only and have submodules, though the device gives all schemas: the submodule is not asked for, and making the library panics. -/
theorem c140_imported_disproved :
    ∃ (lib : Library) (dev : Device) (k : Checker) (b : Builder) (asked : List (String × Option String)), Named lib ∧
      (∀ n r, Lists lib n r → ∃ t d, dev.schema n r = some t ∧ dev.deps t = some d) ∧ HasModule lib "a" ∧ Ends lib dev k ["a"] (.ok b) asked ∧ ∀ digest, b.build digest = none := by
  refine ⟨importedSubLib, importedSubDev, permissive (· ++ ·), ⟨[("a", { name := "a", revision := some "1" })], [("c", [{ name := "c", revision := some "3", submodules := [⟨"s", some "1"⟩] }])],
    [("a", "a"), ("c", "c")], []⟩, [("a", some "1"), ("c", some "3")], ?_, fun n r _ => ⟨n, _, rfl, rfl⟩, findModule_some_iff.mp (by decide), ⟨20, by decide +kernel⟩, fun _ => rfl⟩
  intro s hs x hx
  simp only [importedSubLib, List.mem_singleton] at hs
  subst hs
  simp only [List.mem_singleton] at hx
  subst hx
  simp

/-- a library with a module whose submodule includes another -/
def nestedLib : Library := ⟨"x", [⟨"set", [{ name := "a", revision := some "1", submodules := [⟨"s", some "1"⟩, ⟨"t", some "1"⟩] }], []⟩]⟩

def nestedDev : Device where
  schema n _ := some n
  deps t := some (if t = "a" then ⟨[], ["s"]⟩ else if t = "s" then ⟨[], ["t"]⟩ else ⟨[], []⟩)

/-- **C140** fails for submodules that are included by submodules only, as modules of the first version of YANG may have them: they are taken to belong to the submodule that
includes them, and there is no such module. -/
theorem c140_nested_disproved :
    ∃ (lib : Library) (dev : Device) (k : Checker) (asked : List (String × Option String)), Named lib ∧
      (∀ n r, Lists lib n r → ∃ t d, dev.schema n r = some t ∧ dev.deps t = some d) ∧ HasModule lib "a" ∧ Ends lib dev k ["a"] (.error (.moduleNotFound "s")) asked := by
  refine ⟨nestedLib, nestedDev, permissive (· ++ ·), [("a", some "1"), ("s", some "1"), ("t", some "1")], ?_, fun n r _ => ⟨n, _, rfl, rfl⟩, findModule_some_iff.mp (by decide), ⟨20, by decide +kernel⟩⟩
  intro s hs x hx
  simp only [nestedLib, List.mem_singleton] at hs
  subst hs
  cases hx

end Verif.Props
