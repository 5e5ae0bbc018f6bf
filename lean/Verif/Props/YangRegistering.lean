import Verif.YangPush.RegisteringCalm
/-! # Registering of YANG libraries: C147 to C153 -/
namespace Verif.Props
open Verif.YangPush Verif.YangPush.Register Verif.YangPush.Load

/-! ## A library -/
namespace RegisterDemo

/-- a module with a submodule and one that augments it; all import another, that is imported only -/
def lib : Library := ⟨"1", [⟨"s", [{ name := "a", revision := none, submodules := [⟨"u", none⟩], augmentedBy := ["c"], features := ["f"] }, { name := "c", revision := none }],
  [("t", [{ name := "t", revision := none }])]⟩]⟩

def schemas : List (String × String) := [("a", "a"), ("u", "u"), ("c", "c"), ("t", "t")]

def read (text : String) : Option Deps :=
  if text = "a" then some ⟨["t"], ["u"]⟩ else if text = "u" then some ⟨["t"], []⟩ else if text = "c" then some ⟨["a", "t"], []⟩ else if text = "t" then some ⟨[], []⟩ else none

/-- takes all and counts them -/
def registry : Registry Nat := ⟨fun s subject _ => (s + 1, some ⟨some s, some subject, some 1⟩), fun s _ _ => (s, none), fun s _ _ => (s, none), fun s _ => (s, false)⟩

def level (n : String) : Nat := if n = "c" then 3 else if n = "a" then 2 else if n = "u" then 1 else 0

theorem reads_iff {n : String} {d : Deps} : Reads read schemas n d ↔
    (n = "a" ∧ d = ⟨["t"], ["u"]⟩) ∨ (n = "u" ∧ d = ⟨["t"], []⟩) ∨ (n = "c" ∧ d = ⟨["a", "t"], []⟩) ∨ (n = "t" ∧ d = ⟨[], []⟩) := by
  constructor
  · rintro ⟨text, ht, hd⟩
    simp only [schemas, Collector.lookup_cons', Collector.look_nil] at ht
    split at ht
    · cases ht; rename_i h; subst h; cases hd; simp
    · split at ht
      · cases ht; rename_i h; subst h; cases hd; simp
      · split at ht
        · cases ht; rename_i h; subst h; cases hd; simp
        · split at ht
          · cases ht; rename_i h; subst h; cases hd; simp
          · cases ht
  · rintro (⟨rfl, rfl⟩ | ⟨rfl, rfl⟩ | ⟨rfl, rfl⟩ | ⟨rfl, rfl⟩)
    · exact ⟨"a", rfl, rfl⟩
    · exact ⟨"u", rfl, rfl⟩
    · exact ⟨"c", rfl, rfl⟩
    · exact ⟨"t", rfl, rfl⟩

theorem module_iff {m : Module} : IsModule lib m ↔ m = { name := "a", revision := none, submodules := [⟨"u", none⟩], augmentedBy := ["c"], features := ["f"] } ∨ m = { name := "c", revision := none } := by
  simp [IsModule, lib]

theorem import_iff {m : ImportOnly} : IsImport lib m ↔ m = { name := "t", revision := none } := by
  simp only [IsImport, lib, List.mem_singleton, exists_eq_left]

theorem part_iff {n : String} (h : Part lib read schemas n) : n = "a" ∨ n = "c" ∨ n = "t" ∨ n = "u" := by
  induction h with
  | listed h =>
    rw [hasModule_iff, hasImport_iff] at h
    rcases h with ⟨m, hm, rfl⟩ | ⟨m, hm, rfl⟩
    · rcases module_iff.mp hm with rfl | rfl <;> simp
    · rw [import_iff.mp hm]; simp
  | included _ hr hi _ =>
    rcases reads_iff.mp hr with ⟨_, rfl⟩ | ⟨_, rfl⟩ | ⟨_, rfl⟩ | ⟨_, rfl⟩ <;> simp at hi
    simp [hi]

theorem refers {n m : String} (h : Refers lib read schemas n m) : level m < level n := by
  rcases h with ⟨_, d, hd, hm⟩ | ⟨x, hx, rfl, hn⟩
  · rcases reads_iff.mp hd with ⟨rfl, rfl⟩ | ⟨rfl, rfl⟩ | ⟨rfl, rfl⟩ | ⟨rfl, rfl⟩ <;> simp at hm
    · rcases hm with rfl | rfl <;> decide
    · subst hm; decide
    · rcases hm with rfl | rfl <;> decide
  · rcases module_iff.mp hx with rfl | rfl <;> simp at hn
    subst hn; decide

theorem refers_trans {n m : String} (h : Relation.TransGen (Refers lib read schemas) n m) : level m < level n := by
  induction h with
  | single h => exact refers h
  | tail _ h ih => exact Nat.lt_trans (refers h) ih

theorem named : Named lib := by
  intro s hs x hx
  simp only [lib, List.mem_singleton] at hs
  subst hs
  simp only [List.mem_singleton] at hx
  subst hx
  simp

theorem complete : Complete lib read schemas where
  one := ⟨_, rfl⟩
  same := by
    intro x y hx hy
    rcases module_iff.mp hx with rfl | rfl <;> rcases module_iff.mp hy with rfl | rfl <;> decide
  apart := by
    intro x y hx hy u hu
    rcases module_iff.mp hx with rfl | rfl <;> rcases module_iff.mp hy with rfl | rfl <;> simp at hu <;> subst hu <;> decide
  texts := by
    intro n r h
    rw [← mem_entries] at h
    simp [lib, Library.entries, ModuleSet.entries] at h
    rcases h with ⟨rfl, _⟩ | ⟨rfl, _⟩ | ⟨rfl, _⟩ | ⟨rfl, _⟩ <;> exact ⟨_, rfl⟩
  reads := by
    intro n h
    rcases part_iff h with rfl | rfl | rfl | rfl <;> exact ⟨_, _, rfl, rfl⟩
  imports := by
    intro n d m _ hd hm
    rw [hasModule_iff, hasImport_iff]
    have ha : ∃ x, IsModule lib x ∧ x.name = "a" := ⟨_, module_iff.mpr (.inl rfl), rfl⟩
    have ht : ∃ x, IsImport lib x ∧ x.name = "t" := ⟨_, import_iff.mpr rfl, rfl⟩
    rcases reads_iff.mp hd with ⟨_, rfl⟩ | ⟨_, rfl⟩ | ⟨_, rfl⟩ | ⟨_, rfl⟩ <;> simp at hm
    · subst hm; exact .inr ht
    · subst hm; exact .inr ht
    · rcases hm with rfl | rfl
      · exact .inl ha
      · exact .inr ht
  includes := by
    intro n d i _ hd hi
    rcases reads_iff.mp hd with ⟨_, rfl⟩ | ⟨_, rfl⟩ | ⟨_, rfl⟩ | ⟨_, rfl⟩ <;> simp at hi
    subst hi
    exact ⟨_, List.mem_singleton.mpr rfl, _, List.mem_cons_self, ⟨"u", none⟩, List.mem_singleton.mpr rfl, rfl⟩
  others := by
    intro x m hx hm
    rw [hasModule_iff]
    rcases module_iff.mp hx with rfl | rfl <;> simp at hm
    subst hm
    exact .inl ⟨_, module_iff.mpr (.inr rfl), rfl⟩
  acyclic := fun a h => Nat.lt_irrefl _ (refers_trans h)

theorem accepts : Accepts registry := fun s subject _ => ⟨s + 1, ⟨some s, some subject, some 1⟩, rfl, nofun⟩

end RegisterDemo

/-! ## C147: what is registered -/

/-- C147: if registering succeeds, all modules, with what they include, have been registered, once, and nothing that is not listed; each with its text and its features, and references to
exactly what it imports, includes, augments and deviates from, by the subjects and versions that the registry answered before. At last the root is registered again: it refers to what it
needs, and to all that nothing else refers to -/
theorem c147_registered {lib : Library} {read : String → Option Deps} {schemas : List (String × String)} {subjectPrefix : String} {sort : Graph → Except String (List String)} (hsort : Sorts sort)
    {σ : Type} {c : Registry σ} {n : Nat} {s s' : σ} {root : String} {done : List Done} {answer : Registered}
    (h : registerSchema lib read schemas subjectPrefix sort c n s root = some (s', done, .ok answer)) :
    ∃ ds last, done = ds ++ [last] ∧ last.name = root ∧ last.answer = answer ∧ Taken c subjectPrefix s done s' ∧ (ds.map (·.name)).Nodup ∧
      (∀ n, Part lib read schemas n → n ∈ ds.map (·.name)) ∧ (∀ n ∈ ds.map (·.name), ∃ r, Lists lib n r) ∧
      (∀ before d after, ds = before ++ d :: after → Right lib schemas (Refers lib read schemas d.name) before d) ∧
      Right lib schemas (fun m => Refers lib read schemas root m ∨ m ∈ ds.map (·.name) ∧ ∀ n, ¬Refers lib read schemas n m) ds last := by
  obtain ⟨g, ds, last, hs⟩ := registerSchema_success hsort h
  refine ⟨ds, last, hs.split, hs.name, hs.same, hs.taken, hs.once, fun n hn => (hs.names n).mpr (hs.graph.parts n hn), ?_, ?_, ?_⟩
  · intro n hn
    have := (hs.names n).mp hn
    rw [hs.graph.nodes] at this
    exact node_listed this
  · intro before d after e
    exact (hs.right before d after e).congr fun m => hs.graph.edges m d.name
  · refine hs.final.congr fun m => ?_
    rw [hs.names, hs.graph.edges]
    simp only [hs.graph.edges]

/-! ## C148: all can be reached -/

/-- C148: from the schema of the root that is registered last all that was registered can be reached by references -/
theorem c148_reached {lib : Library} {read : String → Option Deps} {schemas : List (String × String)} {subjectPrefix : String} {sort : Graph → Except String (List String)} (hsort : Sorts sort)
    {σ : Type} {c : Registry σ} {n : Nat} {s s' : σ} {root : String} {done : List Done} {answer : Registered}
    (h : registerSchema lib read schemas subjectPrefix sort c n s root = some (s', done, .ok answer)) :
    ∃ ds last, done = ds ++ [last] ∧ last.answer = answer ∧ ∀ d ∈ ds, Reaches ds last d := by
  obtain ⟨g, ds, last, hs⟩ := registerSchema_success hsort h
  exact ⟨ds, last, hs.split, hs.same, hs.reaches (before := []) rfl⟩

/-! ## C149: registering succeeds -/

/-- C149: registering succeeds for libraries as in `Complete`, with registries that take all; libraries with several sets of modules, and modules that are imported only and include
submodules are missing -/
theorem c149_succeeds_partial {lib : Library} (hl : Named lib) {read : String → Option Deps} {schemas : List (String × String)} (hc : Complete lib read schemas) (subjectPrefix : String)
    {sort : Graph → Except String (List String)} (hsort : Sorts sort) {σ : Type} {c : Registry σ} (hr : Accepts c) (s : σ) {root : String} (hroot : HasModule lib root) :
    ∃ levels, ∀ n, levels ≤ n → ∃ s' done answer, registerSchema lib read schemas subjectPrefix sort c n s root = some (s', done, .ok answer) := by
  refine ⟨lib.entries.length + 1, fun n hn => ?_⟩
  have ha : ∀ a, ¬Relation.TransGen (Includes lib read schemas) a a := fun a h =>
    hc.acyclic a (TransGen.map (fun _ _ ⟨hp, d, hd, hi⟩ => .inl ⟨hp, d, hd, .inr hi⟩) h)
  obtain ⟨g, hg⟩ := addModules_ok hl hc (fun i hi => hc.subs hi) ha (n := n) (by omega) (ms := listedModules lib) (fun m hm => hm) rfl
  cases hres : registerSchema lib read schemas subjectPrefix sort c n s root with
  | none =>
    unfold registerSchema toGraph at hres
    rw [if_neg (by have := findModule_some_iff.mpr hroot; cases hf : lib.findModule root <;> simp_all), hg] at hres
    simp only at hres
    split at hres
    · cases hres
    · split at hres
      · split at hres <;> cases hres
      · cases hres
  | some r =>
    obtain ⟨s', done, e⟩ := r
    cases e with
    | ok answer => exact ⟨s', done, answer, rfl⟩
    | error f =>
      exfalso
      rcases registerSchema_fails hsort hc.texts hres with ⟨_, h⟩ | h | ⟨_, _, a, h⟩ | ⟨s₁, subject, e, s₂, h⟩
      · exact h hroot
      · unfold toGraph at h
        rw [hg] at h
        cases h
      · exact hc.acyclic a h
      · obtain ⟨s₃, r, h'⟩ := hr.takes s₁ subject e
        rw [h'] at h
        cases h

/-- the library above is registered, with what is said in C147 and C148 -/
example : ∃ n s' done answer, registerSchema RegisterDemo.lib RegisterDemo.read RegisterDemo.schemas "x-" someSort RegisterDemo.registry n 0 "a" = some (s', done, .ok answer) := by
  obtain ⟨n, h⟩ := c149_succeeds_partial RegisterDemo.named RegisterDemo.complete "x-" someSort_sorts RegisterDemo.accepts 0 (root := "a")
    (hasModule_iff.mpr ⟨_, RegisterDemo.module_iff.mpr (.inl rfl), rfl⟩)
  exact ⟨n, h n (Nat.le_refl _)⟩

/-- C149: a library that has all schemas can not be registered if a module that is imported only includes a submodule -/
theorem c149_imported_disproved {σ : Type} (c : Registry σ) (s : σ) (sort : Graph → Except String (List String)) (n : Nat) :
    registerSchema ⟨"1", [⟨"s", [{ name := "a", revision := none }], [("t", [{ name := "t", revision := none, submodules := [⟨"u", none⟩] }])]⟩]⟩
      (fun text => if text = "a" then some ⟨["t"], []⟩ else if text = "t" then some ⟨[], ["u"]⟩ else some ⟨[], []⟩) [("a", "a"), ("t", "t"), ("u", "u")] "" sort c (n + 1) s "a" =
      some (s, [], .error .graph) :=
  rfl

/-! ## C150: registering ends -/

/-- C150: registering ends if no submodule includes itself, directly or not -/
theorem c150_ends_partial {lib : Library} {read : String → Option Deps} {schemas : List (String × String)} (ha : ∀ a, ¬Relation.TransGen (Includes lib read schemas) a a) (subjectPrefix : String)
    (sort : Graph → Except String (List String)) {σ : Type} (c : Registry σ) (s : σ) (root : String) :
    ∃ levels, ∀ n, levels ≤ n → ∃ r, registerSchema lib read schemas subjectPrefix sort c n s root = some r := by
  refine ⟨lib.entries.length + 1, fun n hn => ?_⟩
  have := addModules_ends ha (n := n) (by omega) (ms := listedModules lib) (g := constructNodes lib) fun m hm => hm
  unfold registerSchema
  split
  · exact ⟨_, rfl⟩
  · split
    · rename_i h
      exact absurd h this
    · exact ⟨_, rfl⟩
    · split
      · exact ⟨_, rfl⟩
      · split
        · split <;> exact ⟨_, rfl⟩
        · exact ⟨_, rfl⟩

example : ∀ a, ¬Relation.TransGen (Includes RegisterDemo.lib RegisterDemo.read RegisterDemo.schemas) a a := fun a h =>
  RegisterDemo.complete.acyclic a (TransGen.map (fun _ _ ⟨hp, d, hd, hi⟩ => .inl ⟨hp, d, hd, .inr hi⟩) h)

namespace CircleDemo

/-- a module with two submodules that include each other -/
def lib : Library := ⟨"1", [⟨"s", [{ name := "a", revision := none, submodules := [⟨"u", none⟩, ⟨"v", none⟩] }], []⟩]⟩

def schemas : List (String × String) := [("a", "a"), ("u", "u"), ("v", "v")]

def read (text : String) : Option Deps := if text = "u" then some ⟨[], ["v"]⟩ else some ⟨[], ["u"]⟩

theorem stuck : ∀ (n : Nat) (g : Graph), g.nodes = ["a", "u", "v"] →
    addDeps lib read schemas n g "u" ⟨[], ["v"]⟩ = none ∧ addDeps lib read schemas n g "v" ⟨[], ["u"]⟩ = none
  | 0, _, _ => ⟨rfl, rfl⟩
  | n + 1, g, h => by
    have hu : (g.addEdge "u" "v").nodes = ["a", "u", "v"] := (addEdge_adds g "u" "v").nodes.trans h
    have hv : (g.addEdge "v" "u").nodes = ["a", "u", "v"] := (addEdge_adds g "v" "u").nodes.trans h
    constructor
    · show includeEdges lib read schemas (addDeps lib read schemas n) "u" g ["v"] = none
      unfold includeEdges
      rw [if_pos ⟨by decide, by rw [h]; decide⟩]
      show (match addDeps lib read schemas n (g.addEdge "v" "u") "v" ⟨[], ["u"]⟩ with
        | some (.ok g) => includeEdges lib read schemas (addDeps lib read schemas n) "u" g []
        | r => r) = none
      rw [(stuck n _ hv).2]
    · show includeEdges lib read schemas (addDeps lib read schemas n) "v" g ["u"] = none
      unfold includeEdges
      rw [if_pos ⟨by decide, by rw [h]; decide⟩]
      show (match addDeps lib read schemas n (g.addEdge "u" "v") "u" ⟨[], ["v"]⟩ with
        | some (.ok g) => includeEdges lib read schemas (addDeps lib read schemas n) "v" g []
        | r => r) = none
      rw [(stuck n _ hu).1]

end CircleDemo

/-- C150: registering does not end if two submodules include each other; in Rust the stack overflows -/
theorem c150_circle_disproved {σ : Type} (c : Registry σ) (s : σ) (sort : Graph → Except String (List String)) :
    ∀ n, registerSchema CircleDemo.lib CircleDemo.read CircleDemo.schemas "" sort c n s "a" = none
  | 0 => rfl
  | n + 1 => by
    have h : addDeps CircleDemo.lib CircleDemo.read CircleDemo.schemas n ⟨["a", "u", "v"], [("u", "a")]⟩ "u" ⟨[], ["v"]⟩ = none := (CircleDemo.stuck n _ rfl).1
    have h' : toGraph CircleDemo.lib CircleDemo.read CircleDemo.schemas (n + 1) = none := by
      have e : addDeps CircleDemo.lib CircleDemo.read CircleDemo.schemas (n + 1) ⟨["a", "u", "v"], []⟩ "a" ⟨[], ["u"]⟩ = none := by
        show (match addDeps CircleDemo.lib CircleDemo.read CircleDemo.schemas n ⟨["a", "u", "v"], [("u", "a")]⟩ "u" ⟨[], ["v"]⟩ with
          | some (.ok g) => includeEdges CircleDemo.lib CircleDemo.read CircleDemo.schemas (addDeps CircleDemo.lib CircleDemo.read CircleDemo.schemas n) "a" g []
          | r => r) = none
        rw [h]
      have e' : addModule CircleDemo.lib CircleDemo.read CircleDemo.schemas (n + 1) ⟨["a", "u", "v"], []⟩ "a" [] = none := by
        show (match addDeps CircleDemo.lib CircleDemo.read CircleDemo.schemas (n + 1) ⟨["a", "u", "v"], []⟩ "a" ⟨[], ["u"]⟩ with
          | some (.ok g) => some (extraEdges CircleDemo.lib "a" g [])
          | r => r) = none
        rw [e]
      show (match addModule CircleDemo.lib CircleDemo.read CircleDemo.schemas (n + 1) ⟨["a", "u", "v"], []⟩ "a" [] with
        | some (.ok g) => addModules CircleDemo.lib CircleDemo.read CircleDemo.schemas (n + 1) g []
        | r => r) = none
      rw [e']
    unfold registerSchema
    rw [if_neg (by decide), h']

/-! ## C151: registering does not panic -/

/-- C151: registering does not panic if there is a schema for all that is listed, and the registry gives an identifier with each answer -/
theorem c151_calm_partial {lib : Library} {read : String → Option Deps} {schemas : List (String × String)} (htexts : ∀ n r, Lists lib n r → ∃ text, schemas.look n = some text) {subjectPrefix : String}
    {sort : Graph → Except String (List String)} (hsort : Sorts sort) {σ : Type} {c : Registry σ} (hc : ∀ s subject e s' r, c.register s subject e = (s', some r) → r.id ≠ none)
    {n : Nat} {s s' : σ} {root : String} {done : List Done} {f : Failure}
    (h : registerSchema lib read schemas subjectPrefix sort c n s root = some (s', done, .error f)) : f ≠ .panicked := by
  rcases registerSchema_fails hsort htexts h with ⟨rfl, _⟩ | h | ⟨x, rfl, _⟩ | ⟨_, _, _, _, h⟩
  · nofun
  · rw [addModules_calm htexts h]; nofun
  · nofun
  · rw [registerRetry_calm hc h]; nofun

example : (∀ n r, Lists RegisterDemo.lib n r → ∃ text, RegisterDemo.schemas.look n = some text) ∧
    ∀ s subject e s' r, RegisterDemo.registry.register s subject e = (s', some r) → r.id ≠ none :=
  ⟨RegisterDemo.complete.texts, fun s subject e s' r h => by cases h; nofun⟩

/-- C151: registering panics if there is no schema of a submodule -/
theorem c151_text_disproved {σ : Type} (c : Registry σ) (s : σ) (sort : Graph → Except String (List String)) (n : Nat) :
    registerSchema ⟨"1", [⟨"s", [{ name := "a", revision := none, submodules := [⟨"u", none⟩] }], []⟩]⟩ (fun _ => some ⟨[], ["u"]⟩) [("a", "a")] "" sort c (n + 1) s "a" =
      some (s, [], .error .panicked) :=
  rfl

/-! ## C152: references have versions -/

/-- the only order of two modules of which one imports the other -/
theorem order_two {l : List String} {a b : String} (hab : a ≠ b) (hn : l.Nodup) (h : ∀ n, n ∈ l ↔ n = a ∨ n = b) (hb : ∀ before rest, l = before ++ a :: rest → b ∈ before) : l = [b, a] := by
  match l, hn, h, hb with
  | [], _, h, _ => exact absurd ((h a).mpr (.inl rfl)) (by simp)
  | [x], _, h, _ =>
    have h1 := (h a).mpr (.inl rfl)
    have h2 := (h b).mpr (.inr rfl)
    simp only [List.mem_singleton] at h1 h2
    exact absurd (h1.trans h2.symm) hab
  | [x, y], hn, h, hb =>
    rcases (h x).mp (by simp) with rfl | rfl
    · exact absurd (hb [] [y] rfl) (by simp)
    · rcases (h y).mp (by simp) with rfl | rfl
      · rfl
      · exact absurd hn (by simp)
  | x :: y :: z :: l, hn, h, _ =>
    exfalso
    have hx := (h x).mp (by simp)
    have hy := (h y).mp (by simp)
    have hz := (h z).mp (by simp)
    simp only [List.nodup_cons, List.mem_cons, not_or] at hn
    rcases hx with rfl | rfl <;> rcases hy with rfl | rfl <;> rcases hz with rfl | rfl <;> simp_all

/-- C152: references are by the subjects and versions that the registry answered, if it always answers with them -/
theorem c152_versions_partial {lib : Library} {read : String → Option Deps} {schemas : List (String × String)} {subjectPrefix : String} {sort : Graph → Except String (List String)} (hsort : Sorts sort)
    {σ : Type} {c : Registry σ} (hc : ∀ s subject e s' r, c.register s subject e = (s', some r) → r.subject ≠ none ∧ r.version ≠ none) {n : Nat} {s s' : σ} {root : String} {done : List Done}
    {answer : Registered} (h : registerSchema lib read schemas subjectPrefix sort c n s root = some (s', done, .ok answer)) :
    ∀ d ∈ done, ∀ r ∈ d.refs, ∃ x ∈ done, x.name = r.name ∧ x.answer.subject = some r.subject ∧ x.answer.version = some r.version := by
  obtain ⟨g, ds, last, hs⟩ := registerSchema_success hsort h
  have hans : ∀ (ds : List Done) (s' : σ), Taken c subjectPrefix s ds s' → ∀ x ∈ ds, x.answer.subject ≠ none ∧ x.answer.version ≠ none := by
    intro ds s' ht
    induction ht with
    | nil => intro x hx; exact absurd hx (by simp)
    | snoc _ ht ih =>
      intro x hx
      rcases List.mem_append.mp hx with hx | hx
      · exact ih x hx
      · rw [List.mem_singleton.mp hx]
        cases ht with
        | versioned h _ => exact hc _ _ _ _ _ h
        | asked h h' _ _ _ => exact absurd h' (hc _ _ _ _ _ h).2
        | relaxed _ _ h => exact hc _ _ _ _ _ h
  have key : ∀ x ∈ done, x.name = x.ref.name ∧ x.answer.subject = some x.ref.subject ∧ x.answer.version = some x.ref.version := by
    intro x hx
    obtain ⟨h1, h2⟩ := hans done s' hs.taken x hx
    refine ⟨rfl, ?_, ?_⟩
    · cases e : x.answer.subject with
      | none => exact absurd e h1
      | some v => simp [Done.ref, e]
    · cases e : x.answer.version with
      | none => exact absurd e h2
      | some v => simp [Done.ref, e]
  intro d hd r hr
  rw [hs.split] at hd
  rcases List.mem_append.mp hd with hd | hd
  · obtain ⟨before, after, e⟩ := List.append_of_mem hd
    obtain ⟨x, hx, _, rfl⟩ := ((hs.right _ _ _ e).refs r).mp hr
    have hx' : x ∈ done := by rw [hs.split, e]; simp [hx]
    exact ⟨x, hx', key x hx'⟩
  · rw [List.mem_singleton.mp hd] at hr
    obtain ⟨x, hx, _, rfl⟩ := (hs.final.refs r).mp hr
    have hx' : x ∈ done := by rw [hs.split]; simp [hx]
    exact ⟨x, hx', key x hx'⟩

example : ∀ s subject e s' r, RegisterDemo.registry.register s subject e = (s', some r) → r.subject ≠ none ∧ r.version ≠ none :=
  fun s subject e s' r h => by cases h; exact ⟨nofun, nofun⟩

/-- a registry that answers with the identifier only, as those before 7.4 do, and refuses schemas that are not compatible until it is told to take all -/
def oldRegistry : Registry Bool :=
  ⟨fun s _ _ => (s, if s then some ⟨some 1, none, none⟩ else none), fun s _ _ => (s, some ⟨"", none, none⟩), fun s subject _ => (s, some ⟨some 1, some subject, some 7⟩), fun _ _ => (true, true)⟩

/-- C152: with such a registry the reference to a module whose schema was not compatible is by no subject and version 0 -/
theorem c152_relaxed_disproved {sort : Graph → Except String (List String)} (hsort : Sorts sort) (n : Nat) :
    ∃ done answer, registerSchema ⟨"1", [⟨"s", [{ name := "a", revision := none }, { name := "b", revision := none }], []⟩]⟩ (fun text => some ⟨if text = "a" then ["b"] else [], []⟩) [("a", "a"), ("b", "b")] "" sort
      oldRegistry (n + 1) false "a" = some (true, done, .ok answer) ∧ ∃ d ∈ done, d.name = "a" ∧ ⟨"b", "", 0⟩ ∈ d.refs := by
  have hs : sort ⟨["a", "b"], [("b", "a")]⟩ = .ok ["b", "a"] := by
    cases h : sort ⟨["a", "b"], [("b", "a")]⟩ with
    | error x =>
      obtain ⟨y, hy⟩ := hsort.circle _ _ h
      exfalso
      have key : ∀ x y, Relation.TransGen (fun x y => (x, y) ∈ [("b", "a")]) x y → x = "b" ∧ y = "a" := by
        intro x y h
        induction h with
        | single h => simpa using h
        | tail _ h ih => exact absurd (ih.2.symm.trans (by simpa using h : _ ∧ _).1) (by decide)
      obtain ⟨h1, h2⟩ := key _ _ hy
      exact absurd (h1.symm.trans h2) (by decide)
    | ok order =>
      obtain ⟨h1, h2⟩ := hsort.all _ _ h
      rw [order_two (a := "a") (b := "b") (by decide) h1 (by simpa using h2) fun before rest e => hsort.after _ _ h "b" "a" before rest (by simp) e (by simp)]
  refine ⟨[⟨"b", ⟨"b", some (sortRefs []), none⟩, ⟨some 1, none, none⟩⟩, ⟨"a", ⟨"a", some (sortRefs [⟨"b", "", 0⟩]), none⟩, ⟨some 1, some "a", some 7⟩⟩,
    ⟨"a", ⟨"a", some (sortRefs [⟨"b", "", 0⟩, ⟨"a", "a", 7⟩]), none⟩, ⟨some 1, some "a", some 7⟩⟩], ⟨some 1, some "a", some 7⟩, ?_, ?_⟩
  · show (match sort ⟨["a", "b"], [("b", "a")]⟩ with
      | .error x => _
      | .ok order => _) = _
    rw [hs]
    rfl
  · exact ⟨_, List.mem_cons_of_mem _ List.mem_cons_self, rfl, by simp [Done.refs, sortRefs]⟩

/-! ## C153: the root does not refer to itself -/

/-- C153: nothing refers to itself if something else refers to the root -/
theorem c153_itself_partial {lib : Library} {read : String → Option Deps} {schemas : List (String × String)} {subjectPrefix : String} {sort : Graph → Except String (List String)} (hsort : Sorts sort)
    {σ : Type} {c : Registry σ} {n : Nat} {s s' : σ} {root : String} {done : List Done} {answer : Registered}
    (h : registerSchema lib read schemas subjectPrefix sort c n s root = some (s', done, .ok answer)) {other : String} (ho : Refers lib read schemas other root) :
    ∀ d ∈ done, ∀ r ∈ d.refs, r.name ≠ d.name := by
  obtain ⟨g, ds, last, hs⟩ := registerSchema_success hsort h
  have hno : ∀ d ∈ ds, (d.name, d.name) ∉ g.edges := by
    intro d hd hself
    obtain ⟨before, after, e⟩ := List.append_of_mem hd
    obtain ⟨x, hx, hxn⟩ := (hs.right _ _ _ e).all d.name hself
    have := hs.once
    rw [e, List.map_append, List.nodup_append] at this
    exact this.2.2 _ (List.mem_map.mpr ⟨x, hx, rfl⟩) d.name (by simp) hxn
  intro d hd r hr he
  rw [hs.split] at hd
  rcases List.mem_append.mp hd with hd | hd
  · obtain ⟨before, after, e⟩ := List.append_of_mem hd
    obtain ⟨x, hx, hedge, rfl⟩ := ((hs.right _ _ _ e).refs r).mp hr
    rw [show x.name = d.name from he] at hedge
    exact hno d hd hedge
  · rw [List.mem_singleton.mp hd] at hr he
    obtain ⟨x, hx, hedge, rfl⟩ := (hs.final.refs r).mp hr
    have hxr : x.name = root := he.trans hs.name
    rcases hedge with hedge | ⟨_, hedge⟩
    · rw [← hxr] at hedge
      exact hno x hx hedge
    · rw [hxr] at hedge
      exact hedge other ((hs.graph.edges _ _).mpr ho)

example : Refers RegisterDemo.lib RegisterDemo.read RegisterDemo.schemas "c" "a" :=
  .inr ⟨_, RegisterDemo.module_iff.mpr (.inl rfl), rfl, .inl (by simp)⟩

/-- C153: a root that nothing refers to refers to itself, in the version that was registered before -/
theorem c153_root_disproved {lib : Library} {read : String → Option Deps} {schemas : List (String × String)} {subjectPrefix : String} {sort : Graph → Except String (List String)} (hsort : Sorts sort)
    {σ : Type} {c : Registry σ} {n : Nat} {s s' : σ} {root : String} {done : List Done} {answer : Registered}
    (h : registerSchema lib read schemas subjectPrefix sort c n s root = some (s', done, .ok answer)) (hroot : HasModule lib root) (hno : ∀ other, ¬Refers lib read schemas other root) :
    ∃ ds last, done = ds ++ [last] ∧ last.name = root ∧ ∃ r ∈ last.refs, r.name = root := by
  obtain ⟨g, ds, last, hs⟩ := registerSchema_success hsort h
  have hnode := hs.graph.parts root (.listed (.inl hroot))
  obtain ⟨x, hx, hxn⟩ := List.mem_map.mp ((hs.names root).mpr hnode)
  refine ⟨ds, last, hs.split, hs.name, x.ref, ?_, hxn⟩
  rw [hs.final.refs]
  exact ⟨x, hx, .inr ⟨hxn ▸ hnode, fun m hm => hno m (hxn ▸ (hs.graph.edges _ _).mp hm)⟩, rfl⟩

/-- such a root is that of the library above that augments the other -/
theorem RegisterDemo.top : ∀ other, ¬Refers RegisterDemo.lib RegisterDemo.read RegisterDemo.schemas other "c" := by
  intro other h
  have := RegisterDemo.refers h
  have h3 : RegisterDemo.level "c" = 3 := by decide
  have : RegisterDemo.level other ≤ 3 := by unfold RegisterDemo.level; split <;> (try split) <;> (try split) <;> omega
  omega

example : ∃ n s' done answer, registerSchema RegisterDemo.lib RegisterDemo.read RegisterDemo.schemas "x-" someSort RegisterDemo.registry n 0 "c" = some (s', done, .ok answer) ∧
    ∃ d ∈ done, ∃ r ∈ d.refs, r.name = d.name := by
  have hm : HasModule RegisterDemo.lib "c" := hasModule_iff.mpr ⟨_, RegisterDemo.module_iff.mpr (.inr rfl), rfl⟩
  obtain ⟨n, h⟩ := c149_succeeds_partial RegisterDemo.named RegisterDemo.complete "x-" someSort_sorts RegisterDemo.accepts 0 hm
  obtain ⟨s', done, answer, h⟩ := h n (Nat.le_refl _)
  obtain ⟨ds, last, hd, hl, r, hr, he⟩ := c153_root_disproved someSort_sorts h hm RegisterDemo.top
  exact ⟨n, s', done, answer, h, last, by rw [hd]; simp, r, hr, he.trans hl.symm⟩

end Verif.Props
