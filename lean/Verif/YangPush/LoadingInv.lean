import Verif.YangPush.LoadingSpec
import Verif.Collector.Lemmas
/-! # Loading of YANG libraries: what is loaded -/
namespace Verif.YangPush.Load
open Collector

/-! ## Finding modules -/

theorem findModule_some_iff {lib : Library} {n : String} : (lib.findModule n).isSome ↔ HasModule lib n := by
  constructor
  · intro h
    obtain ⟨m, hm⟩ := Option.isSome_iff_exists.mp h
    obtain ⟨s, hs, hmem⟩ := findModule_mem hm
    exact ⟨s, hs, m, hmem, findModule_name hm⟩
  · rintro ⟨s, hs, m, hm, rfl⟩
    exact findModule_isSome hs hm

theorem findImports_some_iff {lib : Library} (hn : Named lib) {n : String} : (lib.findImports n).isSome ↔ HasImport lib n := by
  constructor
  · intro h
    obtain ⟨ms, hms⟩ := Option.isSome_iff_exists.mp h
    obtain ⟨h1, h2⟩ := hn.imports hms
    obtain ⟨s, hs, hmem⟩ := findImports_mem hms
    cases ms with
    | nil => exact absurd rfl h1
    | cons m ms => exact ⟨s, hs, _, hmem, m, by simp, h2 m (by simp)⟩
  · rintro ⟨s, hs, x, hx, m, hm, rfl⟩
    rw [(hn s hs x hx).2 m hm]
    exact findImports_isSome hs hx

theorem findSubmodule_some_iff {lib : Library} {n : String} : (lib.findSubmodule n).isSome ↔ HasSubmodule lib n := by
  constructor
  · intro h
    obtain ⟨u, hu⟩ := Option.isSome_iff_exists.mp h
    obtain ⟨e, s, hs, m, hm, hmem⟩ := findSubmodule_mem hu
    exact ⟨s, hs, m, hm, u, hmem, e⟩
  · rintro ⟨s, hs, m, hm, u, hu, rfl⟩
    exact findSubmodule_isSome hs hm hu

/-! ## Work -/

/-- work that comes from the library -/
def Legit (lib : Library) : Work → Prop
  | .full m => lib.findModule m.name = some m
  | .imported m => lib.findModule m.name = none ∧ ∃ ms, lib.findImports m.name = some ms ∧ m ∈ ms
  | .fullSub _ u => lib.findModule u.name = none ∧ lib.findSubmodule u.name = some u
  | .importedSub _ u => lib.findModule u.name = none ∧ lib.findSubmodule u.name = some u

theorem module_entry {lib : Library} {s : ModuleSet} (hs : s ∈ lib.sets) {m : Module} (hm : m ∈ s.modules) : (m.name, m.revision) ∈ lib.entries := by
  simp only [Library.entries, List.mem_flatMap]
  refine ⟨s, hs, ?_⟩
  simp only [ModuleSet.entries, List.mem_append, List.mem_flatMap]
  exact .inl ⟨m, hm, by simp⟩

theorem submodule_entry {lib : Library} {s : ModuleSet} (hs : s ∈ lib.sets) {m : Module} (hm : m ∈ s.modules) {u : Submodule} (hu : u ∈ m.submodules) :
    (u.name, u.revision) ∈ lib.entries := by
  simp only [Library.entries, List.mem_flatMap]
  refine ⟨s, hs, ?_⟩
  simp only [ModuleSet.entries, List.mem_append, List.mem_flatMap]
  exact .inl ⟨m, hm, by simp only [List.mem_cons, List.mem_map]; exact .inr ⟨u, hu, rfl⟩⟩

theorem import_entry {lib : Library} {s : ModuleSet} (hs : s ∈ lib.sets) {n : String} {ms : List ImportOnly} (hm : (n, ms) ∈ s.imports) {m : ImportOnly} (h : m ∈ ms) :
    (m.name, m.revision) ∈ lib.entries := by
  simp only [Library.entries, List.mem_flatMap]
  refine ⟨s, hs, ?_⟩
  simp only [ModuleSet.entries, List.mem_append, List.mem_flatMap]
  exact .inr ⟨_, hm, m, h, by simp⟩

theorem Legit.entry {lib : Library} {w : Work} (h : Legit lib w) : (w.name, w.revision) ∈ lib.entries := by
  cases w with
  | full m =>
    obtain ⟨s, hs, hm⟩ := findModule_mem h
    exact module_entry hs hm
  | fullSub p u =>
    obtain ⟨_, s, hs, m, hm, hu⟩ := findSubmodule_mem h.2
    exact submodule_entry hs hm hu
  | imported m =>
    obtain ⟨_, ms, hms, hm⟩ := h
    obtain ⟨s, hs, hmem⟩ := findImports_mem hms
    exact import_entry hs hmem hm
  | importedSub p u =>
    obtain ⟨_, s, hs, m, hm, hu⟩ := findSubmodule_mem h.2
    exact submodule_entry hs hm hu

theorem importWork_spec {lib : Library} (hn : Named lib) (n : String) : (∀ w ∈ importWork lib n, Legit lib w ∧ w.name = n) ∧
    (importWork lib n ≠ [] ↔ HasModule lib n ∨ HasImport lib n) := by
  rw [← findModule_some_iff, ← findImports_some_iff hn]
  unfold importWork
  cases h : lib.findModule n with
  | some m =>
    have := findModule_name h
    refine ⟨fun w hw => ?_, by simp⟩
    simp only [List.mem_singleton] at hw
    subst hw
    exact ⟨by simp only [Legit]; rw [this]; exact h, this⟩
  | none =>
    cases hi : lib.findImports n with
    | none => simp
    | some ms =>
      obtain ⟨h1, h2⟩ := hn.imports hi
      refine ⟨fun w hw => ?_, by simp [h1]⟩
      simp only [Option.getD_some, List.mem_map] at hw
      obtain ⟨m, hm, rfl⟩ := hw
      have := h2 m hm
      exact ⟨⟨by rw [this]; exact h, ms, by rw [this]; exact hi, hm⟩, this⟩

theorem includeWork_spec {lib : Library} (w : Work) (n : String) : (∀ x ∈ includeWork lib w n, Legit lib x ∧ x.name = n) ∧
    (includeWork lib w n ≠ [] ↔ HasModule lib n ∨ HasSubmodule lib n) := by
  rw [← findModule_some_iff, ← findSubmodule_some_iff]
  unfold includeWork
  cases h : lib.findModule n with
  | some m =>
    have := findModule_name h
    refine ⟨fun w hw => ?_, by simp⟩
    simp only [List.mem_singleton] at hw
    subst hw
    exact ⟨by simp only [Legit]; rw [this]; exact h, this⟩
  | none =>
    cases hi : lib.findSubmodule n with
    | none => simp
    | some u =>
      have := (findSubmodule_mem hi).1
      simp only
      split
      · refine ⟨fun w hw => ?_, by simp⟩
        simp only [List.mem_singleton] at hw
        subst hw
        exact ⟨⟨by rw [this]; exact h, by rw [this]; exact hi⟩, this⟩
      · refine ⟨fun w hw => ?_, by simp⟩
        simp only [List.mem_singleton] at hw
        subst hw
        exact ⟨⟨by rw [this]; exact h, by rw [this]; exact hi⟩, this⟩

theorem moduleWork_spec {lib : Library} (n : String) : (∀ w ∈ moduleWork lib n, Legit lib w ∧ w.name = n) ∧ (moduleWork lib n ≠ [] ↔ HasModule lib n) := by
  rw [← findModule_some_iff]
  unfold moduleWork
  cases h : lib.findModule n with
  | some m =>
    have := findModule_name h
    refine ⟨fun w hw => ?_, by simp⟩
    simp only [Option.toList_some, List.map_cons, List.map_nil, List.mem_singleton] at hw
    subst hw
    exact ⟨by simp only [Legit]; rw [this]; exact h, this⟩
  | none => simp

/-- what is done after a module is what it needs -/
theorem nextWork_spec {lib : Library} (hn : Named lib) {w : Work} (hw : Legit lib w) (visited : List String) (d : Deps) :
    (∀ x ∈ nextWork lib visited w d, Legit lib x ∧ Edge lib w.name d x.name) ∧
    ∀ m, Edge lib w.name d m → m ∈ visited ∨ ∃ x ∈ nextWork lib visited w d, x.name = m := by
  have hdev : ∀ m, m ∈ w.deviations ∨ m ∈ w.augmentedBy ↔ ∃ x, lib.findModule w.name = some x ∧ (m ∈ x.deviations ∨ m ∈ x.augmentedBy) := by
    intro m
    cases w with
    | full x =>
      simp only [Legit] at hw
      simp only [Work.deviations, Work.augmentedBy, Work.name, hw, Option.some.injEq, exists_eq_left']
    | fullSub p u => simp only [Work.deviations, Work.augmentedBy, Work.name, hw.1]; simp
    | imported x => simp only [Work.deviations, Work.augmentedBy, Work.name, hw.1]; simp
    | importedSub p u => simp only [Work.deviations, Work.augmentedBy, Work.name, hw.1]; simp
  have hpick : ∀ {l : List Work} {m : String}, (∀ x ∈ l, Legit lib x ∧ x.name = m) → l ≠ [] → ∃ x ∈ l, x.name = m := by
    intro l m h hne
    cases l with
    | nil => exact absurd rfl hne
    | cons x l => exact ⟨x, by simp, (h x (by simp)).2⟩
  have hne : ∀ {l : List Work} {x : Work}, x ∈ l → l ≠ [] := fun hx e => by rw [e] at hx; cases hx
  refine ⟨fun x hx => ?_, fun m hm => ?_⟩
  · simp only [nextWork, List.mem_filter, List.mem_append, List.mem_flatMap] at hx
    rcases hx.1 with ((⟨n, h1, h2⟩ | ⟨n, h1, h2⟩) | ⟨n, h1, h2⟩) | ⟨n, h1, h2⟩
    · obtain ⟨a, b⟩ := (importWork_spec hn n).1 x h2
      exact ⟨a, .inl ⟨by rw [b]; exact h1, by rw [b]; exact (importWork_spec hn n).2.mp (hne h2)⟩⟩
    · obtain ⟨a, b⟩ := (includeWork_spec w n).1 x h2
      exact ⟨a, .inr (.inl ⟨by rw [b]; exact h1, by rw [b]; exact (includeWork_spec w n).2.mp (hne h2)⟩)⟩
    · obtain ⟨a, b⟩ := (moduleWork_spec n).1 x h2
      obtain ⟨y, e1, e2⟩ := (hdev n).mp (.inl h1)
      exact ⟨a, .inr (.inr ⟨y, e1, by rw [b]; exact e2, by rw [b]; exact (moduleWork_spec n).2.mp (hne h2)⟩)⟩
    · obtain ⟨a, b⟩ := (moduleWork_spec n).1 x h2
      obtain ⟨y, e1, e2⟩ := (hdev n).mp (.inr h1)
      exact ⟨a, .inr (.inr ⟨y, e1, by rw [b]; exact e2, by rw [b]; exact (moduleWork_spec n).2.mp (hne h2)⟩)⟩
  · by_cases hv : m ∈ visited
    · exact .inl hv
    right
    simp only [nextWork, List.mem_filter, List.mem_append, List.mem_flatMap]
    rcases hm with ⟨h1, h2⟩ | ⟨h1, h2⟩ | ⟨y, e1, e2, h2⟩
    · obtain ⟨x, hx, e⟩ := hpick (importWork_spec hn m).1 ((importWork_spec hn m).2.mpr h2)
      exact ⟨x, ⟨.inl (.inl (.inl ⟨m, h1, hx⟩)), by simp [e, hv]⟩, e⟩
    · obtain ⟨x, hx, e⟩ := hpick (includeWork_spec w m).1 ((includeWork_spec w m).2.mpr h2)
      exact ⟨x, ⟨.inl (.inl (.inr ⟨m, h1, hx⟩)), by simp [e, hv]⟩, e⟩
    · obtain ⟨x, hx, e⟩ := hpick (moduleWork_spec m).1 ((moduleWork_spec m).2.mpr h2)
      rcases (hdev m).mpr ⟨y, e1, e2⟩ with h | h
      · exact ⟨x, ⟨.inl (.inr ⟨m, h, hx⟩), by simp [e, hv]⟩, e⟩
      · exact ⟨x, ⟨.inr ⟨m, h, hx⟩, by simp [e, hv]⟩, e⟩

theorem seedWork_spec {lib : Library} (hn : Named lib) {seed : List String} {q : List Work} (h : seedWork lib seed = .ok q) :
    (∀ w ∈ q, Legit lib w ∧ w.name ∈ seed) ∧ ∀ n ∈ seed, ∃ w ∈ q, w.name = n := by
  induction seed generalizing q with
  | nil => simp only [seedWork, Except.ok.injEq] at h; subst h; simp
  | cons n ns ih =>
    simp only [seedWork] at h
    have hcons : ∀ {q'} {l : List Work}, seedWork lib ns = .ok q' → (∀ w ∈ l, Legit lib w ∧ w.name = n) → l ≠ [] → q = l ++ q' →
        (∀ w ∈ q, Legit lib w ∧ w.name ∈ n :: ns) ∧ ∀ m ∈ n :: ns, ∃ w ∈ q, w.name = m := by
      intro q' l hq' hl hne e
      subst e
      obtain ⟨h1, h2⟩ := ih hq'
      refine ⟨fun w hw => ?_, fun m hm => ?_⟩
      · rcases List.mem_append.mp hw with hw | hw
        · exact ⟨(hl w hw).1, by rw [(hl w hw).2]; simp⟩
        · exact ⟨(h1 w hw).1, List.mem_cons_of_mem _ (h1 w hw).2⟩
      · rcases List.mem_cons.mp hm with rfl | hm
        · cases l with
          | nil => exact absurd rfl hne
          | cons w l => exact ⟨w, by simp, (hl w (by simp)).2⟩
        · obtain ⟨w, hw, e⟩ := h2 m hm
          exact ⟨w, List.mem_append_right _ hw, e⟩
    cases hm : lib.findModule n with
    | some m =>
      rw [hm] at h
      simp only at h
      cases hq : seedWork lib ns with
      | error e => rw [hq] at h; cases h
      | ok q' =>
        rw [hq] at h
        simp only [Except.map, Except.ok.injEq] at h
        refine hcons hq (l := [.full m]) (fun w hw => ?_) (by simp) h.symm
        simp only [List.mem_singleton] at hw
        subst hw
        have := findModule_name hm
        exact ⟨by simp only [Legit]; rw [this]; exact hm, this⟩
    | none =>
      rw [hm] at h
      simp only at h
      cases hi : lib.findImports n with
      | none => rw [hi] at h; cases h
      | some ms =>
        rw [hi] at h
        simp only at h
        cases hq : seedWork lib ns with
        | error e => rw [hq] at h; cases h
        | ok q' =>
          rw [hq] at h
          simp only [Except.map, Except.ok.injEq] at h
          obtain ⟨h1, h2⟩ := hn.imports hi
          refine hcons hq (l := ms.map .imported) (fun w hw => ?_) (by simp [h1]) h.symm
          obtain ⟨m, hm', rfl⟩ := List.mem_map.mp hw
          have := h2 m hm'
          exact ⟨⟨by rw [this]; exact hm, ms, by rw [this]; exact hi, hm'⟩, this⟩

/-! ## Loading ends -/

/-- the names that were not visited yet -/
def unvisited (lib : Library) (visited : List String) : Nat := ((lib.entries.map (·.1)).filter fun n => n ∉ visited).length

theorem unvisited_lt {lib : Library} {visited : List String} {n : String} (h : n ∈ lib.entries.map (·.1)) (hv : n ∉ visited) :
    unvisited lib (visited ++ [n]) < unvisited lib visited := by
  unfold unvisited
  generalize lib.entries.map (·.1) = l at h
  induction l with
  | nil => cases h
  | cons x l ih =>
    have hle : (l.filter fun n' => n' ∉ visited ++ [n]).length ≤ (l.filter fun n => n ∉ visited).length := by
      clear ih h
      induction l with
      | nil => simp
      | cons y l ih =>
        by_cases h1 : y ∈ visited
        · simp [h1]; simpa using ih
        · by_cases h2 : y = n
          · simp [h2, hv]; simp at ih; omega
          · simp [h1, h2]; simpa using ih
    by_cases h1 : x = n
    · subst h1
      rw [List.filter_cons_of_neg (by simp), List.filter_cons_of_pos (by simpa using hv), List.length_cons]
      omega
    · have h' : n ∈ l := by
        rcases List.mem_cons.mp h with h | h
        · exact absurd h.symm h1
        · exact h
      have := ih h'
      by_cases h2 : x ∈ visited
      · rw [List.filter_cons_of_neg (by simp [h2]), List.filter_cons_of_neg (by simpa using h2)]
        exact this
      · rw [List.filter_cons_of_pos (by simp [h2, h1]), List.filter_cons_of_pos (by simpa using h2), List.length_cons, List.length_cons]
        omega

theorem loop_ends {lib : Library} (hn : Named lib) (dev : Device) (k : Checker) (s : LoadState) (h : ∀ w ∈ s.queue, Legit lib w) : ∃ n r, loop lib dev k n s = some r := by
  have key : ∀ c, ∀ s : LoadState, unvisited lib s.visited ≤ c → (∀ w ∈ s.queue, Legit lib w) → ∃ n r, loop lib dev k n s = some r := by
    intro c
    induction c with
    | zero =>
      rintro ⟨queue, visited, b, asked⟩ hc hl
      simp only at hc hl
      induction queue with
      | nil => exact ⟨1, _, rfl⟩
      | cons w q ih =>
        by_cases hv : w.name ∈ visited
        · obtain ⟨n, r, hr⟩ := ih fun w hw => hl w (by simp [hw])
          exact ⟨n + 1, r, by simp only [loop, if_pos hv]; exact hr⟩
        · have := unvisited_lt (List.mem_map_of_mem (f := (·.1)) (hl w (by simp)).entry) hv
          omega
    | succ c ihc =>
      rintro ⟨queue, visited, b, asked⟩ hc hl
      simp only at hc hl
      induction queue with
      | nil => exact ⟨1, _, rfl⟩
      | cons w q ih =>
        by_cases hv : w.name ∈ visited
        · obtain ⟨n, r, hr⟩ := ih fun w hw => hl w (by simp [hw])
          exact ⟨n + 1, r, by simp only [loop, if_pos hv]; exact hr⟩
        · have hlt := unvisited_lt (List.mem_map_of_mem (f := (·.1)) (hl w (by simp)).entry) hv
          cases hs : dev.schema w.name w.revision with
          | none => exact ⟨1, _, by simp only [loop, if_neg hv, hs]; rfl⟩
          | some t =>
            cases hd : dev.deps t with
            | none => exact ⟨1, _, by simp only [loop, if_neg hv, hs, hd]; rfl⟩
            | some d =>
              cases hb : b.add k w t with
              | error e => exact ⟨1, _, by simp only [loop, if_neg hv, hs, hd, hb]; rfl⟩
              | ok b' =>
                obtain ⟨n, r, hr⟩ := ihc ⟨q ++ nextWork lib (visited ++ [w.name]) w d, visited ++ [w.name], b', asked ++ [(w.name, w.revision)]⟩ (by simp only; omega) (by
                  intro x hx
                  rcases List.mem_append.mp hx with hx | hx
                  · exact hl x (by simp [hx])
                  · exact ((nextWork_spec hn (hl w (by simp)) _ d).1 x hx).1)
                exact ⟨n + 1, r, by simp only [loop, if_neg hv, hs, hd, hb]; exact hr⟩
  exact key _ s (Nat.le_refl _) h

/-- more rounds do not change how loading ends -/
theorem loop_mono {lib : Library} {dev : Device} {k : Checker} {n : Nat} {s : LoadState} {r : Except LoadError Builder × List (String × Option String)}
    (h : loop lib dev k n s = some r) (m : Nat) : loop lib dev k (n + m) s = some r := by
  induction n generalizing s with
  | zero => cases h
  | succ n ih =>
    rw [Nat.add_right_comm]
    simp only [loop] at h ⊢
    split at h
    · exact h
    · split at h
      · rename_i hv; rw [if_pos hv]; exact ih h
      · rename_i hv
        rw [if_neg hv]
        split at h
        · exact h
        · split at h
          · exact h
          · split at h
            · exact h
            · exact ih h

/-! ## What is asked of the device -/

/-- each name was asked for once, with a revision that the library lists -/
structure AskInv (lib : Library) (s : LoadState) : Prop where
  legit : ∀ w ∈ s.queue, Legit lib w
  names : s.asked.map (·.1) = s.visited
  nodup : s.visited.Nodup
  listed : ∀ x ∈ s.asked, x ∈ lib.entries

theorem loop_asked {lib : Library} (hn : Named lib) {dev : Device} {k : Checker} {n : Nat} {s : LoadState} (hi : AskInv lib s) {r : Except LoadError Builder}
    {asked : List (String × Option String)} (h : loop lib dev k n s = some (r, asked)) : (asked.map (·.1)).Nodup ∧ ∀ x ∈ asked, x ∈ lib.entries := by
  induction n generalizing s with
  | zero => cases h
  | succ n ih =>
    obtain ⟨queue, visited, b, asked'⟩ := s
    simp only [loop] at h
    split at h
    · simp only [Option.some.injEq, Prod.mk.injEq] at h
      obtain ⟨_, rfl⟩ := h
      exact ⟨by rw [hi.names]; exact hi.nodup, hi.listed⟩
    · rename_i w q
      have hw : Legit lib w := hi.legit w (by simp)
      split at h
      · exact ih (s := ⟨q, visited, b, asked'⟩) ⟨fun x hx => hi.legit x (by simp only [List.mem_cons]; exact .inr hx), hi.names, hi.nodup, hi.listed⟩ h
      · rename_i hv
        have hnames : (asked' ++ [(w.name, w.revision)]).map (·.1) = visited ++ [w.name] := by
          rw [List.map_append]
          have := hi.names
          simp only at this
          rw [this]; rfl
        have hnodup : (visited ++ [w.name]).Nodup := by
          rw [List.nodup_append]
          exact ⟨hi.nodup, by simp, fun a ha b hb e => by simp only [List.mem_singleton] at hb; subst hb; subst e; exact hv ha⟩
        have hlisted : ∀ x ∈ asked' ++ [(w.name, w.revision)], x ∈ lib.entries := by
          intro x hx
          rcases List.mem_append.mp hx with hx | hx
          · exact hi.listed x hx
          · simp only [List.mem_singleton] at hx
            subst hx
            exact hw.entry
        have hdone : ∀ r', some (r', asked' ++ [(w.name, w.revision)]) = some (r, asked) → (asked.map (·.1)).Nodup ∧ ∀ x ∈ asked, x ∈ lib.entries := by
          intro r' e
          simp only [Option.some.injEq, Prod.mk.injEq] at e
          obtain ⟨_, rfl⟩ := e
          exact ⟨by rw [hnames]; exact hnodup, hlisted⟩
        split at h
        · exact hdone _ h
        · split at h
          · exact hdone _ h
          · split at h
            · exact hdone _ h
            · refine ih ⟨fun x hx => ?_, hnames, hnodup, hlisted⟩ h
              rcases List.mem_append.mp hx with hx | hx
              · exact hi.legit x (by simp [hx])
              · exact ((nextWork_spec hn hw _ _).1 x hx).1

end Verif.YangPush.Load
