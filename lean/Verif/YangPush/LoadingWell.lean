import Verif.YangPush.LoadingDone
/-! # Loading of YANG libraries: when it goes well -/
namespace Verif.YangPush.Load
open Collector

/-- a submodule can be added: the module was, and lists it -/
def Ready (b : Builder) (p n : String) : Prop := ∃ m, b.modules.look p = some m ∧ ∃ u ∈ m.submodules, u.name = n

/-- no submodule comes up before its module -/
structure WellInv (lib : Library) (s : LoadState) : Prop where
  order : ∀ pre p u post, s.queue = pre ++ .fullSub p u :: post → Ready s.builder p u.name ∨ u.name ∈ s.visited ∨ ∃ w ∈ pre, w.name = u.name
  none : ∀ p u, .importedSub p u ∉ s.queue

theorem Legit.listed {lib : Library} {w : Work} (h : Legit lib w) : Lists lib w.name w.revision := mem_entries.mp h.entry

theorem Legit.isModule {lib : Library} {m : Module} (h : Legit lib (.full m)) : IsModule lib m := findModule_mem h

theorem findModule_isModule {lib : Library} {n : String} {m : Module} (h : lib.findModule n = some m) : IsModule lib m ∧ m.name = n := ⟨findModule_mem h, findModule_name h⟩

/-- what is new is a submodule only if it is included -/
theorem nextWork_sub {lib : Library} {v : List String} {w : Work} {d : Deps} {p : String} {u : Submodule} (h : .fullSub p u ∈ nextWork lib v w d) :
    w.isFull ∧ p = w.name ∧ u.name ∈ d.includes ∧ HasSubmodule lib u.name := by
  simp only [nextWork, List.mem_filter, List.mem_append, List.mem_flatMap] at h
  rcases h.1 with ((⟨n, h1, h2⟩ | ⟨n, h1, h2⟩) | ⟨n, h1, h2⟩) | ⟨n, h1, h2⟩
  · unfold importWork at h2
    split at h2
    · simp at h2
    · simp at h2
  · unfold includeWork at h2
    split at h2
    · simp at h2
    · split at h2
      · rename_i u' hu
        split at h2
        · rename_i hf
          simp only [List.mem_singleton, Work.fullSub.injEq] at h2
          obtain ⟨rfl, rfl⟩ := h2
          have := (findSubmodule_mem hu).1
          exact ⟨hf, rfl, this ▸ h1, findSubmodule_some_iff.mp (by rw [this, hu]; rfl)⟩
        · simp at h2
      · cases h2
  · simp [moduleWork] at h2
  · simp [moduleWork] at h2

theorem nextWork_importedSub {lib : Library} {v : List String} {w : Work} {d : Deps} {p : String} {u : Submodule} (h : .importedSub p u ∈ nextWork lib v w d) :
    w.isFull = false ∧ u.name ∈ d.includes ∧ HasSubmodule lib u.name := by
  simp only [nextWork, List.mem_filter, List.mem_append, List.mem_flatMap] at h
  rcases h.1 with ((⟨n, h1, h2⟩ | ⟨n, h1, h2⟩) | ⟨n, h1, h2⟩) | ⟨n, h1, h2⟩
  · unfold importWork at h2
    split at h2
    · simp at h2
    · simp at h2
  · unfold includeWork at h2
    split at h2
    · simp at h2
    · split at h2
      · rename_i u' hu
        split at h2
        · simp at h2
        · rename_i hf
          simp only [List.mem_singleton, Work.importedSub.injEq] at h2
          obtain ⟨rfl, rfl⟩ := h2
          have := (findSubmodule_mem hu).1
          exact ⟨by simpa using hf, this ▸ h1, findSubmodule_some_iff.mp (by rw [this, hu]; rfl)⟩
      · cases h2
  · simp [moduleWork] at h2
  · simp [moduleWork] at h2

theorem with_ready {lib : Library} {dev : Device} {seed : List String} {s : LoadState} (hi : LoadInv lib dev seed s) {w : Work} (hw : w.name ∉ s.visited) {t p n : String}
    (h : Ready s.builder p n) : Ready (s.builder.with w t) p n := by
  obtain ⟨m, h1, h2⟩ := h
  refine ⟨m, ?_, h2⟩
  cases w with
  | full m' =>
    simp only [Builder.with, lookup_put]
    split
    · rename_i e
      exact absurd (hi.mods _ _ h1).1 (by rw [← e]; exact hw)
    · exact h1
  | fullSub p u => exact h1
  | imported m' => exact h1
  | importedSub p u => exact h1

/-- what is at the head of the queue can be added -/
theorem WellInv.add {lib : Library} {dev : Device} {seed : List String} {w : Work} {q : List Work} {v : List String} {b : Builder} {a : List (String × Option String)}
    (hi : LoadInv lib dev seed ⟨w :: q, v, b, a⟩) (h : WellInv lib ⟨w :: q, v, b, a⟩) (hw : w.name ∉ v) (k : Checker) (t : String) : b.add k w t = .ok (b.with w t) := by
  obtain ⟨f1, f2, f3, _⟩ := hi.fresh hw
  simp only at f1 f2 f3
  cases w with
  | full m => simp only [Work.name] at f1; simp only [Builder.add, Builder.addModule, f1, Builder.with]
  | imported m => simp only [Work.name] at f2; simp only [Builder.add, Builder.addImported, f2, Builder.with]
  | importedSub p u => exact absurd (List.mem_cons_self ..) (h.none p u)
  | fullSub p u =>
    simp only [Work.name] at f3
    rcases h.order [] p u q rfl with ⟨m, h1, u', h2, h3⟩ | h | ⟨x, hx, _⟩
    · simp only at h1
      simp only [Builder.add, Builder.addSubmodule, h1, Builder.addSub, f3, Builder.with]
      rw [if_pos]
      simp only [List.any_eq_true, decide_eq_true_eq]
      exact ⟨u', h2, h3⟩
    · exact absurd h hw
    · cases hx

theorem WellInv.skip {lib : Library} {w : Work} {q : List Work} {v : List String} {b : Builder} {a : List (String × Option String)} (h : WellInv lib ⟨w :: q, v, b, a⟩)
    (hw : w.name ∈ v) : WellInv lib ⟨q, v, b, a⟩ where
  order pre p u post e := by
    rcases h.order (w :: pre) p u post (by simp only at e; simp [e]) with h | h | ⟨x, hx, e'⟩
    · exact .inl h
    · exact .inr (.inl h)
    · rcases List.mem_cons.mp hx with rfl | hx
      · exact .inr (.inl (e' ▸ hw))
      · exact .inr (.inr ⟨x, hx, e'⟩)
  none p u hm := h.none p u (List.mem_cons_of_mem _ hm)

theorem WellInv.step {lib : Library} {dev : Device} (hs : Sound lib dev) {seed : List String} {w : Work} {q : List Work} {v : List String} {b : Builder}
    {a a' : List (String × Option String)} (hi : LoadInv lib dev seed ⟨w :: q, v, b, a⟩) (h : WellInv lib ⟨w :: q, v, b, a⟩) (hw : w.name ∉ v) {t : String}
    (ht : dev.schema w.name w.revision = some t) {d : Deps} (hd : dev.deps t = some d) :
    WellInv lib ⟨q ++ nextWork lib (v ++ [w.name]) w d, v ++ [w.name], b.with w t, a'⟩ := by
  have hl : Legit lib w := hi.legit w (by simp)
  have hnew : ∀ p u, Work.fullSub p u ∈ nextWork lib (v ++ [w.name]) w d → Ready (b.with w t) p u.name ∨ u.name ∈ v ++ [w.name] ∨ ∃ x ∈ q, x.name = u.name := by
    intro p u hmem
    obtain ⟨n1, rfl, n3, n4⟩ := nextWork_sub hmem
    cases w with
    | imported m => cases n1
    | importedSub p u => cases n1
    | full m =>
      refine .inl ⟨m, by simp only [Builder.with, lookup_put, Work.name, if_pos], ?_⟩
      exact hs.included m t d hl.isModule ht hd _ n3 n4
    | fullSub p' u' =>
      right
      have hready : Ready b p' u'.name := by
        rcases h.order [] p' u' q rfl with h | h | ⟨x, hx, _⟩
        · exact h
        · exact absurd h hw
        · cases hx
      obtain ⟨m, m1, u0, u1, u2⟩ := hready
      obtain ⟨mv, m2⟩ := hi.mods _ _ m1
      simp only at mv
      obtain ⟨m3, m4⟩ := findModule_isModule m2
      obtain ⟨u3, su, hsu, mu, hmu, umem⟩ := findSubmodule_mem hl.2
      have hrev : u0.revision = u'.revision := hs.once m mu u0 u' m3 ⟨su, hsu, hmu⟩ u1 umem u2
      obtain ⟨x, x1, x2⟩ := hs.nested m m3 u0 u1 t d (by rw [u2, hrev]; exact ht) hd _ n3 n4
      obtain ⟨tm, htm⟩ := Option.isSome_iff_exists.mp ((hi.keys p').mpr mv)
      simp only at htm
      obtain ⟨d', d1, d2⟩ := hi.closed p' tm htm
      have hsrc : dev.schema p' m.revision = some tm := by
        rcases hi.source p' tm htm with ⟨m', s1, _, s3⟩ | ⟨s0, _⟩ | ⟨s0, _⟩
        · rw [m2] at s1; cases s1; exact s3
        · rw [m2] at s0; cases s0
        · rw [m2] at s0; cases s0
      have hin : u.name ∈ d'.includes := by
        rw [← x2]
        exact hs.listed m tm d' m3 (by rw [m4]; exact hsrc) d1 x x1
      rcases d2 u.name (.inr (.inl ⟨hin, .inr n4⟩)) with h | ⟨y, hy, e⟩
      · exact .inl (List.mem_append_left _ h)
      · rcases List.mem_cons.mp hy with rfl | hy
        · exact .inl (by simp [← e])
        · exact .inr ⟨y, hy, e⟩
  constructor
  · intro pre p u post e
    simp only at e
    rcases List.append_eq_append_iff.mp e with ⟨mid, rfl, e2⟩ | ⟨mid, e1, e2⟩
    · rcases hnew p u (by rw [e2]; simp) with h | h | ⟨x, hx, e⟩
      · exact .inl h
      · exact .inr (.inl h)
      · exact .inr (.inr ⟨x, List.mem_append_left _ hx, e⟩)
    · cases mid with
      | nil =>
        simp only [List.nil_append] at e2
        simp only [List.append_nil] at e1
        subst e1
        exact hnew p u (by rw [← e2]; simp)
      | cons y mid =>
        simp only [List.cons_append, List.cons.injEq] at e2
        obtain ⟨rfl, rfl⟩ := e2
        rcases h.order (w :: pre) p u mid (by simp [e1]) with h | h | ⟨x, hx, e'⟩
        · exact .inl (with_ready hi hw h)
        · exact .inr (.inl (List.mem_append_left _ h))
        · rcases List.mem_cons.mp hx with rfl | hx
          · exact .inr (.inl (by simp [← e']))
          · exact .inr (.inr ⟨x, hx, e'⟩)
  · intro p u hm
    rcases List.mem_append.mp hm with hm | hm
    · exact h.none p u (List.mem_cons_of_mem _ hm)
    · obtain ⟨n1, n3, n4⟩ := nextWork_importedSub hm
      cases w with
      | full m => cases n1
      | fullSub p u => cases n1
      | importedSub p u => exact absurd (List.mem_cons_self ..) (h.none p u)
      | imported m =>
        obtain ⟨_, ms, l2, l3⟩ := hl
        obtain ⟨s, s1, s2⟩ := findImports_mem l2
        exact hs.simple m t d ⟨s, s1, _, s2, l3⟩ ht hd _ n3 n4

theorem loop_well {lib : Library} (hn : Named lib) {dev : Device} (hs : Sound lib dev) {k : Checker} {seed : List String} {n : Nat} {s : LoadState} (hi : LoadInv lib dev seed s)
    (h : WellInv lib s) {r : Except LoadError Builder} {asked : List (String × Option String)} (hl : loop lib dev k n s = some (r, asked)) : ∃ b, r = .ok b := by
  induction n generalizing s with
  | zero => cases hl
  | succ n ih =>
    obtain ⟨queue, visited, b', asked'⟩ := s
    simp only [loop] at hl
    split at hl
    · simp only [Option.some.injEq, Prod.mk.injEq] at hl
      exact ⟨_, hl.1.symm⟩
    · rename_i w q
      split at hl
      · rename_i hv; exact ih (hi.skip (a' := asked') hv) (h.skip hv) hl
      · rename_i hv
        obtain ⟨t, d, ht, hd⟩ := hs.given _ _ (hi.legit w (by simp)).listed
        have hb := h.add hi hv k t
        rw [ht] at hl
        simp only [hd, hb] at hl
        exact ih (hi.step (a' := asked' ++ [(w.name, w.revision)]) hn hv ht hd) (h.step hs hi hv ht hd) hl

theorem seedWork_ok {lib : Library} (hn : Named lib) {seed : List String} (h : ∀ n ∈ seed, HasModule lib n ∨ HasImport lib n) : ∃ q, seedWork lib seed = .ok q := by
  induction seed with
  | nil => exact ⟨[], rfl⟩
  | cons n ns ih =>
    obtain ⟨q, hq⟩ := ih fun m hm => h m (List.mem_cons_of_mem _ hm)
    simp only [seedWork, hq]
    cases hm : lib.findModule n with
    | some m => exact ⟨_, rfl⟩
    | none =>
      cases hi : lib.findImports n with
      | some ms => exact ⟨_, rfl⟩
      | none =>
        exfalso
        rcases h n (by simp) with h | h
        · rw [← findModule_some_iff, hm] at h; cases h
        · rw [← findImports_some_iff hn, hi] at h; cases h

theorem seedWork_sub {lib : Library} {seed : List String} {q : List Work} (h : seedWork lib seed = .ok q) (p : String) (u : Submodule) : .fullSub p u ∉ q ∧ .importedSub p u ∉ q := by
  induction seed generalizing q with
  | nil => simp only [seedWork, Except.ok.injEq] at h; subst h; simp
  | cons n ns ih =>
    simp only [seedWork] at h
    cases hq : seedWork lib ns with
    | error e =>
      rw [hq] at h
      split at h
      · cases h
      · split at h <;> cases h
    | ok q' =>
      rw [hq] at h
      have := ih hq
      split at h
      · simp only [Except.map, Except.ok.injEq] at h
        subst h
        simp [this]
      · split at h
        · simp only [Except.map, Except.ok.injEq] at h
          subst h
          simp [this]
        · cases h

theorem mapM_id_some {α : Type} {l : List (Option α)} (h : ∀ x ∈ l, x.isSome) : ∃ r, l.mapM id = some r := by
  induction l with
  | nil => exact ⟨[], rfl⟩
  | cons x l ih =>
    obtain ⟨r, hr⟩ := ih fun y hy => h y (List.mem_cons_of_mem _ hy)
    obtain ⟨a, ha⟩ := Option.isSome_iff_exists.mp (h x (by simp))
    exact ⟨a :: r, by rw [List.mapM_cons, hr]; simp [ha]⟩

/-- the end has a schema for every submodule -/
theorem LoadInv.build {lib : Library} (hn : Named lib) {dev : Device} (hs : Sound lib dev) {seed : List String} {v : List String} {b : Builder} {a : List (String × Option String)}
    (hi : LoadInv lib dev seed ⟨[], v, b, a⟩) : ∃ ts, b.texts = some ts := by
  unfold Builder.texts
  apply mapM_id_some
  intro x hx
  have hkey : ∀ n ∈ v, (b.schemas.look n).isSome := fun n hn => (hi.keys n).mpr hn
  simp only [List.mem_append, List.mem_flatMap, List.mem_map, List.mem_singleton] at hx
  rcases hx with ⟨⟨n, m⟩, hm, (⟨f, _, rfl⟩ | ⟨u, hu, rfl⟩) | rfl⟩ | ⟨⟨n, ms⟩, hm, m, hmem, ⟨u, hu, rfl⟩ | rfl⟩
  · rfl
  · have hm := lookup_of_mem hi.uniqM hm
    obtain ⟨mv, m2⟩ := hi.mods _ _ hm
    obtain ⟨m3, m4⟩ := findModule_isModule m2
    obtain ⟨t, ht⟩ := Option.isSome_iff_exists.mp (hkey n mv)
    obtain ⟨d, d1, d2⟩ := hi.closed n t ht
    have hsrc : dev.schema n m.revision = some t := by
      rcases hi.source n t ht with ⟨m', s1, _, s3⟩ | ⟨s0, _⟩ | ⟨s0, _⟩
      · rw [m2] at s1; cases s1; exact s3
      · rw [m2] at s0; cases s0
      · rw [m2] at s0; cases s0
    have hin := hs.listed m t d m3 (by rw [m4]; exact hsrc) d1 u hu
    obtain ⟨s, s1, s2⟩ := m3
    rcases d2 u.name (.inr (.inl ⟨hin, .inr ⟨s, s1, m, s2, u, hu, rfl⟩⟩)) with h | ⟨y, hy, _⟩
    · exact hkey _ h
    · cases hy
  · have hm := lookup_of_mem hi.uniqM hm
    obtain ⟨mv, m2⟩ := hi.mods _ _ hm
    rw [findModule_name m2]
    exact hkey n mv
  · have hm := lookup_of_mem hi.uniqI hm
    obtain ⟨_, _, all, m', h1, h2, h3⟩ := hi.imps _ _ hm
    subst h3
    simp only [List.mem_singleton] at hmem
    subst hmem
    obtain ⟨s, s1, s2⟩ := findImports_mem h1
    rw [hs.plain s s1 _ s2 m h2] at hu
    cases hu
  · have hm := lookup_of_mem hi.uniqI hm
    obtain ⟨mv, _, all, m', h1, h2, h3⟩ := hi.imps _ _ hm
    subst h3
    simp only [List.mem_singleton] at hmem
    subst hmem
    rw [(hn.imports h1).2 m h2]
    exact hkey n mv

end Verif.YangPush.Load
