import Verif.YangPush.LoadingInv
/-! # Loading of YANG libraries: what is loaded is what is needed -/
namespace Verif.YangPush.Load
open Collector

/-! ## Needs -/

/-- more schemas, of other names, leave needs as they are -/
theorem Needed.mono {lib : Library} {deps : String → Option Deps} {s s' : List (String × String)} {seed : List String} {n : String}
    (hs : ∀ n t, s.look n = some t → s'.look n = some t) (h : Needed lib deps s seed n) : Needed lib deps s' seed n := by
  induction h with
  | seed h => exact .seed h
  | edge _ h1 h2 h3 ih => exact .edge ih (hs _ _ h1) h2 h3

/-! ## Adding what was not there -/

/-- a builder with more -/
def Builder.with (b : Builder) (w : Work) (t : String) : Builder :=
  match w with
  | .full m => { b with schemas := put b.schemas m.name t, modules := put b.modules m.name m }
  | .imported m => { b with schemas := put b.schemas m.name t, imports := put b.imports m.name [m] }
  | .fullSub _ u => { b with schemas := put b.schemas u.name t, submodules := put b.submodules u.name u }
  | .importedSub _ u => { b with schemas := put b.schemas u.name t, submodules := put b.submodules u.name u }

theorem with_schemas (b : Builder) (w : Work) (t : String) : (b.with w t).schemas = put b.schemas w.name t := by
  cases w <;> rfl

theorem add_new {k : Checker} {b b' : Builder} {w : Work} {t : String} (h1 : b.modules.look w.name = none) (h2 : b.imports.look w.name = none)
    (h3 : b.submodules.look w.name = none) (h : b.add k w t = .ok b') : b' = b.with w t := by
  have hsub : ∀ u : Submodule, b.submodules.look u.name = none → b.addSub k u t = .ok b' →
      b' = { b with schemas := put b.schemas u.name t, submodules := put b.submodules u.name u } := by
    intro u hu h
    unfold Builder.addSub at h
    rw [hu] at h
    simp only [Except.ok.injEq] at h
    exact h.symm
  cases w with
  | full m =>
    simp only [Work.name] at h1
    simp only [Builder.add, Builder.addModule, h1, Except.ok.injEq] at h
    exact h.symm
  | imported m =>
    simp only [Work.name] at h2
    simp only [Builder.add, Builder.addImported, h2, Except.ok.injEq] at h
    exact h.symm
  | fullSub p u =>
    simp only [Builder.add, Builder.addSubmodule] at h
    split at h
    · cases h
    · split at h
      · exact hsub u h3 h
      · cases h
  | importedSub p u =>
    simp only [Builder.add, Builder.addImportedSub] at h
    split at h
    · exact hsub u h3 h
    · cases h

/-! ## The invariant -/

/-- where a schema comes from -/
def Source (lib : Library) (dev : Device) (b : Builder) (n t : String) : Prop :=
  (∃ m, lib.findModule n = some m ∧ b.modules.look n = some m ∧ dev.schema n m.revision = some t) ∨
  (lib.findModule n = none ∧ ∃ ms m, lib.findImports n = some ms ∧ m ∈ ms ∧ b.imports.look n = some [m] ∧ dev.schema n m.revision = some t) ∨
  (lib.findModule n = none ∧ ∃ u, lib.findSubmodule n = some u ∧ b.submodules.look n = some u ∧ dev.schema n u.revision = some t)

structure LoadInv (lib : Library) (dev : Device) (seed : List String) (s : LoadState) : Prop where
  legit : ∀ w ∈ s.queue, Legit lib w
  needq : ∀ w ∈ s.queue, Needed lib dev.deps s.builder.schemas seed w.name
  keys : ∀ n, (s.builder.schemas.look n).isSome ↔ n ∈ s.visited
  needv : ∀ n ∈ s.visited, Needed lib dev.deps s.builder.schemas seed n
  source : ∀ n t, s.builder.schemas.look n = some t → Source lib dev s.builder n t
  closed : ∀ n t, s.builder.schemas.look n = some t → ∃ d, dev.deps t = some d ∧ ∀ m, Edge lib n d m → m ∈ s.visited ∨ ∃ w ∈ s.queue, w.name = m
  seeds : ∀ n ∈ seed, n ∈ s.visited ∨ ∃ w ∈ s.queue, w.name = n
  mods : ∀ n m, s.builder.modules.look n = some m → n ∈ s.visited ∧ lib.findModule n = some m
  imps : ∀ n ms, s.builder.imports.look n = some ms → n ∈ s.visited ∧ lib.findModule n = none ∧ ∃ all m, lib.findImports n = some all ∧ m ∈ all ∧ ms = [m]
  subs : ∀ n u, s.builder.submodules.look n = some u → n ∈ s.visited ∧ lib.findSubmodule n = some u
  uniqM : Uniq s.builder.modules
  uniqI : Uniq s.builder.imports
  uniqS : Uniq s.builder.schemas

namespace LoadInv
variable {lib : Library} {dev : Device} {seed : List String}

theorem fresh {s : LoadState} (h : LoadInv lib dev seed s) {n : String} (hn : n ∉ s.visited) :
    s.builder.modules.look n = none ∧ s.builder.imports.look n = none ∧ s.builder.submodules.look n = none ∧ s.builder.schemas.look n = none := by
  refine ⟨?_, ?_, ?_, ?_⟩
  · cases e : s.builder.modules.look n with
    | none => rfl
    | some m => exact absurd (h.mods n m e).1 hn
  · cases e : s.builder.imports.look n with
    | none => rfl
    | some m => exact absurd (h.imps n m e).1 hn
  · cases e : s.builder.submodules.look n with
    | none => rfl
    | some m => exact absurd (h.subs n m e).1 hn
  · cases e : s.builder.schemas.look n with
    | none => rfl
    | some m => exact absurd ((h.keys n).mp (by rw [e]; rfl)) hn

theorem skip {w : Work} {q : List Work} {v : List String} {b : Builder} {a a' : List (String × Option String)} (h : LoadInv lib dev seed ⟨w :: q, v, b, a⟩) (hw : w.name ∈ v) :
    LoadInv lib dev seed ⟨q, v, b, a'⟩ where
  legit x hx := h.legit x (List.mem_cons_of_mem _ hx)
  needq x hx := h.needq x (List.mem_cons_of_mem _ hx)
  keys := h.keys
  needv := h.needv
  source := h.source
  closed n t ht := by
    obtain ⟨d, h1, h2⟩ := h.closed n t ht
    refine ⟨d, h1, fun m hm => ?_⟩
    rcases h2 m hm with h | ⟨x, hx, e⟩
    · exact .inl h
    · rcases List.mem_cons.mp hx with rfl | hx
      · exact .inl (e ▸ hw)
      · exact .inr ⟨x, hx, e⟩
  seeds n hn := by
    rcases h.seeds n hn with h | ⟨x, hx, e⟩
    · exact .inl h
    · rcases List.mem_cons.mp hx with rfl | hx
      · exact .inl (e ▸ hw)
      · exact .inr ⟨x, hx, e⟩
  mods := h.mods
  imps := h.imps
  subs := h.subs
  uniqM := h.uniqM
  uniqI := h.uniqI
  uniqS := h.uniqS

theorem step (hn : Named lib) {w : Work} {q : List Work} {v : List String} {b : Builder} {a a' : List (String × Option String)}
    (h : LoadInv lib dev seed ⟨w :: q, v, b, a⟩) (hw : w.name ∉ v) {t : String} (ht : dev.schema w.name w.revision = some t) {d : Deps} (hd : dev.deps t = some d) :
    LoadInv lib dev seed ⟨q ++ nextWork lib (v ++ [w.name]) w d, v ++ [w.name], b.with w t, a'⟩ := by
  have hl : Legit lib w := h.legit w (by simp)
  obtain ⟨f1, f2, f3, f4⟩ := h.fresh hw
  simp only at f1 f2 f3 f4
  have hmono : ∀ n t', b.schemas.look n = some t' → (b.with w t).schemas.look n = some t' := by
    intro n t' e
    rw [with_schemas, lookup_put]
    split
    · rename_i e'; rw [← e', f4] at e; cases e
    · exact e
  have hself : (b.with w t).schemas.look w.name = some t := by rw [with_schemas, lookup_put, if_pos rfl]
  have hneed : Needed lib dev.deps (b.with w t).schemas seed w.name := (h.needq w (by simp)).mono hmono
  obtain ⟨n1, n2⟩ := nextWork_spec hn hl (v ++ [w.name]) d
  have hmodules : ∀ n m, (b.with w t).modules.look n = some m ↔ b.modules.look n = some m ∨ (w = .full m ∧ n = w.name) := by
    intro n m
    cases w with
    | full m' =>
      simp only [Builder.with, lookup_put, Work.name] at f1 ⊢
      split
      · rename_i e; subst e; rw [f1]; simp
      · rename_i e; simp only [Work.full.injEq]
        exact ⟨.inl, fun h => h.resolve_right fun h => e h.2.symm⟩
    | fullSub p u => simp [Builder.with]
    | imported u => simp [Builder.with]
    | importedSub p u => simp [Builder.with]
  have himports : ∀ n ms, (b.with w t).imports.look n = some ms ↔ b.imports.look n = some ms ∨ (∃ m, w = .imported m ∧ n = w.name ∧ ms = [m]) := by
    intro n ms
    cases w with
    | imported m' =>
      simp only [Builder.with, lookup_put, Work.name] at f2 ⊢
      split
      · rename_i e; subst e; rw [f2]
        constructor
        · intro e; cases e; exact .inr ⟨m', rfl, rfl, rfl⟩
        · rintro (e | ⟨m, e, _, rfl⟩)
          · cases e
          · cases e; rfl
      · rename_i e
        refine ⟨.inl, fun h => h.resolve_right ?_⟩
        rintro ⟨m, e1, e2, _⟩
        exact e e2.symm
    | fullSub p u => simp [Builder.with]
    | full u => simp [Builder.with]
    | importedSub p u => simp [Builder.with]
  have hsubs : ∀ n u, (b.with w t).submodules.look n = some u ↔ b.submodules.look n = some u ∨ ((∃ p, w = .fullSub p u ∨ w = .importedSub p u) ∧ n = w.name) := by
    intro n u
    cases w with
    | imported m' => simp [Builder.with]
    | full u => simp [Builder.with]
    | fullSub p u' =>
      simp only [Builder.with, lookup_put, Work.name] at f3 ⊢
      split
      · rename_i e; subst e; rw [f3]; simp
      · rename_i e
        exact ⟨.inl, fun h => h.resolve_right fun h => e h.2.symm⟩
    | importedSub p u' =>
      simp only [Builder.with, lookup_put, Work.name] at f3 ⊢
      split
      · rename_i e; subst e; rw [f3]; simp
      · rename_i e
        exact ⟨.inl, fun h => h.resolve_right fun h => e h.2.symm⟩
  have hmove : ∀ m, (m ∈ v ∨ ∃ x ∈ w :: q, x.name = m) → m ∈ v ++ [w.name] ∨ ∃ x ∈ q ++ nextWork lib (v ++ [w.name]) w d, x.name = m := by
    rintro m (hm | ⟨x, hx, e⟩)
    · exact .inl (List.mem_append_left _ hm)
    · rcases List.mem_cons.mp hx with rfl | hx
      · exact .inl (by simp [e])
      · exact .inr ⟨x, List.mem_append_left _ hx, e⟩
  constructor
  · intro x hx
    rcases List.mem_append.mp hx with hx | hx
    · exact h.legit x (List.mem_cons_of_mem _ hx)
    · exact (n1 x hx).1
  · intro x hx
    rcases List.mem_append.mp hx with hx | hx
    · exact (h.needq x (List.mem_cons_of_mem _ hx)).mono hmono
    · exact .edge hneed hself hd (n1 x hx).2
  · intro n
    simp only [with_schemas, lookup_put, List.mem_append, List.mem_singleton]
    have := h.keys n
    simp only at this
    split
    · rename_i e; simp [e]
    · rename_i e
      rw [this]
      exact ⟨.inl, fun h => h.resolve_right fun h => e h.symm⟩
  · intro n hm
    rcases List.mem_append.mp hm with hm | hm
    · exact (h.needv n hm).mono hmono
    · simp only [List.mem_singleton] at hm
      subst hm
      exact hneed
  · intro n t' e
    simp only [with_schemas, lookup_put] at e
    split at e
    · rename_i en
      subst en
      cases e
      cases w with
      | full m => exact .inl ⟨m, hl, (hmodules _ _).mpr (.inr ⟨rfl, rfl⟩), ht⟩
      | imported m =>
        obtain ⟨l1, ms, l2, l3⟩ := hl
        exact .inr (.inl ⟨l1, ms, m, l2, l3, (himports _ _).mpr (.inr ⟨m, rfl, rfl, rfl⟩), ht⟩)
      | fullSub p u => exact .inr (.inr ⟨hl.1, u, hl.2, (hsubs _ _).mpr (.inr ⟨⟨p, .inl rfl⟩, rfl⟩), ht⟩)
      | importedSub p u => exact .inr (.inr ⟨hl.1, u, hl.2, (hsubs _ _).mpr (.inr ⟨⟨p, .inr rfl⟩, rfl⟩), ht⟩)
    · rcases h.source n t' e with ⟨m, s1, s2, s3⟩ | ⟨s0, ms, m, s1, s2, s3, s4⟩ | ⟨s0, u, s1, s2, s3⟩
      · exact .inl ⟨m, s1, (hmodules _ _).mpr (.inl s2), s3⟩
      · exact .inr (.inl ⟨s0, ms, m, s1, s2, (himports _ _).mpr (.inl s3), s4⟩)
      · exact .inr (.inr ⟨s0, u, s1, (hsubs _ _).mpr (.inl s2), s3⟩)
  · intro n t' e
    simp only [with_schemas, lookup_put] at e
    split at e
    · rename_i en
      subst en
      cases e
      refine ⟨d, hd, fun m hm => ?_⟩
      rcases n2 m hm with h | ⟨x, hx, e⟩
      · exact .inl h
      · exact .inr ⟨x, List.mem_append_right _ hx, e⟩
    · obtain ⟨d', h1, h2⟩ := h.closed n t' e
      exact ⟨d', h1, fun m hm => hmove m (h2 m hm)⟩
  · exact fun n hn => hmove n (h.seeds n hn)
  · intro n m e
    rcases (hmodules n m).mp e with e | ⟨rfl, rfl⟩
    · exact ⟨List.mem_append_left _ (h.mods n m e).1, (h.mods n m e).2⟩
    · exact ⟨by simp, hl⟩
  · intro n ms e
    rcases (himports n ms).mp e with e | ⟨m, rfl, rfl, rfl⟩
    · exact ⟨List.mem_append_left _ (h.imps n ms e).1, (h.imps n ms e).2⟩
    · obtain ⟨l1, all, l2, l3⟩ := hl
      exact ⟨by simp, l1, all, m, l2, l3, rfl⟩
  · intro n u e
    rcases (hsubs n u).mp e with e | ⟨⟨p, rfl | rfl⟩, rfl⟩
    · exact ⟨List.mem_append_left _ (h.subs n u e).1, (h.subs n u e).2⟩
    · exact ⟨by simp, hl.2⟩
    · exact ⟨by simp, hl.2⟩
  · have := h.uniqM
    cases w <;> first | exact this | exact this.put _ _
  · have := h.uniqI
    cases w <;> first | exact this | exact this.put _ _
  · have := h.uniqS
    cases w <;> exact this.put _ _

theorem init (hn : Named lib) {q : List Work} (h : seedWork lib seed = .ok q) : LoadInv lib dev seed ⟨q, [], .empty, []⟩ where
  legit w hw := ((seedWork_spec hn h).1 w hw).1
  needq w hw := .seed ((seedWork_spec hn h).1 w hw).2
  keys n := by simp [Builder.empty, List.look]
  needv n hm := by cases hm
  source n t e := by simp [Builder.empty, List.look] at e
  closed n t e := by simp [Builder.empty, List.look] at e
  seeds n hm := .inr ((seedWork_spec hn h).2 n hm)
  mods n t e := by simp [Builder.empty, List.look] at e
  imps n t e := by simp [Builder.empty, List.look] at e
  subs n t e := by simp [Builder.empty, List.look] at e
  uniqM := by simp [Builder.empty, Uniq]
  uniqI := by simp [Builder.empty, Uniq]
  uniqS := by simp [Builder.empty, Uniq]

theorem loop (hn : Named lib) {k : Checker} {n : Nat} {s : LoadState} (h : LoadInv lib dev seed s) {b : Builder} {asked : List (String × Option String)}
    (hl : Load.loop lib dev k n s = some (.ok b, asked)) : ∃ v, LoadInv lib dev seed ⟨[], v, b, asked⟩ := by
  induction n generalizing s with
  | zero => cases hl
  | succ n ih =>
    obtain ⟨queue, visited, b', asked'⟩ := s
    simp only [Load.loop] at hl
    split at hl
    · simp only [Option.some.injEq, Prod.mk.injEq, Except.ok.injEq] at hl
      obtain ⟨rfl, rfl⟩ := hl
      exact ⟨visited, h⟩
    · rename_i w q
      split at hl
      · rename_i hv; exact ih (h.skip hv) hl
      · rename_i hv
        split at hl
        · cases hl
        · rename_i t ht
          split at hl
          · cases hl
          · rename_i d hd
            split at hl
            · cases hl
            · rename_i b'' hb
              obtain ⟨f1, f2, f3, _⟩ := h.fresh hv
              have := add_new f1 f2 f3 hb
              subst this
              exact ih (h.step hn hv ht hd) hl

/-- in the end all that is needed is there -/
theorem needed {v : List String} {b : Builder} {a : List (String × Option String)} (h : LoadInv lib dev seed ⟨[], v, b, a⟩) {n : String} (hn : Needed lib dev.deps b.schemas seed n) : n ∈ v := by
  induction hn with
  | seed hm =>
    rcases h.seeds _ hm with h | ⟨w, hw, _⟩
    · exact h
    · cases hw
  | edge _ h1 h2 h3 ih =>
    obtain ⟨d, e, hd⟩ := h.closed _ _ h1
    rw [h2] at e
    cases e
    rcases hd _ h3 with h | ⟨w, hw, _⟩
    · exact h
    · cases hw

end LoadInv

theorem Ends.inv {lib : Library} (hn : Named lib) {dev : Device} {k : Checker} {seed : List String} {b : Builder} {asked : List (String × Option String)}
    (h : Ends lib dev k seed (.ok b) asked) : ∃ v, LoadInv lib dev seed ⟨[], v, b, asked⟩ := by
  obtain ⟨n, h⟩ := h
  unfold load at h
  split at h
  · cases h
  · rename_i q hq
    exact (LoadInv.init hn hq).loop hn h

end Verif.YangPush.Load
