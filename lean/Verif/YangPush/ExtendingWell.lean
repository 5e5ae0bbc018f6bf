import Verif.YangPush.ExtendingInv
import Verif.YangPush.ExtendingSpec
import Verif.YangPush.LoadingWell
/-! # Extending of YANG libraries: when it goes well -/
namespace Verif.YangPush.Load
open Collector

variable {mg : List String → List String → List String}

theorem flatMap_ext' {α β : Type} {l : List α} {f g : α → List β} (h : ∀ x ∈ l, f x = g x) : l.flatMap f = l.flatMap g := by
  induction l with
  | nil => rfl
  | cons x l ih => rw [List.flatMap_cons, List.flatMap_cons, h x (by simp), ih fun y hy => h y (by simp [hy])]

/-! ## What is gone through -/

/-- modules of a library, each with its submodules -/
def worksOf (l : Library) : List Work := (headsOf l).flatMap fun w => w :: w.subs

theorem Single.heads {l : Library} (h : Single l) : firstHeadsOf l = headsOf l := by
  unfold firstHeadsOf headsOf
  apply flatMap_ext'
  intro s hs
  congr 1
  apply flatMap_ext'
  intro x hx
  obtain ⟨m, e, _⟩ := h s hs x hx
  rw [e]
  rfl

theorem mem_heads {l : Library} {w : Work} : w ∈ headsOf l ↔ (∃ m, w = .full m ∧ IsModule l m) ∨ ∃ m, w = .imported m ∧ IsImport l m := by
  simp only [headsOf, List.mem_flatMap, List.mem_append, List.mem_map, IsModule, IsImport]
  constructor
  · rintro ⟨s, hs, ⟨m, hm, rfl⟩ | ⟨x, hx, m, hm, rfl⟩⟩
    · exact .inl ⟨m, rfl, s, hs, hm⟩
    · exact .inr ⟨m, rfl, s, hs, x, hx, hm⟩
  · rintro (⟨m, rfl, s, hs, hm⟩ | ⟨m, rfl, s, hs, x, hx, hm⟩)
    · exact ⟨s, hs, .inl ⟨m, hm, rfl⟩⟩
    · exact ⟨s, hs, .inr ⟨x, hx, m, hm, rfl⟩⟩

theorem mem_works {l : Library} {w : Work} : w ∈ worksOf l ↔ (∃ m, IsModule l m ∧ (w = .full m ∨ ∃ u ∈ m.submodules, w = .fullSub m.name u)) ∨
    ∃ m, IsImport l m ∧ (w = .imported m ∨ ∃ u ∈ m.submodules, w = .importedSub m.name u) := by
  simp only [worksOf, List.mem_flatMap, mem_heads, List.mem_cons]
  constructor
  · rintro ⟨x, ⟨m, rfl, hm⟩ | ⟨m, rfl, hm⟩, rfl | hw⟩
    · exact .inl ⟨m, hm, .inl rfl⟩
    · simp only [Work.subs, List.mem_map] at hw
      obtain ⟨u, hu, rfl⟩ := hw
      exact .inl ⟨m, hm, .inr ⟨u, hu, rfl⟩⟩
    · exact .inr ⟨m, hm, .inl rfl⟩
    · simp only [Work.subs, List.mem_map] at hw
      obtain ⟨u, hu, rfl⟩ := hw
      exact .inr ⟨m, hm, .inr ⟨u, hu, rfl⟩⟩
  · rintro (⟨m, hm, rfl | ⟨u, hu, rfl⟩⟩ | ⟨m, hm, rfl | ⟨u, hu, rfl⟩⟩)
    · exact ⟨.full m, .inl ⟨m, rfl, hm⟩, .inl rfl⟩
    · exact ⟨.full m, .inl ⟨m, rfl, hm⟩, .inr (by simp [Work.subs, hu])⟩
    · exact ⟨.imported m, .inr ⟨m, rfl, hm⟩, .inl rfl⟩
    · exact ⟨.imported m, .inr ⟨m, rfl, hm⟩, .inr (by simp [Work.subs, hu])⟩

theorem works_full {l : Library} {m : Module} : .full m ∈ worksOf l ↔ IsModule l m := by
  rw [mem_works]
  constructor
  · rintro (⟨x, hx, e | ⟨u, _, e⟩⟩ | ⟨x, _, e | ⟨u, _, e⟩⟩) <;> cases e
    exact hx
  · exact fun h => .inl ⟨m, h, .inl rfl⟩

theorem works_imported {l : Library} {m : ImportOnly} : .imported m ∈ worksOf l ↔ IsImport l m := by
  rw [mem_works]
  constructor
  · rintro (⟨x, _, e | ⟨u, _, e⟩⟩ | ⟨x, hx, e | ⟨u, _, e⟩⟩) <;> cases e
    exact hx
  · exact fun h => .inr ⟨m, h, .inl rfl⟩

theorem works_entries (l : Library) : (worksOf l).map (fun w => (w.name, w.revision)) = l.entries := by
  unfold worksOf headsOf Library.entries ModuleSet.entries
  rw [List.flatMap_assoc, List.map_flatMap]
  apply flatMap_ext'
  intro s _
  rw [List.flatMap_append, List.map_append]
  congr 1
  · rw [List.flatMap_map, List.map_flatMap]
    apply flatMap_ext'
    intro m _
    simp [Work.subs, Work.name, Work.revision, Function.comp_def]
  · rw [List.flatMap_assoc, List.map_flatMap]
    apply flatMap_ext'
    intro x _
    rw [List.flatMap_map, List.map_flatMap]
    apply flatMap_ext'
    intro m _
    simp [Work.subs, Work.name, Work.revision, Function.comp_def]

theorem works_names (l : Library) : (worksOf l).map Work.name = l.entries.map (·.1) := by
  rw [← works_entries, List.map_map]
  rfl

theorem works_lists {l : Library} {n : String} : (∃ w ∈ worksOf l, w.name = n) ↔ ∃ r, Lists l n r := by
  constructor
  · rintro ⟨w, hw, rfl⟩
    exact ⟨w.revision, mem_entries.mp (by rw [← works_entries]; exact List.mem_map_of_mem (f := fun w => (w.name, w.revision)) hw)⟩
  · rintro ⟨r, hr⟩
    have := mem_entries.mpr hr
    rw [← works_entries] at this
    obtain ⟨w, hw, e⟩ := List.mem_map.mp this
    cases e
    exact ⟨w, hw, rfl⟩

/-! ## It goes well -/

theorem permissive_ok (a : String) (b c : Option String) (d e : String) (f g : List String) :
    (permissive mg).check a b c d e f g ≠ .incompatible ∧ (permissive mg).check a b c d e f g ≠ .sameIncompatible := by
  simp only [permissive]
  split
  · split <;> exact ⟨(by simp), (by simp)⟩
  · exact ⟨(by simp), (by simp)⟩

theorem addModule_ok (b : Builder) (m : Module) (t : String) : ∃ b', b.addModule (permissive mg) m t = .ok b' := by
  unfold Builder.addModule
  split
  · exact ⟨_, rfl⟩
  · rename_i e _
    have := permissive_ok (mg := mg) e.name e.revision m.revision ((b.schemas.look e.name).getD t) t e.features m.features
    split
    · exact ⟨_, rfl⟩
    · exact ⟨_, rfl⟩
    · exact ⟨_, rfl⟩
    · rename_i h; exact absurd h this.1
    · rename_i h; exact absurd h this.2

theorem addSub_ok (b : Builder) (u : Submodule) (t : String) : ∃ b', b.addSub (permissive mg) u t = .ok b' := by
  unfold Builder.addSub
  split
  · exact ⟨_, rfl⟩
  · rename_i e _
    have := permissive_ok (mg := mg) u.name e.revision u.revision ((b.schemas.look u.name).getD t) t [] []
    split
    · exact ⟨_, rfl⟩
    · exact ⟨_, rfl⟩
    · exact ⟨_, rfl⟩
    · rename_i h; exact absurd h this.1
    · rename_i h; exact absurd h this.2

theorem addImported_ok (b : Builder) (m : ImportOnly) (t : String) (h : ∀ es, b.imports.look m.name = some es → ∃ e ∈ es, e.revision = m.revision) :
    ∃ b', b.addImported (permissive mg) m t = .ok b' := by
  unfold Builder.addImported
  split
  · exact ⟨_, rfl⟩
  · rename_i es hes
    obtain ⟨e, he, hr⟩ := h es hes
    split
    · rename_i hf
      have := List.find?_eq_none.mp hf e he
      simp [hr] at this
    · rename_i e' _
      have := permissive_ok (mg := mg) m.name e'.revision m.revision ((b.schemas.look m.name).getD t) t [] []
      split
      · exact ⟨_, rfl⟩
      · exact ⟨_, rfl⟩
      · exact ⟨_, rfl⟩
      · rename_i h; exact absurd h this.1
      · rename_i h; exact absurd h this.2

theorem addListed_append (k : Checker) (schemas : List (String × String)) (p : Bool) (b : Builder) (xs ys : List Work) :
    Builder.addListed k schemas p b (xs ++ ys) = match Builder.addListed k schemas p b xs with | .error e => .error e | .ok b' => Builder.addListed k schemas p b' ys := by
  induction xs generalizing b with
  | nil => rfl
  | cons w xs ih =>
    simp only [List.cons_append, Builder.addListed]
    split
    · rfl
    · split
      · rfl
      · exact ih _

/-- what lets a head be added with its submodules -/
def Fits (schemas : List (String × String)) (b : Builder) : Work → Prop
  | .full m => ∀ e, b.modules.look m.name = some e → b.schemas.look m.name = schemas.look m.name → ∀ u ∈ m.submodules, ∃ v ∈ e.submodules, v.name = u.name
  | .imported m => ∀ es, b.imports.look m.name = some es → ∃ e ∈ es, e.revision = m.revision
  | _ => False

theorem addSubs_ok {schemas : List (String × String)} (p : Bool) {q : String} {m : Module} {us : List Submodule} (hg : ∀ u ∈ us, (schemas.look u.name).isSome)
    (hm : ∀ u ∈ us, ∃ v ∈ m.submodules, v.name = u.name) {b : Builder} (hc : Covered b) (hb : b.modules.look q = some m) :
    ∃ b', Builder.addListed (permissive mg) schemas p b (us.map (.fullSub q)) = .ok b' := by
  induction us generalizing b with
  | nil => exact ⟨b, rfl⟩
  | cons u us ih =>
    obtain ⟨t, ht⟩ := Option.isSome_iff_exists.mp (hg u (by simp))
    obtain ⟨b1, hb1⟩ := addSub_ok (mg := mg) b u t
    have hp : (if p then b.prefer (.fullSub q u) else b) = b := by cases p <;> rfl
    obtain ⟨v, hv, e⟩ := hm u (by simp)
    have : b.add (permissive mg) (.fullSub q u) t = .ok b1 := by
      simp only [Builder.add, Builder.addSubmodule, hb]
      rw [if_pos (by simp only [List.any_eq_true, decide_eq_true_eq]; exact ⟨v, hv, e⟩)]
      exact hb1
    obtain ⟨c1, _, c3, _⟩ := addSub_spec hc hb1
    obtain ⟨b2, hb2⟩ := ih (fun u hu => hg u (by simp [hu])) (fun u hu => hm u (by simp [hu])) c1 (by rw [c3]; exact hb)
    refine ⟨b2, ?_⟩
    simp only [List.map_cons, Builder.addListed, Work.name, ht, hp, this]
    exact hb2

theorem addImportedSubs_ok {schemas : List (String × String)} (p : Bool) {q : String} {us : List Submodule} (hg : ∀ u ∈ us, (schemas.look u.name).isSome)
    {b : Builder} (hc : Covered b) (hb : (b.imports.look q).isSome) :
    ∃ b', Builder.addListed (permissive mg) schemas p b (us.map (.importedSub q)) = .ok b' := by
  induction us generalizing b with
  | nil => exact ⟨b, rfl⟩
  | cons u us ih =>
    obtain ⟨t, ht⟩ := Option.isSome_iff_exists.mp (hg u (by simp))
    obtain ⟨b1, hb1⟩ := addSub_ok (mg := mg) b u t
    have hp : (if p then b.prefer (.importedSub q u) else b) = b := by cases p <;> rfl
    have : b.add (permissive mg) (.importedSub q u) t = .ok b1 := by
      simp only [Builder.add, Builder.addImportedSub]
      rw [if_pos hb]
      exact hb1
    obtain ⟨c1, _, _, c4⟩ := addSub_spec hc hb1
    obtain ⟨b2, hb2⟩ := ih (fun u hu => hg u (by simp [hu])) c1 (by rw [c4]; exact hb)
    refine ⟨b2, ?_⟩
    simp only [List.map_cons, Builder.addListed, Work.name, ht, hp, this]
    exact hb2

theorem addHead_ok (hmg : ∀ a b f, f ∈ mg a b ↔ f ∈ a ∨ f ∈ b) {schemas : List (String × String)} {p : Bool} {b : Builder} (hc : Covered b) {w : Work} (hf : Fits schemas b w)
    (hp : p = false → b.modules.look w.name = none) (hg : ∀ x ∈ w :: w.subs, (schemas.look x.name).isSome) :
    ∃ b', Builder.addListed (permissive mg) schemas p b (w :: w.subs) = .ok b' := by
  obtain ⟨t, ht⟩ := Option.isSome_iff_exists.mp (hg w (by simp))
  have hgs : ∀ x ∈ w.subs, (schemas.look x.name).isSome := fun x hx => hg x (by simp [hx])
  simp only [Builder.addListed, ht]
  cases w with
  | fullSub q u => exact hf.elim
  | importedSub q u => exact hf.elim
  | full m =>
    obtain ⟨b1, hb1⟩ := addModule_ok (mg := mg) (if p then b.prefer (.full m) else b) m t
    have s := addModule_spec hmg hc p hb1
    obtain ⟨m', h1, h2⟩ := s.modSelf m rfl
    have hadd : (if p then b.prefer (.full m) else b).add (permissive mg) (.full m) t = .ok b1 := hb1
    rw [hadd]
    refine addSubs_ok p (fun u hu => hgs (.fullSub m.name u) (List.mem_map_of_mem hu)) (fun u hu => ?_) s.covered h1
    cases hm : b.modules.look m.name with
    | none => rw [h2.1 hm]; exact ⟨u, hu, rfl⟩
    | some e =>
      cases p with
      | false => have := hp rfl; simp only [Work.name] at this; rw [hm] at this; cases this
      | true =>
        rcases (h2.2 e hm rfl).2 with h | ⟨h3, h4⟩
        · rw [h]; exact ⟨u, hu, rfl⟩
        · rw [h4]
          exact hf e hm (by rw [h3]; exact ht.symm) u hu
  | imported m =>
    have hpb : (if p then b.prefer (.imported m) else b) = b := by cases p <;> rfl
    obtain ⟨b1, hb1⟩ := addImported_ok (mg := mg) b m t hf
    have s := addImported_spec hc p hb1
    obtain ⟨es, h1, _⟩ := s.impSelf m rfl
    have hadd : b.add (permissive mg) (.imported m) t = .ok b1 := hb1
    rw [hpb, hadd]
    exact addImportedSubs_ok p (fun u hu => hgs (.importedSub m.name u) (List.mem_map_of_mem hu)) s.covered (by rw [h1]; rfl)

theorem addHeads_ok (hmg : ∀ a b f, f ∈ mg a b ↔ f ∈ a ∨ f ∈ b) {schemas : List (String × String)} {p : Bool} {hs : List Work}
    (hd : ((hs.flatMap fun w => w :: w.subs).map Work.name).Nodup) {b : Builder} (hc : Covered b) (hf : ∀ w ∈ hs, Fits schemas b w) (hp : p = false → ∀ w ∈ hs, b.modules.look w.name = none)
    (hg : ∀ x ∈ hs.flatMap fun w => w :: w.subs, (schemas.look x.name).isSome) :
    ∃ b', Builder.addListed (permissive mg) schemas p b (hs.flatMap fun w => w :: w.subs) = .ok b' := by
  induction hs generalizing b with
  | nil => exact ⟨b, rfl⟩
  | cons w hs ih =>
    rw [List.flatMap_cons] at hd hg ⊢
    rw [List.map_append, List.nodup_append] at hd
    obtain ⟨hd1, hd2, hd3⟩ := hd
    obtain ⟨b1, hb1⟩ := addHead_ok hmg hc (hf w (by simp)) (fun e => hp e w (by simp)) (fun x hx => hg x (List.mem_append_left _ hx))
    have r := addListed_spec hmg p hd1 hc hb1
    have hne : ∀ x ∈ hs, ∀ y ∈ w :: w.subs, y.name ≠ x.name := by
      intro x hx y hy e
      refine hd3 _ (List.mem_map_of_mem hy) x.name ?_ e
      exact List.mem_map_of_mem (List.mem_flatMap.mpr ⟨x, hx, by simp⟩)
    have hmod : ∀ x ∈ hs, b1.modules.look x.name = b.modules.look x.name := fun x hx => r.modOther _ fun m hm => hne x hx _ hm
    have himp : ∀ x ∈ hs, b1.imports.look x.name = b.imports.look x.name := fun x hx => r.impOther _ fun m hm => hne x hx _ hm
    have hsch : ∀ x ∈ hs, b1.schemas.look x.name = b.schemas.look x.name := fun x hx => r.miss _ fun y hy => hne x hx y hy
    obtain ⟨b2, hb2⟩ := ih hd2 r.covered (fun x hx => by
      have := hf x (by simp [hx])
      have e1 := hmod x hx; have e2 := himp x hx; have e3 := hsch x hx
      cases x with
      | full m =>
        simp only [Work.name] at e1 e2 e3
        intro e he hs
        exact this e (by rw [← e1]; exact he) (by rw [← e3]; exact hs)
      | imported m =>
        simp only [Work.name] at e1 e2 e3
        intro es hes
        exact this es (by rw [← e2]; exact hes)
      | fullSub q u => exact this
      | importedSub q u => exact this) (fun e x hx => by rw [hmod x hx]; exact hp e x (by simp [hx])) (fun x hx => hg x (List.mem_append_right _ hx))
    refine ⟨b2, ?_⟩
    rw [addListed_append, hb1]
    exact hb2

/-! ## What is built -/

/-- all that is in a builder has a schema, with submodules -/
structure Complete (b : Builder) : Prop where
  mods : ∀ n e, b.modules.look n = some e → e.name = n ∧ (b.schemas.look n).isSome ∧ ∀ u ∈ e.submodules, (b.schemas.look u.name).isSome
  imps : ∀ n es, b.imports.look n = some es → (b.schemas.look n).isSome ∧ ∀ e ∈ es, e.name = n ∧ ∀ u ∈ e.submodules, (b.schemas.look u.name).isSome
  subs : ∀ n u, b.submodules.look n = some u → (b.schemas.look n).isSome
  uniqM : Uniq b.modules
  uniqI : Uniq b.imports

theorem Complete.covered {b : Builder} (h : Complete b) : Covered b := ⟨fun n e he => ⟨(h.mods n e he).1, (h.mods n e he).2.1⟩, fun n es he => (h.imps n es he).1, h.subs⟩

theorem complete_empty : Complete .empty := by
  constructor <;> first | (intro n e h; simp [Builder.empty, List.look] at h) | simp [Builder.empty, Uniq]

theorem add_uniq {k : Checker} {b b' : Builder} {w : Work} {t : String} (h : b.add k w t = .ok b') (hm : Uniq b.modules) (hi : Uniq b.imports) : Uniq b'.modules ∧ Uniq b'.imports := by
  have hsub : ∀ u, b.addSub k u t = .ok b' → Uniq b'.modules ∧ Uniq b'.imports := by
    intro u h
    unfold Builder.addSub at h
    split at h
    · cases h; exact ⟨hm, hi⟩
    · split at h <;> cases h <;> exact ⟨hm, hi⟩
  cases w with
  | full m =>
    simp only [Builder.add, Builder.addModule] at h
    split at h
    · cases h; exact ⟨hm.put _ _, hi⟩
    · split at h <;> cases h
      · exact ⟨hm, hi⟩
      · exact ⟨hm.put _ _, hi⟩
      · exact ⟨hm.put _ _, hi⟩
  | imported m =>
    simp only [Builder.add, Builder.addImported] at h
    split at h
    · cases h; exact ⟨hm, hi.put _ _⟩
    · split at h
      · cases h
      · split at h <;> cases h
        · exact ⟨hm, hi⟩
        · exact ⟨hm, hi.put _ _⟩
        · exact ⟨hm, hi.put _ _⟩
  | fullSub q u =>
    simp only [Builder.add, Builder.addSubmodule] at h
    split at h
    · cases h
    · split at h
      · exact hsub u h
      · cases h
  | importedSub q u =>
    simp only [Builder.add, Builder.addImportedSub] at h
    split at h
    · exact hsub u h
    · cases h

theorem prefer_uniq {b : Builder} (w : Work) (hm : Uniq b.modules) : Uniq (b.prefer w).modules := by
  cases w with
  | full m =>
    simp only [Builder.prefer]
    split
    · exact hm.put _ _
    · exact hm
  | fullSub q u => exact hm
  | imported m => exact hm
  | importedSub q u => exact hm

theorem addListed_uniq {k : Checker} {schemas : List (String × String)} {p : Bool} {ws : List Work} {b b' : Builder} (h : Builder.addListed k schemas p b ws = .ok b')
    (hm : Uniq b.modules) (hi : Uniq b.imports) : Uniq b'.modules ∧ Uniq b'.imports := by
  induction ws generalizing b with
  | nil => simp only [Builder.addListed, Except.ok.injEq] at h; subst h; exact ⟨hm, hi⟩
  | cons w ws ih =>
    simp only [Builder.addListed] at h
    split at h
    · cases h
    · split at h
      · cases h
      · rename_i b1 hb1
        have := add_uniq hb1 (by split; exact prefer_uniq w hm; exact hm) (by split; rw [(prefer_schemas b w).2.1]; exact hi; exact hi)
        exact ih h this.1 this.2

theorem Listed.complete {p : Bool} {schemas : List (String × String)} {b b' : Builder} {l : Library} (hn : Named l) (h : Listed p schemas b b' (worksOf l)) (hc : Complete b)
    (hp : p = false → ∀ n, b.modules.look n = none) (hu : Uniq b'.modules ∧ Uniq b'.imports) : Complete b' := by
  have hgrow : ∀ n, (b.schemas.look n).isSome → (b'.schemas.look n).isSome := by
    intro n hn
    by_cases he : ∃ w ∈ worksOf l, w.name = n
    · obtain ⟨w, hw, rfl⟩ := he
      rw [h.hit w hw]; exact h.given w hw
    · rw [h.miss n fun w hw e => he ⟨w, hw, e⟩]; exact hn
  have hsub : ∀ w ∈ worksOf l, (b'.schemas.look w.name).isSome := fun w hw => by rw [h.hit w hw]; exact h.given w hw
  refine ⟨fun n e he => ?_, fun n es he => ?_, h.covered.subs, hu.1, hu.2⟩
  · by_cases hx : ∃ m, .full m ∈ worksOf l ∧ m.name = n
    · obtain ⟨m, hm, rfl⟩ := hx
      obtain ⟨m', h1, h2⟩ := h.modSelf m hm
      rw [h1] at he
      cases he
      have hmsub : ∀ u ∈ m.submodules, (b'.schemas.look u.name).isSome := fun u hu =>
        hsub (.fullSub m.name u) (mem_works.mpr (.inl ⟨m, works_full.mp hm, .inr ⟨u, hu, rfl⟩⟩))
      refine ⟨(h.covered.mods _ _ h1).1, (h.covered.mods _ _ h1).2, ?_⟩
      cases hb : b.modules.look m.name with
      | none => rw [h2.1 hb]; exact hmsub
      | some e0 =>
        cases p with
        | false => rw [hp rfl] at hb; cases hb
        | true =>
          rcases (h2.2 e0 hb rfl).2 with h3 | ⟨_, h3⟩
          · rw [h3]; exact hmsub
          · rw [h3]; exact fun u hu => hgrow _ ((hc.mods _ e0 hb).2.2 u hu)
    · have hsame := h.modOther n fun m hm e => hx ⟨m, hm, e⟩
      rw [hsame] at he
      obtain ⟨a1, a2, a3⟩ := hc.mods n e he
      exact ⟨a1, hgrow _ a2, fun u hu => hgrow _ (a3 u hu)⟩
  · by_cases hx : ∃ m, .imported m ∈ worksOf l ∧ m.name = n
    · obtain ⟨m, hm, rfl⟩ := hx
      obtain ⟨es', h1, h2, h3, h4⟩ := h.impSelf m hm
      rw [h1] at he
      cases he
      refine ⟨h.covered.imps _ _ h1, ?_⟩
      rcases h4 with rfl | h4
      · intro e he
        simp only [List.mem_singleton] at he
        subst he
        exact ⟨rfl, fun u hu => hsub (.importedSub e.name u) (mem_works.mpr (.inr ⟨e, works_imported.mp hm, .inr ⟨u, hu, rfl⟩⟩))⟩
      · intro e he
        obtain ⟨a1, a2⟩ := (hc.imps _ _ h4).2 e he
        exact ⟨a1, fun u hu => hgrow _ (a2 u hu)⟩
    · have hsame := h.impOther n fun m hm e => hx ⟨m, hm, e⟩
      rw [hsame] at he
      obtain ⟨a1, a2⟩ := hc.imps n es he
      exact ⟨hgrow _ a1, fun e he => ⟨(a2 e he).1, fun u hu => hgrow _ ((a2 e he).2 u hu)⟩⟩

theorem Complete.texts {b : Builder} (h : Complete b) : ∃ ts, b.texts = some ts := by
  unfold Builder.texts
  apply mapM_id_some
  intro x hx
  simp only [List.mem_append, List.mem_flatMap, List.mem_map, List.mem_singleton] at hx
  rcases hx with ⟨⟨n, m⟩, hm, (⟨f, _, rfl⟩ | ⟨u, hu, rfl⟩) | rfl⟩ | ⟨⟨n, ms⟩, hm, m, hmem, ⟨u, hu, rfl⟩ | rfl⟩
  · rfl
  · exact (h.mods _ _ (lookup_of_mem h.uniqM hm)).2.2 u hu
  · obtain ⟨a1, a2, _⟩ := h.mods _ _ (lookup_of_mem h.uniqM hm)
    rw [a1]; exact a2
  · exact ((h.imps _ _ (lookup_of_mem h.uniqI hm)).2 m hmem).2 u hu
  · obtain ⟨a1, a2⟩ := h.imps _ _ (lookup_of_mem h.uniqI hm)
    rw [(a2 m hmem).1]; exact a1

theorem find_values {l : List (String × Module)} (hk : ∀ n e, (n, e) ∈ l → e.name = n) (n : String) : (l.map (·.2)).find? (fun m => m.name = n) = l.look n := by
  induction l with
  | nil => rfl
  | cons x l ih =>
    obtain ⟨k, e⟩ := x
    have := hk k e (by simp)
    rw [List.map_cons, List.find?_cons, lookup_cons']
    simp only [this]
    split
    · rename_i h; rw [if_pos (by simpa using h)]
    · rename_i h; rw [if_neg (by simpa using h)]; exact ih fun n e h => hk n e (by simp [h])

/-- modules are found in what is built -/
theorem Complete.build {b : Builder} (h : Complete b) (digest : String → String) :
    ∃ lib, b.build digest = some (lib, b.schemas) ∧ (∀ n, lib.findModule n = b.modules.look n) ∧ ∀ n, lib.findImports n = b.imports.look n := by
  obtain ⟨ts, hts⟩ := h.texts
  refine ⟨_, by unfold Builder.build; rw [hts]; rfl, fun n => ?_, fun n => ?_⟩
  · rw [← find_values (fun n e hm => (h.mods n e (lookup_of_mem h.uniqM hm)).1) n]
    simp only [Library.findModule, List.findSome?_cons, List.findSome?_nil]
    cases (b.modules.map (·.2)).find? (fun m => m.name = n) <;> rfl
  · simp only [Library.findImports, List.findSome?_cons, List.findSome?_nil]
    cases b.imports.look n <;> rfl

end Verif.YangPush.Load
