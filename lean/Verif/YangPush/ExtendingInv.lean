import Verif.YangPush.Extending
import Verif.YangPush.LibrarySpec
/-! # Extending of YANG libraries: what is there afterwards -/
namespace Verif.YangPush.Load
open Collector

/-- what is in a builder has a schema -/
structure Covered (b : Builder) : Prop where
  mods : ∀ n e, b.modules.look n = some e → e.name = n ∧ (b.schemas.look n).isSome
  imps : ∀ n es, b.imports.look n = some es → (b.schemas.look n).isSome
  subs : ∀ n u, b.submodules.look n = some u → (b.schemas.look n).isSome

theorem covered_empty : Covered .empty := by
  constructor <;> intro n e h <;> simp [Builder.empty, List.look] at h

theorem put_isSome {κ α : Type} [DecidableEq κ] {m : List (κ × α)} {n : κ} (k : κ) (v : α) (h : (m.look n).isSome) : ((put m k v).look n).isSome := by
  rw [lookup_put]
  split
  · rfl
  · exact h

theorem put_self_isSome {κ α : Type} [DecidableEq κ] (m : List (κ × α)) (k : κ) (v : α) : ((put m k v).look k).isSome := by rw [lookup_put, if_pos rfl]; rfl

theorem Covered.prefer {b : Builder} (h : Covered b) (w : Work) : Covered (b.prefer w) := by
  cases w with
  | full m =>
    simp only [Builder.prefer]
    cases hm : b.modules.look m.name with
    | none => exact h
    | some e =>
      refine ⟨fun n e' he => ?_, h.imps, h.subs⟩
      simp only [lookup_put] at he
      split at he
      · rename_i en; subst en; cases he
        exact h.mods _ e hm
      · exact h.mods n e' he
  | fullSub p u => exact h
  | imported m => exact h
  | importedSub p u => exact h

theorem prefer_schemas (b : Builder) (w : Work) : (b.prefer w).schemas = b.schemas ∧ (b.prefer w).imports = b.imports ∧ (b.prefer w).submodules = b.submodules := by
  cases w with
  | full m => simp only [Builder.prefer]; split <;> exact ⟨rfl, rfl, rfl⟩
  | fullSub p u => exact ⟨rfl, rfl, rfl⟩
  | imported m => exact ⟨rfl, rfl, rfl⟩
  | importedSub p u => exact ⟨rfl, rfl, rfl⟩

/-! ## Adding with the permissive checker -/

variable {mg : List String → List String → List String}

theorem addSub_spec {b b' : Builder} (hc : Covered b) {u : Submodule} {t : String} (h : b.addSub (permissive mg) u t = .ok b') :
    Covered b' ∧ (∀ n, b'.schemas.look n = if u.name = n then some t else b.schemas.look n) ∧ b'.modules = b.modules ∧ b'.imports = b.imports := by
  have hput : b' = { b with schemas := put b.schemas u.name t, submodules := put b.submodules u.name u } →
      Covered b' ∧ (∀ n, b'.schemas.look n = if u.name = n then some t else b.schemas.look n) ∧ b'.modules = b.modules ∧ b'.imports = b.imports := by
    rintro rfl
    refine ⟨⟨fun n e he => ⟨(hc.mods n e he).1, put_isSome _ _ (hc.mods n e he).2⟩, fun n es he => put_isSome _ _ (hc.imps n es he), fun n v hv => ?_⟩, fun n => by
      simp only [lookup_put], rfl, rfl⟩
    simp only [lookup_put] at hv ⊢
    split
    · rfl
    · rename_i e; rw [if_neg e] at hv; exact hc.subs n v hv
  unfold Builder.addSub at h
  split at h
  · cases h; exact hput rfl
  · rename_i e he
    split at h
    · rename_i hs
      cases h
      refine ⟨hc, fun n => ?_, rfl, rfl⟩
      simp only [permissive] at hs
      split at hs
      · rename_i hs'
        obtain ⟨x, hx⟩ := Option.isSome_iff_exists.mp (hc.subs _ e he)
        rw [hx, Option.getD_some] at hs'
        split
        · rename_i en; subst en; rw [hx, hs'.2]
        · rfl
      · cases hs
    · cases h; exact hput rfl
    · cases h; exact hput rfl
    · cases h
    · cases h

/-- what becomes of a module that is added: it is there, with the same features, and all else of it is as given, unless one with the same schema was there -/
def BecameModule (p : Bool) (b : Builder) (t : Option String) (m m' : Module) : Prop :=
  (b.modules.look m.name = none → m' = m) ∧
  ∀ e, b.modules.look m.name = some e → p = true → (∀ f, f ∈ m'.features ↔ f ∈ m.features) ∧
    (m' = { m with features := m'.features } ∨ (b.schemas.look m.name = t ∧ m' = { e with features := m'.features }))

/-- what becomes of a module that is imported only and is added -/
def BecameImport (b : Builder) (m : ImportOnly) (es : List ImportOnly) : Prop :=
  (b.imports.look m.name = none → es = [m]) ∧ (∃ e ∈ es, e.revision = m.revision) ∧ (es = [m] ∨ b.imports.look m.name = some es)

structure Stepped (p : Bool) (b b' : Builder) (w : Work) (t : String) : Prop where
  covered : Covered b'
  schemas : ∀ n, b'.schemas.look n = if w.name = n then some t else b.schemas.look n
  modOther : ∀ n, (∀ m, w = .full m → m.name ≠ n) → b'.modules.look n = b.modules.look n
  modSelf : ∀ m, w = .full m → ∃ m', b'.modules.look m.name = some m' ∧ BecameModule p b (some t) m m'
  impOther : ∀ n, (∀ m, w = .imported m → m.name ≠ n) → b'.imports.look n = b.imports.look n
  impSelf : ∀ m, w = .imported m → ∃ es, b'.imports.look m.name = some es ∧ BecameImport b m es

theorem addModule_spec (hmg : ∀ a b f, f ∈ mg a b ↔ f ∈ a ∨ f ∈ b) {b b' : Builder} (hc : Covered b) {m : Module} {t : String} (p : Bool)
    (h : (if p then b.prefer (.full m) else b).addModule (permissive mg) m t = .ok b') : Stepped p b b' (.full m) t := by
  cases hm : b.modules.look m.name with
  | none =>
    have hb : (if p then b.prefer (.full m) else b) = b := by
      cases p
      · rfl
      · simp only [if_true, Builder.prefer, hm]
    rw [hb] at h
    simp only [Builder.addModule, hm, Except.ok.injEq] at h
    subst h
    refine ⟨⟨fun n e he => ?_, fun n es he => put_isSome _ _ (hc.imps n es he), fun n v hv => put_isSome _ _ (hc.subs n v hv)⟩, fun n => by simp only [lookup_put]; rfl, fun n hn => ?_,
      fun m' e => ?_, fun _ _ => rfl, fun _ e => (by cases e)⟩
    · simp only [lookup_put] at he ⊢
      split at he
      · rename_i en; cases he; exact ⟨en, by simp [en]⟩
      · rename_i en; rw [if_neg en]; exact hc.mods n e he
    · simp only [lookup_put]; rw [if_neg (hn m rfl)]
    · cases e
      exact ⟨m, by simp only [lookup_put, if_true], ⟨fun _ => rfl, fun e he => by rw [hm] at he; cases he⟩⟩
  | some e =>
    obtain ⟨ename, hsch⟩ := hc.mods _ e hm
    obtain ⟨old, hold⟩ := Option.isSome_iff_exists.mp hsch
    -- the module that is compared with
    obtain ⟨e1, b1, hb1, hm1, he1, hs1, hi1, hu1, hc1, hother⟩ : ∃ e1 b1, (if p then b.prefer (.full m) else b) = b1 ∧ b1.modules.look m.name = some e1 ∧
        (e1 = { e with features := e1.features } ∧ (p = true → e1.features = m.features)) ∧ b1.schemas = b.schemas ∧ b1.imports = b.imports ∧ b1.submodules = b.submodules ∧ Covered b1 ∧
        ∀ n, m.name ≠ n → b1.modules.look n = b.modules.look n := by
      cases p
      · exact ⟨e, b, rfl, hm, ⟨rfl, fun h => (by cases h)⟩, rfl, rfl, rfl, hc, fun _ _ => rfl⟩
      · refine ⟨{ e with features := m.features }, b.prefer (.full m), rfl, ?_, ⟨rfl, fun _ => rfl⟩, (prefer_schemas b _).1, (prefer_schemas b _).2.1, (prefer_schemas b _).2.2, hc.prefer _, ?_⟩
        · simp only [Builder.prefer, hm, lookup_put, if_true]
        · intro n hn
          simp only [Builder.prefer, hm, lookup_put, if_neg hn]
    rw [hb1] at h
    have ename1 : e1.name = m.name := by rw [he1.1]; exact ename
    have hput : b' = { b1 with schemas := put b1.schemas m.name t, modules := put b1.modules m.name { m with features := mg e1.features m.features } } → Stepped p b b' (.full m) t := by
      rintro rfl
      refine ⟨⟨fun n e he => ?_, fun n es he => ?_, fun n v hv => ?_⟩, fun n => by simp only [lookup_put, hs1]; rfl, fun n hn => ?_,
        fun m' e' => ?_, fun _ _ => by simp only [hi1], fun _ e => (by cases e)⟩
      · simp only [lookup_put] at he ⊢
        split at he
        · rename_i en; cases he; exact ⟨en, by simp [en]⟩
        · rename_i en; rw [if_neg en]; exact hc1.mods n e he
      · exact put_isSome _ _ (hc1.imps n es he)
      · exact put_isSome _ _ (hc1.subs n v hv)
      · simp only [lookup_put]
        rw [if_neg (hn m rfl), hother n (hn m rfl)]
      · cases e'
        refine ⟨{ m with features := mg e1.features m.features }, by simp only [lookup_put, if_true], ⟨fun hn => (by rw [hm] at hn; cases hn), fun e' he hp => ⟨fun f => ?_, .inl rfl⟩⟩⟩
        simp only [hmg, he1.2 hp, or_self]
    simp only [Builder.addModule, hm1] at h
    split at h
    · rename_i hs
      cases h
      simp only [permissive, ename1, hs1, hold, Option.getD_some] at hs
      split at hs
      · rename_i h1
        split at hs
        · rename_i h2
          refine ⟨hc1, fun n => ?_, fun n hn => hother n (hn m rfl), fun m' e' => ?_, fun _ _ => by rw [hi1], fun _ e => (by cases e)⟩
          · rw [hs1]
            by_cases en : m.name = n
            · rw [← en, hold, h1.2]; exact (if_pos rfl).symm
            · exact (if_neg en).symm
          · cases e'
            refine ⟨e1, hm1, ⟨fun hn => (by rw [hm] at hn; cases hn), fun e' he hp => ?_⟩⟩
            rw [hm] at he; cases he
            exact ⟨fun f => by rw [h2], .inr ⟨by rw [hold, h1.2], he1.1⟩⟩
        · cases hs
      · cases hs
    · cases h; exact hput rfl
    · cases h; exact hput rfl
    · cases h
    · cases h

theorem addImported_spec {b b' : Builder} (hc : Covered b) {m : ImportOnly} {t : String} (p : Bool) (h : b.addImported (permissive mg) m t = .ok b') : Stepped p b b' (.imported m) t := by
  have hput : b' = { b with schemas := put b.schemas m.name t, imports := put b.imports m.name [m] } → Stepped p b b' (.imported m) t := by
    rintro rfl
    refine ⟨⟨fun n e he => ⟨(hc.mods n e he).1, put_isSome _ _ (hc.mods n e he).2⟩, fun n es he => ?_, fun n v hv => put_isSome _ _ (hc.subs n v hv)⟩, fun n => by
      simp only [lookup_put]; rfl, fun _ _ => rfl, fun _ e => (by cases e), fun n hn => ?_, fun m' e => ?_⟩
    · simp only [lookup_put] at he ⊢
      split
      · rfl
      · rename_i en; rw [if_neg en] at he; exact hc.imps n es he
    · simp only [lookup_put]; rw [if_neg (hn m rfl)]
    · cases e
      exact ⟨[m], by simp only [lookup_put, if_true], ⟨fun _ => rfl, ⟨m, by simp, rfl⟩, .inl rfl⟩⟩
  unfold Builder.addImported at h
  split at h
  · cases h; exact hput rfl
  · rename_i es hes
    split at h
    · cases h
    · rename_i e he
      split at h
      · rename_i hs
        cases h
        simp only [permissive] at hs
        split at hs
        · rename_i hs'
          obtain ⟨x, hx⟩ := Option.isSome_iff_exists.mp (hc.imps _ es hes)
          rw [hx, Option.getD_some] at hs'
          refine ⟨hc, fun n => ?_, fun _ _ => rfl, fun _ e => (by cases e), fun _ _ => rfl, fun m' e' => ?_⟩
          · by_cases en : m.name = n
            · rw [← en, hx, hs'.2]; exact (if_pos rfl).symm
            · exact (if_neg en).symm
          · cases e'
            exact ⟨es, hes, ⟨fun hn => (by rw [hes] at hn; cases hn), ⟨e, List.mem_of_find?_eq_some he, by simpa using List.find?_some he⟩, .inr hes⟩⟩
        · cases hs
      · cases h; exact hput rfl
      · cases h; exact hput rfl
      · cases h
      · cases h

theorem add_spec (hmg : ∀ a b f, f ∈ mg a b ↔ f ∈ a ∨ f ∈ b) {b b' : Builder} (hc : Covered b) {w : Work} {t : String} (p : Bool)
    (h : (if p then b.prefer w else b).add (permissive mg) w t = .ok b') : Stepped p b b' w t := by
  have hsub : ∀ u : Submodule, w.name = u.name → (∀ m, w ≠ .full m) → (∀ m, w ≠ .imported m) → b.addSub (permissive mg) u t = .ok b' → Stepped p b b' w t := by
    intro u hn h1 h2 h
    obtain ⟨a1, a2, a3, a4⟩ := addSub_spec hc h
    exact ⟨a1, fun n => by rw [hn]; exact a2 n, fun _ _ => by rw [a3], fun m e => absurd e (h1 m), fun _ _ => by rw [a4], fun m e => absurd e (h2 m)⟩
  cases w with
  | full m => exact addModule_spec hmg hc p h
  | imported m =>
    have : (if p then b.prefer (.imported m) else b) = b := by cases p <;> rfl
    rw [this] at h
    exact addImported_spec hc p h
  | fullSub q u =>
    have : (if p then b.prefer (.fullSub q u) else b) = b := by cases p <;> rfl
    rw [this] at h
    simp only [Builder.add, Builder.addSubmodule] at h
    split at h
    · cases h
    · split at h
      · exact hsub u rfl (fun _ e => (by cases e)) (fun _ e => (by cases e)) h
      · cases h
  | importedSub q u =>
    have : (if p then b.prefer (.importedSub q u) else b) = b := by cases p <;> rfl
    rw [this] at h
    simp only [Builder.add, Builder.addImportedSub] at h
    split at h
    · exact hsub u rfl (fun _ e => (by cases e)) (fun _ e => (by cases e)) h
    · cases h

/-! ## Adding several -/

structure Listed (p : Bool) (schemas : List (String × String)) (b b' : Builder) (ws : List Work) : Prop where
  covered : Covered b'
  given : ∀ w ∈ ws, (schemas.look w.name).isSome
  hit : ∀ w ∈ ws, b'.schemas.look w.name = schemas.look w.name
  miss : ∀ n, (∀ w ∈ ws, w.name ≠ n) → b'.schemas.look n = b.schemas.look n
  modOther : ∀ n, (∀ m, .full m ∈ ws → m.name ≠ n) → b'.modules.look n = b.modules.look n
  modSelf : ∀ m, .full m ∈ ws → ∃ m', b'.modules.look m.name = some m' ∧ BecameModule p b (schemas.look m.name) m m'
  impOther : ∀ n, (∀ m, .imported m ∈ ws → m.name ≠ n) → b'.imports.look n = b.imports.look n
  impSelf : ∀ m, .imported m ∈ ws → ∃ es, b'.imports.look m.name = some es ∧ BecameImport b m es

theorem addListed_spec (hmg : ∀ a b f, f ∈ mg a b ↔ f ∈ a ∨ f ∈ b) {schemas : List (String × String)} (p : Bool) {ws : List Work} (hd : (ws.map Work.name).Nodup) {b b' : Builder}
    (hc : Covered b) (h : Builder.addListed (permissive mg) schemas p b ws = .ok b') : Listed p schemas b b' ws := by
  induction ws generalizing b with
  | nil =>
    simp only [Builder.addListed, Except.ok.injEq] at h
    subst h
    exact ⟨hc, by simp, by simp, fun _ _ => rfl, fun _ _ => rfl, by simp, fun _ _ => rfl, by simp⟩
  | cons w ws ih =>
    simp only [Builder.addListed] at h
    split at h
    · cases h
    · rename_i t ht
      split at h
      · cases h
      · rename_i b1 hb1
        have s := add_spec hmg hc p hb1
        simp only [List.map_cons, List.nodup_cons, List.mem_map, not_exists, not_and] at hd
        have r := ih hd.2 s.covered h
        have hne : ∀ x ∈ ws, x.name ≠ w.name := fun x hx => hd.1 x hx
        refine ⟨r.covered, ?_, ?_, ?_, ?_, ?_, ?_, ?_⟩
        · intro x hx
          rcases List.mem_cons.mp hx with rfl | hx
          · rw [ht]; rfl
          · exact r.given x hx
        · intro x hx
          rcases List.mem_cons.mp hx with rfl | hx
          · rw [r.miss _ hne, s.schemas, if_pos rfl, ht]
          · exact r.hit x hx
        · intro n hn
          rw [r.miss n fun x hx => hn x (by simp [hx]), s.schemas, if_neg (hn w (by simp))]
        · intro n hn
          rw [r.modOther n fun m hm => hn m (by simp [hm]), s.modOther n fun m e => hn m (by simp [e])]
        · intro m hm
          rcases List.mem_cons.mp hm with e | hm
          · obtain ⟨m', h1, h2⟩ := s.modSelf m e.symm
            refine ⟨m', ?_, ?_⟩
            · rw [r.modOther m.name fun m0 h0 => ?_, h1]
              have := hne _ h0
              rw [← e] at this
              exact this
            · rw [← e] at ht
              have : schemas.look m.name = some t := ht
              rw [this]; exact h2
          · obtain ⟨m', h1, h2⟩ := r.modSelf m hm
            have hn : w.name ≠ m.name := fun e => hne _ hm e.symm
            refine ⟨m', h1, ?_⟩
            unfold BecameModule at h2 ⊢
            rw [s.modOther m.name (fun m0 e => by subst e; exact hn), s.schemas, if_neg hn] at h2
            exact h2
        · intro n hn
          rw [r.impOther n fun m hm => hn m (by simp [hm]), s.impOther n fun m e => hn m (by simp [e])]
        · intro m hm
          rcases List.mem_cons.mp hm with e | hm
          · obtain ⟨m', h1, h2⟩ := s.impSelf m e.symm
            refine ⟨m', ?_, h2⟩
            rw [r.impOther m.name fun m0 h0 => ?_, h1]
            have := hne _ h0
            rw [← e] at this
            exact this
          · obtain ⟨m', h1, h2⟩ := r.impSelf m hm
            have hn : w.name ≠ m.name := fun e => hne _ hm e.symm
            refine ⟨m', h1, ?_⟩
            unfold BecameImport at h2 ⊢
            rw [s.impOther m.name (fun m0 e => by subst e; exact hn)] at h2
            exact h2

end Verif.YangPush.Load
