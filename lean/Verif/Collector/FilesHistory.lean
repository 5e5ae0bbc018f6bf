import Verif.Collector.FilesRunLemmas
import Verif.Collector.Ledger
/-!
# What survives of the operations that files bring
-/
namespace Verif.Collector
open MapFile Hist Verif.Props
open Flow (Field Value Ie)
open Announce (iana Way)
variable {A κ : Type} [DecidableEq κ]

/-- a line that was seen brings the upsert -/
def Seen (addr : Text → Option A) (json : Text → Option (A × Scope Field × UInt8 × List Field)) (config : List (κ × FileFormat)) (seen : κ → Found)
    (path : κ) (l : Text) (o : Op A Field Ie) : Prop :=
  ∃ format, (path, format) ∈ config ∧ l ∈ linesOf (seen path) ∧ o ∈ upserts addr json format l

theorem brings_upsert {addr : Text → Option A} {json : Text → Option (A × Scope Field × UInt8 × List Field)} {format : FileFormat} {l : Text} {o : Op A Field Ie}
    (h : Brings addr json format l o) : ∃ ip s w fs, o = .upsert ip s w fs := by
  cases h with
  | json => exact ⟨_, _, _, _, rfl⟩
  | map => exact ⟨_, _, _, _, rfl⟩

theorem becomes_unique {ie : Ie} {t : Text} {way : Option Way} {f g : Field} (h : Becomes ie t way f) (h' : Becomes ie t way g) : f = g := by
  have hn : ∀ f g, Becomes ie t none f → Becomes ie t none g → f = g := by
    intro f g h h'
    have := (parseField_iff _ _ _).mpr h
    rw [(parseField_iff _ _ _).mpr h'] at this
    simpa using this.symm
  cases way with
  | none => exact hn f g h h'
  | some way =>
    obtain ⟨f', h1, rfl⟩ := becomes_none h
    obtain ⟨g', h2, rfl⟩ := becomes_none h'
    rw [hn _ _ h1 h2]

/-- upserts of the same line are not about the same -/
theorem brings_same {addr : Text → Option A} {json : Text → Option (A × Scope Field × UInt8 × List Field)} {format : FileFormat} {l : Text} {o o' : Op A Field Ie}
    (h : Brings addr json format l o) (h' : Brings addr json format l o') (hs : Shares o o') : o = o' := by
  cases h with
  | json h1 h2 =>
    cases h' with
    | json h3 h4 =>
      rw [h1] at h3
      simp only [Option.some.injEq, Prod.mk.injEq] at h3
      obtain ⟨rfl, rfl, rfl, rfl⟩ := h3
      rfl
  | @map _ _ _ id ip s fs way f h1 h2 h3 =>
    cases h' with
    | @map _ _ _ id' ip' s' fs' way' g g1 g2 g3 =>
      obtain ⟨rfl, rfl, rfl⟩ := assigns_unique h1 g1
      obtain ⟨_, _, _, _, _, _, _, e1, e2, -, hs, -⟩ := hs
      simp only [Op.upsert.injEq] at e1 e2
      obtain ⟨rfl, rfl, rfl, rfl⟩ := e1
      obtain ⟨-, rfl, rfl, rfl⟩ := e2
      simp only at hs
      have : fs = fs' ∧ way = way' := by
        rcases s with _ | (n | n | n)
        · simp only [flowsOf, List.mem_singleton, Prod.mk.injEq] at h2 g2
          exact ⟨h2.1.trans g2.1.symm, h2.2.trans g2.2.symm⟩
        · simp only [flowsOf, List.mem_singleton, Prod.mk.injEq] at h2 g2
          exact ⟨h2.1.trans g2.1.symm, h2.2.trans g2.2.symm⟩
        · simp only [flowsOf, List.mem_singleton, Prod.mk.injEq] at h2 g2
          exact ⟨h2.1.trans g2.1.symm, h2.2.trans g2.2.symm⟩
        · simp only [flowsOf, List.mem_cons, List.not_mem_nil, or_false, Prod.mk.injEq] at h2 g2
          rcases h2 with ⟨rfl, rfl⟩ | ⟨rfl, rfl⟩ <;> rcases g2 with ⟨rfl, rfl⟩ | ⟨rfl, rfl⟩ <;> simp at hs ⊢
      obtain ⟨rfl, rfl⟩ := this
      rw [becomes_unique h3 g3]

theorem puts_shares {o o' : Op A Field Ie} {p : Place A Field Ie} {w w' : UInt8} {f f' : Field} (h : Puts o p w f) (h' : Puts o' p w' f') : Shares o o' := by
  obtain ⟨_, s, fs, rfl, ⟨rfl, h1, h2⟩, h3⟩ := h
  obtain ⟨_, s', fs', rfl, ⟨rfl, g1, g2⟩, g3⟩ := h'
  have a := List.mem_filter.mp (List.mem_of_getElem? h3)
  have b := List.mem_filter.mp (List.mem_of_getElem? g3)
  refine ⟨_, _, _, _, _, _, _, rfl, rfl, h1.trans g1.symm, h2.trans g2.symm, f, a.1, f', b.1, ?_⟩
  have a2 : ie f = p.ie := by simpa using a.2
  have b2 : ie f' = p.ie := by simpa using b.2
  exact a2.trans b2.symm

theorem ends_upsert {o o' : Op A Field Ie} (hu : ∃ ip s w fs, o' = .upsert ip s w fs) {p : Place A Field Ie} {w : UInt8} {f : Field} (h : Puts o p w f) (h' : Ends o' p w) :
    Shares o o' := by
  obtain ⟨ip, s, w', fs, rfl⟩ := hu
  obtain ⟨v, -, ⟨f', h2⟩ | ⟨_, _, _, e, -⟩ | ⟨_, _, e, -⟩⟩ := h'
  · exact puts_shares h h2
  · simp at e
  · simp at e

theorem ends_undo {o o' : Op A Field Ie} (hu : ∃ ip s w fs, o' = .upsert ip s w fs) {p : Place A Field Ie} {w : UInt8} {f : Field} (h : Puts o p w f)
    (h' : Ends o'.undo p w) : Shares o o' := by
  obtain ⟨ip, s, w', fs, rfl⟩ := hu
  obtain ⟨⟨rfl, h1, h2⟩, h3⟩ := undo_upsert.2 _ h'
  obtain ⟨_, s', fs', rfl, ⟨rfl, g1, g2⟩, g3⟩ := h
  obtain ⟨g, hg, hg'⟩ := List.mem_map.mp h3
  have b := List.mem_filter.mp (List.mem_of_getElem? g3)
  have b2 : ie f = p.ie := by simpa using b.2
  exact ⟨_, _, _, _, _, _, _, rfl, rfl, g1.trans h1.symm, g2.trans h2.symm, f, b.1, g, hg, b2.trans hg'.symm⟩

/-- what a change of the lines of a file sends -/
theorem delta_iff {addr : Text → Option A} {json : Text → Option (A × Scope Field × UInt8 × List Field)} {format : FileFormat} {old new : List Text}
    {ops : List (Op A Field Ie)} (h : Delta (flowLine addr json format) old new ops) : ∃ dels ups : List (Op A Field Ie), ops = dels.map Op.undo ++ ups ∧
      (∀ o, o ∈ dels ↔ ∃ l, l ∈ old ∧ l ∉ new ∧ o ∈ upserts addr json format l) ∧ (∀ o, o ∈ ups ↔ ∃ l, l ∈ new ∧ l ∉ old ∧ o ∈ upserts addr json format l) := by
  obtain ⟨removed, added, h1, h2, rfl⟩ := h
  refine ⟨removed.flatMap (upserts addr json format), added.flatMap (upserts addr json format), ?_, fun o => ?_, fun o => ?_⟩
  · unfold lineOps
    rw [List.map_flatMap]
    congr 1
    simp only [removed_undo]
  · rw [List.mem_flatMap]
    simp only [h1.mem_iff, minus, List.mem_filter, Bool.not_eq_true', List.contains_eq_mem, decide_eq_false_iff_not, and_assoc]
  · rw [List.mem_flatMap]
    simp only [h2.mem_iff, minus, List.mem_filter, Bool.not_eq_true', List.contains_eq_mem, decide_eq_false_iff_not, and_assoc]

theorem format_unique {config : List (κ × FileFormat)} (hnd : (config.map (·.1)).Nodup) {path : κ} {a b : FileFormat} (h : (path, a) ∈ config) (h' : (path, b) ∈ config) :
    a = b := by
  induction config with
  | nil => simp at h
  | cons x config ih =>
    simp only [List.map_cons, List.nodup_cons] at hnd
    rcases List.mem_cons.mp h with e | h <;> rcases List.mem_cons.mp h' with e' | h'
    · rw [← e] at e'; simpa using e'.symm
    · rw [← e] at hnd; exact absurd (List.mem_map.mpr ⟨_, h', rfl⟩) hnd.1
    · rw [← e'] at hnd; exact absurd (List.mem_map.mpr ⟨_, h, rfl⟩) hnd.1
    · exact ih hnd.2 h h'

theorem upd_same (seen : κ → Found) (path : κ) (f : Found) : upd seen path f path = f := by simp [upd]

theorem upd_other (seen : κ → Found) {path q : κ} (f : Found) (h : q ≠ path) : upd seen path f q = seen q := by simp [upd, h]

/-- nothing survives but what was seen last -/
theorem ledger_sound {addr : Text → Option A} {json : Text → Option (A × Scope Field × UInt8 × List Field)} {config : List (κ × FileFormat)}
    (hnd : (config.map (·.1)).Nodup) {P : (κ → Found) → Prop} {seen : κ → Found} {ops : List (Op A Field Ie)} (h : Ledger (flowLine addr json) config P seen ops)
    {p : Place A Field Ie} {w : UInt8} {f : Field} (hs : Survives ops p w f) : ∃ path l o, Seen addr json config seen path l o ∧ Puts o p w f := by
  induction h with
  | init => exact absurd hs (not_survives_nil _ _ _)
  | @skip seen ops path g _ hno ih =>
    obtain ⟨q, l, o, ⟨format, h1, h2⟩, h3⟩ := ih hs
    refine ⟨q, l, o, ⟨format, h1, ?_⟩, h3⟩
    rw [upd_other _ _ (by rintro rfl; exact hno ⟨_, h1⟩)]
    exact h2
  | @step seen ops path format g ops' _ hin hd _ _ ih =>
    obtain ⟨dels, ups, rfl, h1, h2⟩ := delta_iff hd
    rcases (survives_append _ _ _ _ _).mp hs with hs | ⟨hs, hno⟩
    · rcases (survives_append _ _ _ _ _).mp hs with hs | ⟨hs, hno⟩
      · obtain ⟨o, ho, hp⟩ := survives_mem hs
        obtain ⟨l, k1, -, k2⟩ := (h2 o).mp ho
        exact ⟨path, l, o, ⟨format, hin, by rw [upd_same]; exact k1, k2⟩, hp⟩
      · obtain ⟨o, ho, hp⟩ := survives_mem hs
        obtain ⟨o', ho', rfl⟩ := List.mem_map.mp ho
        obtain ⟨l, -, -, k2⟩ := (h1 o').mp ho'
        obtain ⟨_, _, _, _, rfl⟩ := brings_upsert ((upserts_iff _ _ _ _ _).mp k2)
        exact absurd hp (undo_upsert.1 _ _)
    · obtain ⟨q, l, o, ⟨format', k1, k2, k3⟩, hp⟩ := ih hs
      by_cases e : q = path
      · subst e
        obtain rfl := format_unique hnd k1 hin
        by_cases hl : l ∈ linesOf g
        · exact ⟨q, l, o, ⟨_, hin, by rw [upd_same]; exact hl, k3⟩, hp⟩
        · exfalso
          refine hno o.undo (List.mem_append_left _ (List.mem_map_of_mem ((h1 o).mpr ⟨l, k2, hl, k3⟩))) ?_
          obtain ⟨_, _, _, _, rfl⟩ := brings_upsert ((upserts_iff _ _ _ _ _).mp k3)
          obtain ⟨rfl, hd⟩ := puts_undo hp
          exact ⟨_, UInt8.le_refl _, .inr hd⟩
      · exact ⟨q, l, o, ⟨format', k1, by rw [upd_other _ _ e]; exact k2, k3⟩, hp⟩

/-- lines that were seen at the same time are not about the same -/
def SeenApart (addr : Text → Option A) (json : Text → Option (A × Scope Field × UInt8 × List Field)) (config : List (κ × FileFormat)) (seen : κ → Found) : Prop :=
  ∀ path l o path' l' o', Seen addr json config seen path l o → Seen addr json config seen path' l' o' → Shares o o' → path = path' ∧ l = l'

/-- all that was seen last survives -/
theorem ledger_complete {addr : Text → Option A} {json : Text → Option (A × Scope Field × UInt8 × List Field)} {config : List (κ × FileFormat)}
    (hnd : (config.map (·.1)).Nodup) {seen : κ → Found} {ops : List (Op A Field Ie)} (h : Ledger (flowLine addr json) config (SeenApart addr json config) seen ops)
    {path : κ} {l : Text} {o : Op A Field Ie} (hs : Seen addr json config seen path l o) {p : Place A Field Ie} {w : UInt8} {f : Field} (hp : Puts o p w f) :
    Survives ops p w f := by
  induction h generalizing path l o with
  | init => obtain ⟨_, -, h, -⟩ := hs; simp [linesOf] at h
  | @skip seen ops path' g _ hno ih =>
    obtain ⟨format, h1, h2, h3⟩ := hs
    rw [upd_other _ _ (by rintro rfl; exact hno ⟨_, h1⟩)] at h2
    exact ih ⟨format, h1, h2, h3⟩ hp
  | @step seen ops path' format g ops' _ hin hd hP hP' ih =>
    obtain ⟨dels, ups, rfl, h1, h2⟩ := delta_iff hd
    have hs0 := hs
    obtain ⟨format', k1, k2, k3⟩ := hs
    -- what the change sends does not end it, unless it brings it
    have hdel : Seen addr json config seen path l o → ∀ o' ∈ dels, Ends o'.undo p w → path = path' ∧ l ∉ linesOf g := by
      intro hseen o' ho' he
      obtain ⟨l', j1, j2, j3⟩ := (h1 o').mp ho'
      have := hP _ _ _ _ _ _ hseen ⟨format, hin, j1, j3⟩ (ends_undo (brings_upsert ((upserts_iff _ _ _ _ _).mp j3)) hp he)
      exact ⟨this.1, by rw [this.2]; exact j2⟩
    have hups : ∀ o' ∈ ups, Ends o' p w → path = path' ∧ l ∉ linesOf (seen path') ∧ Puts o' p w f := by
      intro o' ho' he
      obtain ⟨l', j1, j2, j3⟩ := (h2 o').mp ho'
      have hsh := ends_upsert (brings_upsert ((upserts_iff _ _ _ _ _).mp j3)) hp he
      obtain ⟨rfl, rfl⟩ := hP' _ _ _ _ _ _ hs0 ⟨format, hin, by rw [upd_same]; exact j1, j3⟩ hsh
      obtain rfl := format_unique hnd k1 hin
      obtain rfl := brings_same ((upserts_iff _ _ _ _ _).mp k3) ((upserts_iff _ _ _ _ _).mp j3) hsh
      exact ⟨rfl, j2, hp⟩
    by_cases hold : Seen addr json config seen path l o
    · refine (survives_append _ _ _ _ _).mpr (.inr ⟨ih hold hp, fun o' ho' he => ?_⟩)
      rcases List.mem_append.mp ho' with ho' | ho'
      · obtain ⟨o2, ho2, rfl⟩ := List.mem_map.mp ho'
        obtain ⟨rfl, hl⟩ := hdel hold o2 ho2 he
        rw [upd_same] at k2
        exact hl k2
      · obtain ⟨rfl, hl, -⟩ := hups o' ho' he
        obtain ⟨_, -, hl', -⟩ := hold
        exact hl hl'
    · have e : path = path' := by
        by_cases e : path = path'
        · exact e
        · rw [upd_other _ _ e] at k2
          exact absurd ⟨format', k1, k2, k3⟩ hold
      subst e
      obtain rfl := format_unique hnd k1 hin
      rw [upd_same] at k2
      have hl : l ∉ linesOf (seen path) := fun hl => hold ⟨_, k1, hl, k3⟩
      refine (survives_append _ _ _ _ _).mpr (.inl ((survives_append _ _ _ _ _).mpr (.inl ?_)))
      exact survives_of_mem ups (fun o' ho' he => (hups o' ho' he).2.2) ((h2 o).mpr ⟨l, k2, hl, k3⟩) hp

/-- what was seen last is what the files say now -/
theorem seen_iff (addr : Text → Option A) {json : Text → Option (A × Scope Field × UInt8 × List Field)} (hj : json [] = none) {config : List (κ × FileFormat)}
    {found seen : κ → Found} {es : List (κ × Notice)} (h : ∀ q, (∃ format, (q, format) ∈ config) → seen q = latest found es q) (path : κ) (l : Text) (o : Op A Field Ie) :
    Seen addr json config seen path l o ↔ Now addr json config found es path l o := by
  unfold Seen Now Stands
  constructor
  · rintro ⟨format, h1, h2, h3⟩
    rw [h path ⟨_, h1⟩] at h2
    cases hf : latest found es path with
    | content t =>
      rw [hf] at h2
      obtain ⟨g1, g2⟩ := (brought_iff addr hj format t l o).mp ⟨h2, h3⟩
      exact ⟨format, ⟨h1, t, rfl, g1⟩, g2⟩
    | nothing => rw [hf] at h2; simp [linesOf] at h2
    | unreadable => rw [hf] at h2; simp [linesOf] at h2
  · rintro ⟨format, ⟨h1, t, ht, h2⟩, h3⟩
    obtain ⟨g1, g2⟩ := (brought_iff addr hj format t l o).mpr ⟨h2, h3⟩
    exact ⟨format, h1, by rw [h path ⟨_, h1⟩, ht]; exact g1, g2⟩

/-- the lines of the start are not about the same, nor are fewer of them -/
theorem apart_start {addr : Text → Option A} {json : Text → Option (A × Scope Field × UInt8 × List Field)} (hj : json [] = none) {config : List (κ × FileFormat)}
    {found : κ → Found} {es : List (κ × Notice)} (h : Apart addr json config found es) (a : κ → Found) (ha : ∀ q, a q = found q ∨ a q = .nothing) :
    SeenApart addr json config a := by
  intro path l o path' l' o' h1 h2 hs
  have mono : ∀ path l o, Seen addr json config a path l o → Seen addr json config found path l o := by
    rintro path l o ⟨format, g1, g2, g3⟩
    rcases ha path with e | e
    · exact ⟨format, g1, by rw [← e]; exact g2, g3⟩
    · rw [e] at g2; simp [linesOf] at g2
  have now : ∀ path l o, Seen addr json config found path l o → Now addr json config found [] path l o := fun path l o =>
    (seen_iff addr hj (found := found) (seen := found) (es := []) (fun q _ => rfl) path l o).mp
  exact h [] List.nil_prefix _ _ _ _ _ _ (now _ _ _ (mono _ _ _ h1)) (now _ _ _ (mono _ _ _ h2)) hs

end Verif.Collector
