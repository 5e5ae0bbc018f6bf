import Verif.Collector.FilesSpec
import Verif.Props.Enrichment
/-!
# Lemmas about what survives in histories of operations that are put together
-/
namespace Verif.Collector.Hist
open Verif.Props MapFile

section
variable {T P W V : Type} {puts : T → P → W → V → Prop} {ends : T → P → W → Prop}

/-- `Survives`, for any notion of what an operation brings and ends -/
def SurvivesIn (puts : T → P → W → V → Prop) (ends : T → P → W → Prop) (ops : List T) (p : P) (w : W) (f : V) : Prop :=
  ∃ pre o post, ops = pre ++ o :: post ∧ puts o p w f ∧ ∀ o' ∈ post, ¬ ends o' p w

theorem in_cons (o : T) (ops : List T) (p : P) (w : W) (f : V) :
    SurvivesIn puts ends (o :: ops) p w f ↔ SurvivesIn puts ends ops p w f ∨ (puts o p w f ∧ ∀ o' ∈ ops, ¬ ends o' p w) := by
  constructor
  · rintro ⟨pre, o', post, h, h1, h2⟩
    cases pre with
    | nil =>
      simp only [List.nil_append, List.cons.injEq] at h
      obtain ⟨rfl, rfl⟩ := h
      exact .inr ⟨h1, h2⟩
    | cons x pre =>
      simp only [List.cons_append, List.cons.injEq] at h
      exact .inl ⟨pre, o', post, h.2, h1, h2⟩
  · rintro (⟨pre, o', post, h, h1, h2⟩ | ⟨h1, h2⟩)
    · exact ⟨o :: pre, o', post, by rw [h]; rfl, h1, h2⟩
    · exact ⟨[], o, ops, rfl, h1, h2⟩

theorem not_in_nil (p : P) (w : W) (f : V) : ¬ SurvivesIn puts ends [] p w f := by
  rintro ⟨pre, o, post, h, -, -⟩
  simp at h

theorem in_append (a b : List T) (p : P) (w : W) (f : V) :
    SurvivesIn puts ends (a ++ b) p w f ↔ SurvivesIn puts ends b p w f ∨ (SurvivesIn puts ends a p w f ∧ ∀ o ∈ b, ¬ ends o p w) := by
  induction a with
  | nil => simp [not_in_nil]
  | cons x a ih =>
    rw [List.cons_append, in_cons, ih, in_cons]
    constructor
    · rintro ((h | ⟨h1, h2⟩) | ⟨h1, h2⟩)
      · exact .inl h
      · exact .inr ⟨.inl h1, h2⟩
      · exact .inr ⟨.inr ⟨h1, fun o ho => h2 o (by simp [ho])⟩, fun o ho => h2 o (by simp [ho])⟩
    · rintro (h | ⟨h1 | ⟨h1, h2⟩, h3⟩)
      · exact .inl (.inl h)
      · exact .inl (.inr ⟨h1, h3⟩)
      · refine .inr ⟨h1, fun o ho => ?_⟩
        rcases List.mem_append.mp ho with ho | ho
        · exact h2 o ho
        · exact h3 o ho

theorem in_single (o : T) (p : P) (w : W) (f : V) : SurvivesIn puts ends [o] p w f ↔ puts o p w f := by
  rw [in_cons]
  simp [not_in_nil]

theorem in_mem {ops : List T} {p : P} {w : W} {f : V} (h : SurvivesIn puts ends ops p w f) : ∃ o ∈ ops, puts o p w f := by
  obtain ⟨pre, o, post, rfl, h, -⟩ := h
  exact ⟨o, by simp, h⟩

/-- what is brought survives if only the same ends it -/
theorem in_of_mem (ops : List T) {p : P} {w : W} {f : V} (h0 : ∀ o, puts o p w f → ends o p w) (h1 : ∀ o ∈ ops, ends o p w → puts o p w f) {o : T} (h : o ∈ ops)
    (h2 : puts o p w f) : SurvivesIn puts ends ops p w f := by
  induction ops using snoc_induction with
  | nil => simp at h
  | append_singleton ops x ih =>
    rw [in_append, in_single]
    by_cases hx : ends x p w
    · exact .inl (h1 x (by simp) hx)
    · refine .inr ⟨ih (fun o ho => h1 o (by simp [ho])) ?_, fun o ho => by simp only [List.mem_singleton] at ho; subst ho; exact hx⟩
      rcases List.mem_append.mp h with h | h
      · exact h
      · simp only [List.mem_singleton] at h
        subst h
        exact absurd (h0 _ h2) hx

theorem interleave_mem {α : Type} {l m n : List α} (h : Interleave l m n) (a : α) : a ∈ n ↔ a ∈ l ∨ a ∈ m := by
  induction h with
  | nil => simp
  | left _ ih => simp only [List.mem_cons, ih]; rw [or_assoc]
  | right _ ih => simp only [List.mem_cons, ih]; rw [or_left_comm]

theorem interleave_in {l m n : List T} (h : Interleave l m n) {p : P} {w : W} {f : V} (hs : SurvivesIn puts ends n p w f) :
    SurvivesIn puts ends l p w f ∨ SurvivesIn puts ends m p w f := by
  induction h with
  | nil => exact .inl hs
  | @left a l m n hi ih =>
    rcases (in_cons _ _ _ _ _).mp hs with h | ⟨h1, h2⟩
    · rcases ih h with h | h
      · exact .inl ((in_cons _ _ _ _ _).mpr (.inl h))
      · exact .inr h
    · exact .inl ((in_cons _ _ _ _ _).mpr (.inr ⟨h1, fun o ho => h2 o ((interleave_mem hi o).mpr (.inl ho))⟩))
  | @right a l m n hi ih =>
    rcases (in_cons _ _ _ _ _).mp hs with h | ⟨h1, h2⟩
    · rcases ih h with h | h
      · exact .inl h
      · exact .inr ((in_cons _ _ _ _ _).mpr (.inl h))
    · exact .inr ((in_cons _ _ _ _ _).mpr (.inr ⟨h1, fun o ho => h2 o ((interleave_mem hi o).mpr (.inr ho))⟩))

theorem in_interleave {l m n : List T} (h : Interleave l m n) {p : P} {w : W} {f : V} (hs : SurvivesIn puts ends l p w f)
    (hm : ∀ o ∈ m, ¬ ends o p w) : SurvivesIn puts ends n p w f := by
  induction h with
  | nil => exact hs
  | @left a l m n hi ih =>
    rcases (in_cons _ _ _ _ _).mp hs with h | ⟨h1, h2⟩
    · exact (in_cons _ _ _ _ _).mpr (.inl (ih h hm))
    · refine (in_cons _ _ _ _ _).mpr (.inr ⟨h1, fun o ho => ?_⟩)
      rcases (interleave_mem hi o).mp ho with ho | ho
      · exact h2 o ho
      · exact hm o ho
  | @right a l m n hi ih => exact (in_cons _ _ _ _ _).mpr (.inl (ih hs fun o ho => hm o (by simp [ho])))
end

variable {A F I : Type} [DecidableEq I] [HasIe F I]

theorem not_survives_nil (p : Place A F I) (w : UInt8) (f : F) : ¬ Survives ([] : List (Op A F I)) p w f := not_in_nil (puts := Puts) (ends := Ends) p w f

theorem survives_append (a b : List (Op A F I)) (p : Place A F I) (w : UInt8) (f : F) :
    Survives (a ++ b) p w f ↔ Survives b p w f ∨ (Survives a p w f ∧ ∀ o ∈ b, ¬ Ends o p w) := in_append (puts := Puts) (ends := Ends) a b p w f

theorem survives_mem {ops : List (Op A F I)} {p : Place A F I} {w : UInt8} {f : F} (h : Survives ops p w f) : ∃ o ∈ ops, Puts o p w f :=
  in_mem (puts := Puts) (ends := Ends) h

theorem puts_ends {o : Op A F I} {p : Place A F I} {w : UInt8} {f : F} (h : Puts o p w f) : Ends o p w := ⟨w, UInt8.le_refl _, .inl ⟨f, h⟩⟩

theorem survives_of_mem (ops : List (Op A F I)) {p : Place A F I} {w : UInt8} {f : F} (h1 : ∀ o ∈ ops, Ends o p w → Puts o p w f) {o : Op A F I} (h : o ∈ ops)
    (h2 : Puts o p w f) : Survives ops p w f := in_of_mem (puts := Puts) (ends := Ends) ops (fun _ h => puts_ends h) h1 h h2

theorem interleave_survives {l m n : List (Op A F I)} (h : Interleave l m n) {p : Place A F I} {w : UInt8} {f : F} (hs : Survives n p w f) :
    Survives l p w f ∨ Survives m p w f := interleave_in (puts := Puts) (ends := Ends) h hs

theorem survives_interleave {l m n : List (Op A F I)} (h : Interleave l m n) {p : Place A F I} {w : UInt8} {f : F} (hs : Survives l p w f)
    (hm : ∀ o ∈ m, ¬ Ends o p w) : Survives n p w f := in_interleave (puts := Puts) (ends := Ends) h hs hm

/-- an upsert that is undone puts nothing, and ends what is about the same -/
theorem undo_upsert {ip : A} {s : Scope F} {w : UInt8} {fs : List F} {p : Place A F I} : (∀ v f, ¬ Puts (Op.undo (.upsert ip s w fs : Op A F I)) p v f) ∧
    ∀ v, Ends (Op.undo (.upsert ip s w fs : Op A F I)) p v → At p ip s ∧ p.ie ∈ fs.map ie := by
  refine ⟨?_, ?_⟩
  · rintro v f ⟨_, _, _, e, -⟩
    simp [Op.undo] at e
  · rintro v ⟨w', -, ⟨f, _, _, _, e, -⟩ | ⟨_, _, _, e, h1, h2⟩ | ⟨_, _, e, -⟩⟩
    · simp [Op.undo] at e
    · simp only [Op.undo, Op.delete.injEq] at e
      obtain ⟨rfl, rfl, rfl, rfl⟩ := e
      exact ⟨h1, h2⟩
    · simp [Op.undo] at e

end Verif.Collector.Hist
