import Verif.Speaker.PeerCoh
/-!
# Executions with a condition on every step, and executions that are computed
-/
namespace Verif.Speaker
open Verif Verif.Bgp

/-- an execution in which every step satisfies a condition -/
inductive ExecIf (P : Sys → Label → Prop) : Sys → List (Label × Option Report) → Sys → Prop where
  | nil (s : Sys) : ExecIf P s [] s
  | snoc {s t u : Sys} {tr : List (Label × Option Report)} {l : Label} {r : Option Report} :
    ExecIf P s tr t → P t l → t.step l = some (u, r) → ExecIf P s (tr ++ [(l, r)]) u

theorem ExecIf.exec {P s tr s'} (h : ExecIf P s tr s') : Sys.Exec s tr s' := by
  induction h with
  | nil => exact .nil _
  | snoc _ _ hs ih => exact .snoc ih hs

theorem ExecIf.mono {P Q : Sys → Label → Prop} {s tr s'} (h : ExecIf P s tr s') (hpq : ∀ s l, P s l → Q s l) :
    ExecIf Q s tr s' := by
  induction h with
  | nil => exact .nil _
  | snoc _ hp hs ih => exact .snoc ih (hpq _ _ hp) hs

theorem ExecIf.cons {P s l t r tr u} (hp : P s l) (hs : s.step l = some (t, r)) (h : ExecIf P t tr u) :
    ExecIf P s ((l, r) :: tr) u := by
  induction h with
  | nil => exact .snoc (tr := []) (.nil _) hp hs
  | snoc _ hp' hs' ih => exact .snoc ih hp' hs'

/-- take the steps with these labels -/
def runs (s : Sys) : List Label → Option (Sys × List (Option Report))
  | [] => some (s, [])
  | l :: ls =>
    match s.step l with
    | none => none
    | some (t, r) => match runs t ls with
      | none => none
      | some (u, rs) => some (u, r :: rs)

theorem runs_cons {s l ls u rs} (h : runs s (l :: ls) = some (u, rs)) :
    ∃ t r rs', s.step l = some (t, r) ∧ runs t ls = some (u, rs') ∧ rs = r :: rs' := by
  unfold runs at h
  cases hs : s.step l with
  | none => rw [hs] at h; cases h
  | some x =>
    obtain ⟨t, r⟩ := x
    rw [hs] at h
    dsimp only at h
    cases hr : runs t ls with
    | none => rw [hr] at h; cases h
    | some y => obtain ⟨u', rs'⟩ := y; rw [hr] at h; cases h; exact ⟨t, r, rs', rfl, hr, rfl⟩

/-- a condition that only depends on the label -/
theorem runs_execIf {P : Sys → Label → Prop} {s ls u rs} (hP : ∀ s, ∀ l ∈ ls, P s l) (h : runs s ls = some (u, rs)) :
    ExecIf P s (ls.zip rs) u := by
  induction ls generalizing s rs with
  | nil => cases h; exact .nil _
  | cons l ls ih =>
    obtain ⟨t, r, rs', hs, hr, e⟩ := runs_cons h
    subst e
    exact .cons (hP _ l (by simp)) hs (ih (fun s l hl => hP s l (by simp [hl])) hr)

theorem runs_exec {s ls u rs} (h : runs s ls = some (u, rs)) : Sys.Exec s (ls.zip rs) u :=
  (runs_execIf (P := fun _ _ => True) (fun _ _ _ => trivial) h).exec

/-- a computed execution that ends in a state with a decidable property -/
theorem runs_find {s ls} (P : Sys → List (Option Report) → Bool)
    (h : (match runs s ls with | some (u, rs) => P u rs | none => false) = true) :
    ∃ u rs, runs s ls = some (u, rs) ∧ P u rs = true := by
  cases hr : runs s ls with
  | none => rw [hr] at h; cases h
  | some x => rw [hr] at h; exact ⟨x.1, x.2, rfl, h⟩

/-- coherence along calm executions -/
theorem coh_exec {props cfg pol tr s} (h : ExecIf Calm (Sys.init props cfg pol) tr s) : CohSys s := by
  generalize hi : Sys.init props cfg pol = i at h
  induction h with
  | nil =>
    subst hi
    exact .inr (.of_none rfl trivial)
  | snoc _ hc hs ih => exact ih.step hc (step_inv hs)

end Verif.Speaker
