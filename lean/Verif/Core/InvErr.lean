import Verif.Core.Inv
import Verif.Core.Ctx
/-!
# Inversion lemmas for failing parsers
-/
namespace Verif
namespace Parser
variable {ε ε' α β : Type} {r r' : Reader}

theorem bind_eq_err {p : Parser ε α} {f : α → Parser ε β} {e : ε} :
    (p >>= f) r = (.err e, r') ↔
      p r = (.err e, r') ∨ ∃ a r1, p r = (.ok a, r1) ∧ f a r1 = (.err e, r') := by
  rw [bind_run]
  rcases h : p r with ⟨a | e1 | x, r1⟩
  · constructor
    · exact fun hf => .inr ⟨a, r1, rfl, hf⟩
    · rintro (h | ⟨_, _, h, hf⟩)
      · simp at h
      · simp only [Prod.mk.injEq, Res.ok.injEq] at h
        obtain ⟨rfl, rfl⟩ := h
        exact hf
  · simp
  · simp

theorem mapErr_eq_err {p : Parser ε α} {g : ε → ε'} {e : ε'} :
    mapErr g p r = (.err e, r') ↔ ∃ e1, p r = (.err e1, r') ∧ g e1 = e := by
  rw [mapErr_run]
  rcases h : p r with ⟨a | e1 | x, r1⟩
  · simp
  · simp only [Res.mapErr_err, Prod.mk.injEq, Res.err.injEq]
    constructor
    · rintro ⟨rfl, rfl⟩; exact ⟨e1, ⟨rfl, rfl⟩, rfl⟩
    · rintro ⟨_, ⟨rfl, rfl⟩, rfl⟩; exact ⟨rfl, rfl⟩
  · simp

theorem pure_eq_err {a : α} {e : ε} : (pure a : Parser ε α) r = (.err e, r') ↔ False := by
  rw [pure_run]; simp
theorem fail_eq_err {e e1 : ε} : (fail e1 : Parser ε α) r = (.err e, r') ↔ e1 = e ∧ r = r' := by
  rw [fail_run]; simp
theorem ite_eq_err {c : Prop} [Decidable c] {p q : Parser ε α} {e : ε} :
    (if c then p else q) r = (.err e, r') ↔ (c ∧ p r = (.err e, r')) ∨ (¬ c ∧ q r = (.err e, r')) := by
  split <;> simp [*]
theorem getOffset_eq_err {e : ε} : (getOffset : Parser ε Nat) r = (.err e, r') ↔ False := by
  rw [getOffset_run]; simp

end Parser

namespace CParser
variable {σ ε ε' α β : Type}

theorem bind_eq_err {p : CParser σ ε α} {f : α → CParser σ ε β} {s s' : Reader × σ} {e : ε}
    (h : (p >>= f) s = (.err e, s')) :
    p s = (.err e, s') ∨ ∃ a s1, p s = (.ok a, s1) ∧ f a s1 = (.err e, s') := by
  rcases hp : p s with ⟨a | e1 | x, s1⟩
  · rw [bind_ok hp] at h; exact .inr ⟨a, s1, rfl, h⟩
  · rw [bind_err hp] at h
    simp only [Prod.mk.injEq, Res.err.injEq] at h
    exact .inl (by rw [h.1, h.2])
  · rw [bind_fault hp] at h; simp at h

theorem lift_eq_err {p : Parser ε α} {s s' : Reader × σ} {e : ε}
    (h : (lift p : CParser σ ε α) s = (.err e, s')) : p s.1 = (.err e, s'.1) ∧ s'.2 = s.2 := by
  obtain ⟨r, g⟩ := s
  rw [lift_run] at h
  simp only [Prod.mk.injEq] at h
  obtain ⟨h1, rfl⟩ := h
  exact ⟨Prod.ext h1 rfl, rfl⟩

theorem mapErr_eq_err {f : ε → ε'} {p : CParser σ ε α} {s s' : Reader × σ} {e : ε'}
    (h : mapErr f p s = (.err e, s')) : ∃ e1, p s = (.err e1, s') ∧ f e1 = e := by
  rw [mapErr_run] at h
  rcases hp : p s with ⟨a | e1 | x, s1⟩ <;> rw [hp] at h
  · simp [Res.mapErr] at h
  · simp only [Res.mapErr, Prod.mk.injEq, Res.err.injEq] at h
    exact ⟨e1, by rw [h.2], h.1⟩
  · simp [Res.mapErr] at h

theorem onSub_eq_err {sub : Reader} {p : CParser σ ε α} {s s' : Reader × σ} {e : ε}
    (h : onSub sub p s = (.err e, s')) : ∃ sub', p (sub, s.2) = (.err e, (sub', s'.2)) ∧ s'.1 = s.1 := by
  unfold onSub at h
  rcases hp : p (sub, s.2) with ⟨b | e1 | x, ⟨r1, g1⟩⟩ <;> rw [hp] at h
  · simp at h
  · simp only [Prod.mk.injEq, Res.err.injEq] at h
    obtain ⟨rfl, rfl⟩ := h
    exact ⟨r1, rfl, rfl⟩
  · simp at h

end CParser
end Verif
