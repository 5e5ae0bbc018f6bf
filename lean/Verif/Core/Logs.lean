import Verif.Core.Ctx
/-!
# Parsers whose context is a log

A context that is only ever appended to does not influence parsing: what is parsed, and what is appended, is the same
whatever the log holds already.
-/
namespace Verif

/-- logs: a monoid -/
class Log (σ : Type) where
  nil : σ
  app : σ → σ → σ
  assoc : ∀ a b c, app (app a b) c = app a (app b c)
  nil_app : ∀ a, app nil a = a
  app_nil : ∀ a, app a nil = a

namespace CParser
variable {σ ε ε' α β : Type} [Log σ]
open Log

/-- `p` appends to the log and does nothing else with it -/
structure Logs (p : CParser σ ε α) : Prop where
  run : ∀ r g, p (r, g) = ((p (r, nil)).1, ((p (r, nil)).2.1, app g (p (r, nil)).2.2))

theorem Logs.eq {p : CParser σ ε α} (h : Logs p) {r r' : Reader} {x : Res ε α} {d : σ} (hp : p (r, nil) = (x, (r', d)))
    (g : σ) : p (r, g) = (x, (r', app g d)) := by
  rw [h.run, hp]

theorem logs_pure (a : α) : Logs (pure a : CParser σ ε α) := ⟨fun r g => by simp [app_nil]⟩
theorem logs_fail (e : ε) : Logs (fail e : CParser σ ε α) := ⟨fun r g => by simp [app_nil]⟩
theorem logs_lift (p : Parser ε α) : Logs (lift p : CParser σ ε α) := ⟨fun r g => by simp [lift_run, app_nil]⟩
theorem logs_modify {f : σ → σ} (h : ∀ g, f g = app g (f nil)) : Logs (modify f : CParser σ ε Unit) :=
  ⟨fun r g => by simp only [modify_run]; rw [h g]⟩
theorem logs_attempt (p : Parser ε α) : Logs (attempt p : CParser σ ε' (Except ε α)) :=
  ⟨fun r g => by unfold attempt; rcases p r with ⟨x | e | x, r'⟩ <;> simp [app_nil]⟩
theorem Logs.mapErr {p : CParser σ ε α} (f : ε → ε') (h : Logs p) : Logs (mapErr f p) :=
  ⟨fun r g => by rw [mapErr_run, mapErr_run, h.run r g]⟩

theorem Logs.bind {p : CParser σ ε α} {f : α → CParser σ ε β} (hp : Logs p) (hf : ∀ a, Logs (f a)) :
    Logs (p >>= f) := by
  refine ⟨fun r g => ?_⟩
  rcases h : p (r, nil) with ⟨a | e | x, ⟨r', d⟩⟩
  · rw [bind_ok h, bind_ok (hp.eq h g)]
    rcases h2 : f a (r', nil) with ⟨y, ⟨r2, d2⟩⟩
    rw [(hf a).eq h2, (hf a).eq h2, assoc]
  · rw [bind_err h, bind_err (hp.eq h g)]
  · rw [bind_fault h, bind_fault (hp.eq h g)]

theorem Logs.ite {c : Prop} [Decidable c] {p q : CParser σ ε α} (hp : Logs p) (hq : Logs q) : Logs (if c then p else q) := by
  split
  · exact hp
  · exact hq

theorem logs_onSub {p : CParser σ ε α} (s : Reader) (h : Logs p) : Logs (onSub s p) := by
  refine ⟨fun r g => ?_⟩
  unfold onSub
  simp only
  rcases hp : p (s, nil) with ⟨a | e | x, ⟨r', d⟩⟩ <;> simp [h.eq hp]

theorem logs_cmany {p : CParser σ ε (Option α)} (h : Logs p) : Logs (cmany p) := by
  suffices ∀ n (r : Reader) g, r.buf.length = n →
      cmany p (r, g) = ((cmany p (r, nil)).1, ((cmany p (r, nil)).2.1, app g (cmany p (r, nil)).2.2)) from
    ⟨fun r g => this _ r g rfl⟩
  intro n
  induction n using Nat.strongRecOn with
  | ind n ih =>
    intro r g hn
    by_cases hb : r.buf = []
    · rw [cmany_nil p _ hb, cmany_nil p _ hb]; simp [app_nil]
    rw [cmany_eq, cmany_eq p (r, nil), if_neg hb, if_neg hb]
    rcases hp : p (r, nil) with ⟨a | e | x, ⟨r', d⟩⟩ <;> simp only [h.eq hp]
    by_cases hl : r'.buf.length < r.buf.length
    · rw [if_pos hl, if_pos hl]
      have h1 := ih _ (by omega) r' (app g d) rfl
      have h2 := ih _ (by omega) r' d rfl
      rcases hc : cmany p (r', nil) with ⟨as | e | x, ⟨r2, d2⟩⟩ <;> rw [hc] at h1 h2 <;> rw [h1, h2] <;> simp [assoc]
    · rw [if_neg hl, if_neg hl]

end CParser
end Verif
