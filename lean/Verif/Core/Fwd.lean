import Verif.Core.Safe
/-!
# Parsers that only move the cursor forward, also when they fail

`Parser.Fwd p`: whatever the outcome, the cursor left behind by `p` is the starting cursor advanced by some
number of octets. This is what lenient loops rely on when they carry on after an error.
-/
namespace Verif
namespace Parser
variable {ε ε' α β : Type}

structure Fwd (p : Parser ε α) : Prop where
  adv : ∀ r, Adv 0 r (p r).2

theorem fwd_pure (a : α) : Fwd (pure a : Parser ε α) := ⟨Adv.refl⟩
theorem fwd_fail (e : ε) : Fwd (fail e : Parser ε α) := ⟨Adv.refl⟩
theorem fwd_ofOption (e : ε) (o : Option α) : Fwd (ofOption e o) := by
  cases o
  · exact fwd_fail _
  · exact fwd_pure _
theorem fwd_getOffset : Fwd (getOffset : Parser ε Nat) := ⟨Adv.refl⟩
theorem fwd_getRemaining : Fwd (getRemaining : Parser ε Nat) := ⟨Adv.refl⟩
theorem fwd_isEmpty : Fwd (isEmpty : Parser ε Bool) := ⟨Adv.refl⟩
theorem fwd_get : Fwd (get : Parser ε Reader) := ⟨Adv.refl⟩

theorem fwd_bind {p : Parser ε α} {f : α → Parser ε β} (hp : Fwd p) (hf : ∀ a, Fwd (f a)) :
    Fwd (p >>= f) := by
  refine ⟨fun r => ?_⟩
  have h1 := hp.adv r
  rw [bind_run]
  rcases he : p r with ⟨a | _ | _, r'⟩ <;> rw [he] at h1
  · exact h1.trans ((hf a).adv r')
  · exact h1
  · exact h1

theorem fwd_mapErr (g : ε → ε') {p : Parser ε α} (h : Fwd p) : Fwd (mapErr g p) := by
  refine ⟨fun r => ?_⟩
  have := h.adv r
  rw [mapErr_run]
  rcases he : p r with ⟨_ | _ | _, _⟩ <;> rw [he] at this <;> exact this

theorem fwd_map (g : α → β) {p : Parser ε α} (h : Fwd p) : Fwd (g <$> p) := by
  refine ⟨fun r => ?_⟩
  have := h.adv r
  rw [map_run]
  rcases he : p r with ⟨_ | _ | _, _⟩ <;> rw [he] at this <;> exact this

theorem fwd_ite {c : Prop} [Decidable c] {p q : Parser ε α} (hp : c → Fwd p) (hq : ¬ c → Fwd q) :
    Fwd (if c then p else q) := by
  split
  · exact hp ‹_›
  · exact hq ‹_›

/-- a sub-reader never moves the outer cursor -/
theorem fwd_onSub (s : Reader) (p : Parser ε α) : Fwd (onSub s p) := by
  refine ⟨fun r => ?_⟩
  rw [onSub_run]
  rcases p s with ⟨_ | _ | _, _⟩ <;> exact Adv.refl r

end Parser
open Parser

theorem fwd_readU8 : Fwd readU8 := by
  constructor; rintro ⟨_ | ⟨b, bs⟩, o⟩
  · exact Adv.refl _
  · exact ⟨1, by omega, by simp, by simp⟩
theorem fwd_readArray (n : Nat) : Fwd (readArray n) := by
  constructor; rintro ⟨b, o⟩
  unfold readArray
  by_cases h : n ≤ b.length
  · rw [if_pos h]; exact ⟨n, by omega, h, rfl⟩
  · rw [if_neg h]; exact Adv.refl _
theorem fwd_readBytes (n : Nat) : Fwd (readBytes n) := fwd_readArray n
theorem fwd_readU16 : Fwd readU16 := fwd_map _ (fwd_readArray 2)
theorem fwd_readU32 : Fwd readU32 := fwd_map _ (fwd_readArray 4)
theorem fwd_readU64 : Fwd readU64 := fwd_map _ (fwd_readArray 8)
theorem fwd_readU128 : Fwd readU128 := fwd_map _ (fwd_readArray 16)
theorem fwd_takeSlice (n : Nat) : Fwd (takeSlice n) :=
  fwd_bind fwd_getOffset fun _ => fwd_bind (fwd_readBytes n) fun _ => fwd_pure _
theorem fwd_peekU8 : Fwd peekU8 := by
  constructor; rintro ⟨_ | ⟨b, bs⟩, o⟩ <;> exact Adv.refl _
theorem fwd_peekArray (n : Nat) : Fwd (peekArray n) := by
  constructor; rintro ⟨b, o⟩
  unfold peekArray
  by_cases h : n ≤ b.length
  · rw [if_pos h]; exact Adv.refl _
  · rw [if_neg h]; exact Adv.refl _
theorem fwd_peekU16 : Fwd peekU16 := fwd_map _ (fwd_peekArray 2)
theorem fwd_peekU32 : Fwd peekU32 := fwd_map _ (fwd_peekArray 4)

theorem fwd_many {ε α : Type} {p : Parser ε α} (h : Fwd p) : Fwd (many p) := by
  have key : ∀ n (r : Reader), r.buf.length = n → Adv 0 r (parseAll p r).2 := by
    intro n
    induction n using Nat.strongRecOn with
    | ind n ih =>
      intro r hr
      rw [parseAll_eq]
      by_cases hb : r.buf = []
      · rw [if_pos hb]; exact Adv.refl r
      · rw [if_neg hb]
        have h1 := h.adv r
        rcases he : p r with ⟨a | _ | _, r'⟩ <;> rw [he] at h1
        · simp only
          split
          · have h2 := ih _ (by omega) r' rfl
            rcases he2 : parseAll p r' with ⟨_ | _ | _, r''⟩ <;> rw [he2] at h2 <;> exact h1.trans h2
          · exact h1
        · exact h1
        · exact h1
  refine ⟨fun r => ?_⟩
  rw [many_run]
  exact key _ r rfl

/-- one step of the proofs that a parser only moves forward -/
macro "pfwd_step" : tactic => `(tactic| first
  | intro _
  | exact fwd_pure _ | exact fwd_fail _ | exact fwd_ofOption _ _ | exact fwd_getOffset | exact fwd_getRemaining
  | exact fwd_isEmpty | exact fwd_get | exact fwd_readU8 | exact (fwd_readArray _)
  | exact (fwd_readBytes _) | exact fwd_readU16 | exact fwd_readU32
  | exact fwd_readU64 | exact fwd_readU128 | exact (fwd_takeSlice _)
  | exact fwd_peekU8 | exact fwd_peekU16 | exact fwd_peekU32 | exact fwd_peekArray _
  | exact fwd_onSub _ _
  | with_reducible apply fwd_bind | with_reducible apply fwd_mapErr | with_reducible apply fwd_map | apply fwd_mapErr
  | apply fwd_map | apply fwd_ite
  | apply fwd_bind | (show Fwd (many _); apply fwd_many) | split)

/-- `pfwd [h₁, …]` proves `Fwd p` structurally, using the given facts for the sub-parsers. -/
syntax "pfwd" ("[" term,* "]")? : tactic
macro_rules
  | `(tactic| pfwd) => `(tactic| repeat' pfwd_step)
  | `(tactic| pfwd [$t,*]) => do
    let ts := t.getElems
    let mut tac ← `(tactic| pfwd_step)
    for x in ts do
      tac ← `(tactic| first | exact $x | ($tac:tactic))
    `(tactic| repeat' ($tac:tactic))

end Verif
