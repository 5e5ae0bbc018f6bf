import Verif.Core.Reader
/-!
# Parsers that never fault and only move the cursor forward

`Parser.Safe k p`: on every reader, `p` either fails with an error or succeeds after consuming at least
`k` octets of the remaining input; it neither panics nor loops.
-/
namespace Verif
namespace Parser
variable {ε ε' α β : Type}

/-- the reader after consuming `n` octets -/
def Adv (k : Nat) (r r' : Reader) : Prop :=
  ∃ n, k ≤ n ∧ n ≤ r.buf.length ∧ r' = ⟨r.buf.drop n, r.offset + n⟩

/-- an acceptable outcome of running a parser on `r` -/
def Out (k : Nat) (r : Reader) : Res ε α × Reader → Prop
  | (.ok _, r') => Adv k r r'
  | (.err _, _) => True
  | (.fault _, _) => False

structure Safe (k : Nat) (p : Parser ε α) : Prop where
  out : ∀ r, Out k r (p r)

theorem Adv.trans {j k : Nat} {r r' r'' : Reader} (h1 : Adv j r r') (h2 : Adv k r' r'') :
    Adv (j + k) r r'' := by
  obtain ⟨n, hn, hnl, rfl⟩ := h1
  obtain ⟨m, hm, hml, rfl⟩ := h2
  simp only [List.length_drop] at hml
  refine ⟨n + m, by omega, by omega, ?_⟩
  simp [List.drop_drop, Nat.add_assoc]

theorem Adv.mono {j k : Nat} {r r' : Reader} (h : Adv k r r') (hjk : j ≤ k) : Adv j r r' := by
  obtain ⟨n, hn, hnl, rfl⟩ := h
  exact ⟨n, by omega, hnl, rfl⟩

theorem Adv.refl (r : Reader) : Adv 0 r r := ⟨0, by omega, by omega, by simp⟩

theorem Adv.length {k : Nat} {r r' : Reader} (h : Adv k r r') : r'.buf.length + k ≤ r.buf.length := by
  obtain ⟨n, hn, hnl, rfl⟩ := h
  simp only [List.length_drop]; omega

theorem Safe.adv {k : Nat} {p : Parser ε α} (h : Safe k p) {r r' : Reader} {a : α}
    (he : p r = (.ok a, r')) : Adv k r r' := by
  have := h.out r; rw [he] at this; exact this

theorem Safe.noFault {k : Nat} {p : Parser ε α} (h : Safe k p) (r : Reader) :
    (p r).1.isFault = false := by
  have := h.out r
  rcases hp : p r with ⟨_ | _ | _, _⟩ <;> rw [hp] at this
  · rfl
  · rfl
  · exact this.elim

theorem Safe.mono {j k : Nat} {p : Parser ε α} (h : Safe k p) (hjk : j ≤ k) : Safe j p := by
  refine ⟨fun r => ?_⟩
  have := h.out r
  rcases hp : p r with ⟨_ | _ | _, _⟩ <;> rw [hp] at this
  · exact this.mono hjk
  · trivial
  · exact this.elim

theorem Safe.zero {k : Nat} {p : Parser ε α} (h : Safe k p) : Safe 0 p := h.mono (Nat.zero_le _)

theorem safe_pure (a : α) : Safe 0 (pure a : Parser ε α) := ⟨fun r => Adv.refl r⟩
theorem safe_fail (k : Nat) (e : ε) : Safe k (fail e : Parser ε α) := ⟨fun _ => trivial⟩
theorem safe_ofOption (e : ε) (o : Option α) : Safe 0 (ofOption e o) := by
  cases o
  · exact safe_fail _ _
  · exact safe_pure _
theorem safe_getOffset : Safe 0 (getOffset : Parser ε Nat) := ⟨fun r => Adv.refl r⟩
theorem safe_getRemaining : Safe 0 (getRemaining : Parser ε Nat) := ⟨fun r => Adv.refl r⟩
theorem safe_isEmpty : Safe 0 (isEmpty : Parser ε Bool) := ⟨fun r => Adv.refl r⟩
theorem safe_get : Safe 0 (get : Parser ε Reader) := ⟨fun r => Adv.refl r⟩

/-- sequencing; the continuation only has to be safe for values `p` can return -/
theorem safe_bind' {j k : Nat} {p : Parser ε α} {f : α → Parser ε β} (hp : Safe j p)
    (hf : ∀ r a r', p r = (.ok a, r') → Safe k (f a)) : Safe (j + k) (p >>= f) := by
  refine ⟨fun r => ?_⟩
  have h1 := hp.out r
  rw [bind_run]
  rcases he : p r with ⟨a | _ | _, r'⟩ <;> rw [he] at h1
  · have h2 := (hf r a r' he).out r'
    rcases he2 : f a r' with ⟨_ | _ | _, r''⟩ <;> rw [he2] at h2
    · simp only [he2]; exact h1.trans h2
    · simp only [he2]; trivial
    · exact h2.elim
  · trivial
  · exact h1.elim

theorem safe_bind {j k : Nat} {p : Parser ε α} {f : α → Parser ε β} (hp : Safe j p)
    (hf : ∀ a, Safe k (f a)) : Safe (j + k) (p >>= f) :=
  safe_bind' hp fun _ a _ _ => hf a

/-- the two halves, when the consumption of only one of them is of interest -/
theorem safe_bind_l {k : Nat} {p : Parser ε α} {f : α → Parser ε β} (hp : Safe k p)
    (hf : ∀ a, Safe 0 (f a)) : Safe k (p >>= f) := safe_bind hp hf
theorem safe_bind_r {k : Nat} {p : Parser ε α} {f : α → Parser ε β} (hp : Safe 0 p)
    (hf : ∀ a, Safe k (f a)) : Safe k (p >>= f) := by
  have := safe_bind hp hf; rwa [Nat.zero_add] at this

theorem safe_mapErr {k : Nat} (g : ε → ε') {p : Parser ε α} (h : Safe k p) : Safe k (mapErr g p) := by
  refine ⟨fun r => ?_⟩
  have := h.out r
  rw [mapErr_run]
  rcases he : p r with ⟨_ | _ | _, _⟩ <;> rw [he] at this
  · exact this
  · trivial
  · exact this.elim

theorem safe_map {k : Nat} (g : α → β) {p : Parser ε α} (h : Safe k p) : Safe k (g <$> p) := by
  refine ⟨fun r => ?_⟩
  have := h.out r
  rw [map_run]
  rcases he : p r with ⟨_ | _ | _, _⟩ <;> rw [he] at this
  · exact this
  · trivial
  · exact this.elim

theorem safe_ite {k : Nat} {c : Prop} [Decidable c] {p q : Parser ε α} (hp : c → Safe k p)
    (hq : ¬ c → Safe k q) : Safe k (if c then p else q) := by
  split
  · exact hp ‹_›
  · exact hq ‹_›

theorem safe_onSub {k : Nat} (s : Reader) {p : Parser ε α} (h : Safe k p) : Safe 0 (onSub s p) := by
  refine ⟨fun r => ?_⟩
  have := h.out s
  rw [onSub_run]
  rcases he : p s with ⟨_ | _ | _, _⟩ <;> rw [he] at this
  · exact Adv.refl r
  · trivial
  · exact this.elim

end Parser
open Parser

theorem safe_readU8 : Safe 1 readU8 := by
  constructor; rintro ⟨_ | ⟨b, bs⟩, o⟩
  · trivial
  · exact ⟨1, by omega, by simp, by simp⟩

theorem safe_readArray (n : Nat) : Safe n (readArray n) := by
  constructor; rintro ⟨b, o⟩
  unfold readArray
  by_cases h : n ≤ b.length
  · rw [if_pos h]; exact ⟨n, by omega, h, rfl⟩
  · rw [if_neg h]; trivial

theorem safe_readBytes (n : Nat) : Safe n (readBytes n) := safe_readArray n
theorem safe_readU16 : Safe 2 readU16 := safe_map _ (safe_readArray 2)
theorem safe_readU32 : Safe 4 readU32 := safe_map _ (safe_readArray 4)
theorem safe_readU64 : Safe 8 readU64 := safe_map _ (safe_readArray 8)
theorem safe_readU128 : Safe 16 readU128 := safe_map _ (safe_readArray 16)
theorem safe_takeSlice (n : Nat) : Safe n (takeSlice n) :=
  safe_bind_r safe_getOffset fun _ => safe_bind_l (safe_readBytes n) fun _ => safe_pure _
theorem safe_peekU8 : Safe 0 peekU8 := by
  constructor; rintro ⟨_ | ⟨b, bs⟩, o⟩
  · trivial
  · exact Adv.refl _
theorem safe_peekArray (n : Nat) : Safe 0 (peekArray n) := by
  constructor; rintro ⟨b, o⟩
  unfold peekArray
  by_cases h : n ≤ b.length
  · rw [if_pos h]; exact Adv.refl _
  · rw [if_neg h]; trivial
theorem safe_peekU16 : Safe 0 peekU16 := safe_map _ (safe_peekArray 2)
theorem safe_peekU32 : Safe 0 peekU32 := safe_map _ (safe_peekArray 4)
theorem safe_readPadded (n len : Nat) : Safe 0 (readPadded n len) := by
  refine ⟨fun r => ?_⟩
  unfold readPadded
  by_cases h : len > n
  · rw [if_pos h]; trivial
  · rw [if_neg h]
    exact (safe_bind_l (safe_readBytes len) fun _ => safe_pure _).zero.out r

/-- the collection loop terminates and does not fault when each element consumes something -/
theorem safe_many {ε α : Type} {p : Parser ε α} (h : Safe 1 p) : Safe 0 (many p) := by
  have key : ∀ n (r : Reader), r.buf.length = n → Out 0 r (parseAll p r) := by
    intro n
    induction n using Nat.strongRecOn with
    | ind n ih =>
      intro r hr
      rw [parseAll_eq]
      by_cases hb : r.buf = []
      · rw [if_pos hb]; exact Adv.refl r
      · rw [if_neg hb]
        have h1 := h.out r
        rcases he : p r with ⟨a | _ | _, r'⟩ <;> rw [he] at h1
        · have hlt := h1.length
          simp only
          rw [if_pos (by omega)]
          have h2 := ih _ (by omega) r' rfl
          rcases he2 : parseAll p r' with ⟨_ | _ | _, r''⟩ <;> rw [he2] at h2
          · exact (h1.trans h2).mono (by omega)
          · trivial
          · exact h2.elim
        · trivial
        · exact h1.elim
  refine ⟨fun r => ?_⟩
  rw [many_run]
  exact key _ r rfl

/-- one step of the safety proofs: structural rules and the primitive reads, at `Safe 0` -/
macro "psafe_step" : tactic => `(tactic| first
  | intro _
  | exact safe_pure _ | exact safe_fail _ _ | exact safe_ofOption _ _ | exact safe_getOffset | exact safe_getRemaining
  | exact safe_isEmpty | exact safe_get | exact safe_readU8.zero | exact (safe_readArray _).zero
  | exact (safe_readBytes _).zero | exact safe_readU16.zero | exact safe_readU32.zero
  | exact safe_readU64.zero | exact safe_readU128.zero | exact (safe_takeSlice _).zero
  | exact safe_peekU8 | exact safe_peekU16 | exact safe_peekU32 | exact safe_peekArray _
  | exact safe_readPadded _ _
  | with_reducible apply safe_bind_r | with_reducible apply safe_mapErr | with_reducible apply safe_map
  | apply safe_mapErr | apply safe_map | apply safe_ite | apply safe_onSub (k := 0)
  | apply safe_bind_r | (show Safe 0 (many _); apply safe_many) | split)

/-- `psafe [h₁, …]` proves `Safe 0 p` structurally, using the given facts for the sub-parsers. -/
syntax "psafe" ("[" term,* "]")? : tactic
macro_rules
  | `(tactic| psafe) => `(tactic| repeat' psafe_step)
  | `(tactic| psafe [$t,*]) => do
    let ts := t.getElems
    let mut tac ← `(tactic| psafe_step)
    for x in ts do
      tac ← `(tactic| first | exact $x | ($tac:tactic))
    `(tactic| repeat' ($tac:tactic))

/-- a loop only stops at the end of its input -/
theorem parseAll_ok_nil {ε α : Type} {p : Parser ε α} {r r' : Reader} {l : List α}
    (h : parseAll p r = (.ok l, r')) : r'.buf = [] := by
  exact parseAll_ok_induction (Q := fun _ _ r' => r'.buf = []) (fun _ h => h)
    (fun _ _ _ _ _ _ _ _ ih => ih) h

end Verif
