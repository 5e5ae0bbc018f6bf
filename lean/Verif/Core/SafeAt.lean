import Verif.Core.Write
/-!
# Parsers that are safe from some position on

Some error paths compute `cur.offset() - n`, which underflows when the reader starts at the beginning of a
buffer. `SafeAt m k p` is `Safe k p` for readers positioned at `m` or later.
-/
namespace Verif
namespace Parser
variable {ε ε' α β : Type}

structure SafeAt (m k : Nat) (p : Parser ε α) : Prop where
  out : ∀ r, m ≤ r.offset → Out k r (p r)

theorem Safe.at {k : Nat} {p : Parser ε α} (h : Safe k p) (m : Nat) : SafeAt m k p := ⟨fun r _ => h.out r⟩

theorem SafeAt.safe {k : Nat} {p : Parser ε α} (h : SafeAt 0 k p) : Safe k p := ⟨fun r => h.out r (Nat.zero_le _)⟩

theorem SafeAt.from {m m' k : Nat} {p : Parser ε α} (h : SafeAt m k p) (hm : m ≤ m') : SafeAt m' k p :=
  ⟨fun r hr => h.out r (Nat.le_trans hm hr)⟩

theorem SafeAt.mono {m j k : Nat} {p : Parser ε α} (h : SafeAt m k p) (hjk : j ≤ k) : SafeAt m j p := by
  refine ⟨fun r hr => ?_⟩
  have := h.out r hr
  rcases hp : p r with ⟨_ | _ | _, _⟩ <;> rw [hp] at this
  · exact this.mono hjk
  · trivial
  · exact this.elim

theorem Adv.offset {k : Nat} {r r' : Reader} (h : Adv k r r') : r.offset + k ≤ r'.offset := by
  obtain ⟨n, hn, _, rfl⟩ := h
  show r.offset + k ≤ r.offset + n; omega

/-- sequencing; the continuation starts `j` octets later -/
theorem safeAt_bind {m j k : Nat} {p : Parser ε α} {f : α → Parser ε β} (hp : SafeAt m j p)
    (hf : ∀ a, SafeAt (m + j) k (f a)) : SafeAt m (j + k) (p >>= f) := by
  refine ⟨fun r hr => ?_⟩
  have h1 := hp.out r hr
  rw [bind_run]
  rcases he : p r with ⟨a | _ | _, r'⟩ <;> rw [he] at h1
  · have h2 := (hf a).out r' (Nat.le_trans (Nat.add_le_add_right hr j) h1.offset)
    rcases he2 : f a r' with ⟨_ | _ | _, r''⟩ <;> rw [he2] at h2
    · simp only [he2]; exact h1.trans h2
    · simp only [he2]; trivial
    · exact h2.elim
  · trivial
  · exact h1.elim

theorem safeAt_bind_r {m k : Nat} {p : Parser ε α} {f : α → Parser ε β} (hp : SafeAt m 0 p)
    (hf : ∀ a, SafeAt m k (f a)) : SafeAt m k (p >>= f) := by
  have := safeAt_bind hp hf; rwa [Nat.zero_add] at this

theorem safeAt_mapErr {m k : Nat} (g : ε → ε') {p : Parser ε α} (h : SafeAt m k p) :
    SafeAt m k (mapErr g p) := by
  refine ⟨fun r hr => ?_⟩
  have := h.out r hr
  rw [mapErr_run]
  rcases hp : p r with ⟨_ | _ | _, _⟩ <;> rw [hp] at this <;> exact this

theorem safeAt_ite {m k : Nat} {c : Prop} [Decidable c] {p q : Parser ε α} (hp : c → SafeAt m k p)
    (hq : ¬ c → SafeAt m k q) : SafeAt m k (if c then p else q) := by
  split
  · exact hp ‹_›
  · exact hq ‹_›

theorem safeAt_map {m k : Nat} (g : α → β) {p : Parser ε α} (h : SafeAt m k p) : SafeAt m k (g <$> p) := by
  refine ⟨fun r hr => ?_⟩
  have := h.out r hr
  rw [map_run]
  rcases hp : p r with ⟨_ | _ | _, _⟩ <;> rw [hp] at this <;> exact this

/-- a slice starts where the reader is -/
theorem safeAt_slice {m n k : Nat} {g : ParseError → ε} {f : Reader → Parser ε β}
    (hf : ∀ s : Reader, m ≤ s.offset → SafeAt m k (f s)) : SafeAt m k (mapErr g (takeSlice n) >>= f) := by
  refine ⟨fun r hr => ?_⟩
  have h1 := (safe_takeSlice n).out r
  rcases he : takeSlice n r with ⟨s | e | x, r'⟩
  · rw [he] at h1
    rw [bind_ok (mapErr_ok he g)]
    have hs : s.offset = r.offset := by
      rw [takeSlice, bind_run] at he
      simp only [getOffset_run, bind_run] at he
      rcases hb : readBytes n r with ⟨b | _ | _, r2⟩ <;> rw [hb] at he
      · simp only [pure_run, Prod.mk.injEq, Res.ok.injEq] at he
        rw [← he.1]
      · cases he
      · cases he
    have h2 := (hf s (by omega)).out r' (Nat.le_trans hr (Nat.le_trans (Nat.le_add_right _ _) h1.offset))
    rcases he2 : f s r' with ⟨_ | _ | _, r''⟩ <;> rw [he2] at h2
    · exact (h1.trans h2).mono (Nat.le_add_left _ _)
    · trivial
    · exact h2.elim
  · rw [bind_err (mapErr_err he g)]; trivial
  · rw [he] at h1; exact h1.elim

theorem safeAt_onSub {m k : Nat} {s : Reader} {p : Parser ε α} (hs : m ≤ s.offset) (h : SafeAt m k p) :
    SafeAt m 0 (onSub s p) := by
  refine ⟨fun r _ => ?_⟩
  have := h.out s hs
  rw [onSub_run]
  rcases hp : p s with ⟨_ | _ | _, _⟩ <;> rw [hp] at this
  · exact Adv.refl r
  · trivial
  · exact this.elim

theorem safeAt_many {m : Nat} {p : Parser ε α} (h : SafeAt m 1 p) : SafeAt m 0 (many p) := by
  have key : ∀ n (r : Reader), m ≤ r.offset → r.buf.length = n → Out 0 r (parseAll p r) := by
    intro n
    induction n using Nat.strongRecOn with
    | ind n ih =>
      intro r hm hr
      rw [parseAll_eq]
      by_cases hb : r.buf = []
      · rw [if_pos hb]; exact Adv.refl r
      · rw [if_neg hb]
        have h1 := h.out r hm
        rcases he : p r with ⟨a | _ | _, r'⟩ <;> rw [he] at h1
        · have hlt := h1.length
          simp only
          rw [if_pos (by omega)]
          have h2 := ih _ (by omega) r' (by have := h1.offset; omega) rfl
          rcases he2 : parseAll p r' with ⟨_ | _ | _, r''⟩ <;> rw [he2] at h2
          · exact (h1.trans h2).mono (by omega)
          · trivial
          · exact h2.elim
        · trivial
        · exact h1.elim
  refine ⟨fun r hr => ?_⟩
  rw [many_run]
  exact key _ r hr rfl

end Parser
end Verif
