import Verif.Core.Ctx
/-!
# What parsers with a context do to it, and how they depend on it

`Keeps R p`: the context after `p` is related to the one before, whatever the outcome.
`CSame R p`: run on related contexts, `p` has the same outcome and leaves related contexts.
`CInv I k p`: on contexts satisfying `I`, `p` neither panics nor hangs, consumes `k` octets or more when it succeeds, and
leaves a context satisfying `I`.
-/
namespace Verif
open Parser CParser
variable {σ τ ε ε' α β : Type}

/-- the context afterwards is related to the one before -/
def Keeps (R : σ → σ → Prop) (p : CParser σ ε α) : Prop := ∀ s, R s.2 (p s).2.2

section
variable {R : σ → σ → Prop}

theorem keeps_pure (hr : ∀ g, R g g) (a : α) : Keeps R (pure a : CParser σ ε α) := fun s => hr s.2
theorem keeps_fail (hr : ∀ g, R g g) (e : ε) : Keeps R (CParser.fail e : CParser σ ε α) := fun s => hr s.2
theorem keeps_lift (hr : ∀ g, R g g) (p : Parser ε α) : Keeps R (CParser.lift p : CParser σ ε α) := fun s => hr s.2
theorem keeps_modify {f : σ → σ} (h : ∀ g, R g (f g)) : Keeps R (CParser.modify f : CParser σ ε Unit) := fun s => h s.2
theorem Keeps.mapErr {p : CParser σ ε α} (f : ε → ε') (h : Keeps R p) : Keeps R (CParser.mapErr f p) := fun s => h s
theorem Keeps.bind (ht : ∀ {a b c}, R a b → R b c → R a c) {p : CParser σ ε α} {f : α → CParser σ ε β} (hp : Keeps R p)
    (hf : ∀ a, Keeps R (f a)) : Keeps R (p >>= f) := by
  intro s
  have h1 := hp s
  rcases he : p s with ⟨a | e | x, s'⟩ <;> rw [he] at h1
  · rw [bind_ok he]; exact ht h1 (hf a s')
  · rw [bind_err he]; exact h1
  · rw [bind_fault he]; exact h1
theorem Keeps.onSub {p : CParser σ ε α} (sub : Reader) (h : Keeps R p) : Keeps R (CParser.onSub sub p) := by
  intro s
  have h1 := h (sub, s.2)
  unfold CParser.onSub
  rcases he : p (sub, s.2) with ⟨a | e | x, s'⟩ <;> rw [he] at h1 <;> exact h1
theorem Keeps.ite {c : Prop} [Decidable c] {p q : CParser σ ε α} (hp : c → Keeps R p) (hq : ¬ c → Keeps R q) :
    Keeps R (if c then p else q) := by
  by_cases h : c
  · rw [if_pos h]; exact hp h
  · rw [if_neg h]; exact hq h
theorem Keeps.cmany (hr : ∀ g, R g g) (ht : ∀ {a b c}, R a b → R b c → R a c) {p : CParser σ ε (Option α)}
    (h : Keeps R p) : Keeps R (CParser.cmany p) := by
  have aux : ∀ n s, R s.2 (cmanyF p n s).2.2 := by
    intro n
    induction n with
    | zero => intro s; exact hr _
    | succ n ih =>
      intro s
      unfold cmanyF
      by_cases hb : s.1.buf = []
      · rw [if_pos hb]; exact hr _
      · rw [if_neg hb]
        have h1 := h s
        rcases he : p s with ⟨a | e | x, s'⟩ <;> rw [he] at h1 <;> simp only
        · by_cases hl : s'.1.buf.length < s.1.buf.length
          · rw [if_pos hl]
            have h2 := ih s'
            rcases he2 : cmanyF p n s' with ⟨l | e | x, s''⟩ <;> rw [he2] at h2 <;> exact ht h1 h2
          · rw [if_neg hl]; exact h1
        · exact h1
        · exact h1
  exact fun s => aux _ s
end

/-- two outcomes agree but for the contexts, which are related -/
def AgreeR (R : σ → τ → Prop) (x : Res ε α × (Reader × σ)) (y : Res ε α × (Reader × τ)) : Prop :=
  x.1 = y.1 ∧ x.2.1 = y.2.1 ∧ R x.2.2 y.2.2

/-- the outcome is the same on related contexts -/
def CSame (R S : σ → σ → Prop) (p : CParser σ ε α) : Prop := ∀ r g g', R g g' → AgreeR S (p (r, g)) (p (r, g'))

section
variable {R S T : σ → σ → Prop}

theorem csame_pure (a : α) : CSame R R (pure a : CParser σ ε α) := fun _ _ _ h => ⟨rfl, rfl, h⟩
theorem csame_fail (e : ε) : CSame R R (CParser.fail e : CParser σ ε α) := fun _ _ _ h => ⟨rfl, rfl, h⟩
theorem csame_lift (p : Parser ε α) : CSame R R (CParser.lift p : CParser σ ε α) := fun _ _ _ h => ⟨rfl, rfl, h⟩
theorem csame_modify {f : σ → σ} (h : ∀ {g g'}, R g g' → S (f g) (f g')) :
    CSame R S (CParser.modify f : CParser σ ε Unit) := fun _ _ _ hr => ⟨rfl, rfl, h hr⟩
theorem CSame.mapErr {p : CParser σ ε α} (f : ε → ε') (h : CSame R S p) : CSame R S (CParser.mapErr f p) := by
  intro r g g' hr
  obtain ⟨h1, h2, h3⟩ := h r g g' hr
  exact ⟨by rw [CParser.mapErr_run, CParser.mapErr_run, h1], h2, h3⟩
/-- sequencing; failing outcomes need `S` to imply `T` -/
theorem CSame.bind (hst : ∀ {g g'}, S g g' → T g g') {p : CParser σ ε α} {f : α → CParser σ ε β} (hp : CSame R S p)
    (hf : ∀ a, CSame S T (f a)) : CSame R T (p >>= f) := by
  intro r g g' hr
  obtain ⟨h1, h2, h3⟩ := hp r g g' hr
  rcases he : p (r, g) with ⟨a | e | x, ⟨r1, g1⟩⟩ <;> rcases he' : p (r, g') with ⟨a' | e' | x', ⟨r1', g1'⟩⟩ <;>
    rw [he, he'] at h1 h2 h3 <;> simp only [Res.ok.injEq, Res.err.injEq, Res.fault.injEq, reduceCtorEq] at h1 h2
  · subst h1 h2
    rw [bind_ok he, bind_ok he']; exact hf _ _ _ _ h3
  · subst h1 h2
    rw [bind_err he, bind_err he']; exact ⟨rfl, rfl, hst h3⟩
  · subst h1 h2
    rw [bind_fault he, bind_fault he']; exact ⟨rfl, rfl, hst h3⟩
theorem CSame.bind' {p : CParser σ ε α} {f : α → CParser σ ε β} (hp : CSame R R p) (hf : ∀ a, CSame R R (f a)) :
    CSame R R (p >>= f) := CSame.bind id hp hf
theorem CSame.onSub {p : CParser σ ε α} (sub : Reader) (h : CSame R S p) : CSame R S (CParser.onSub sub p) := by
  intro r g g' hr
  obtain ⟨h1, h2, h3⟩ := h sub g g' hr
  unfold CParser.onSub
  rcases he : p (sub, g) with ⟨a | e | x, ⟨r1, g1⟩⟩ <;> rcases he' : p (sub, g') with ⟨a' | e' | x', ⟨r1', g1'⟩⟩ <;>
    rw [he, he'] at h1 h2 h3 <;> simp only [Res.ok.injEq, Res.err.injEq, Res.fault.injEq, reduceCtorEq] at h1 h2 <;>
    subst h1 h2 <;> simp only <;> exact ⟨rfl, rfl, h3⟩
theorem CSame.ite {c : Prop} [Decidable c] {p q : CParser σ ε α} (hp : c → CSame R S p) (hq : ¬ c → CSame R S q) :
    CSame R S (if c then p else q) := by
  by_cases h : c
  · rw [if_pos h]; exact hp h
  · rw [if_neg h]; exact hq h
theorem CSame.cmany {p : CParser σ ε (Option α)} (h : CSame R R p) : CSame R R (CParser.cmany p) := by
  have aux : ∀ n r g g', R g g' → AgreeR R (cmanyF p n (r, g)) (cmanyF p n (r, g')) := by
    intro n
    induction n with
    | zero => intro r g g' hr; exact ⟨rfl, rfl, hr⟩
    | succ n ih =>
      intro r g g' hr
      unfold cmanyF
      by_cases hb : r.buf = []
      · simp only [if_pos hb]; exact ⟨rfl, rfl, hr⟩
      · simp only [if_neg hb]
        obtain ⟨h1, h2, h3⟩ := h r g g' hr
        rcases he : p (r, g) with ⟨a | e | x, ⟨r1, g1⟩⟩ <;> rcases he' : p (r, g') with ⟨a' | e' | x', ⟨r1', g1'⟩⟩ <;>
          rw [he, he'] at h1 h2 h3 <;> simp only [Res.ok.injEq, Res.err.injEq, Res.fault.injEq, reduceCtorEq] at h1 h2 <;>
          subst h1 h2 <;> simp only
        · by_cases hl : r1.buf.length < r.buf.length
          · simp only [if_pos hl]
            obtain ⟨i1, i2, i3⟩ := ih r1 g1 g1' h3
            rcases hm : cmanyF p n (r1, g1) with ⟨b | e | x, ⟨r2, g2⟩⟩ <;>
              rcases hm' : cmanyF p n (r1, g1') with ⟨b' | e' | x', ⟨r2', g2'⟩⟩ <;>
              rw [hm, hm'] at i1 i2 i3 <;> simp only [Res.ok.injEq, Res.err.injEq, Res.fault.injEq, reduceCtorEq] at i1 i2 <;>
              subst i1 i2 <;> exact ⟨rfl, rfl, i3⟩
          · simp only [if_neg hl]; exact ⟨rfl, rfl, h3⟩
        · exact ⟨rfl, rfl, h3⟩
        · exact ⟨rfl, rfl, h3⟩
  exact fun r g g' hr => aux _ r g g' hr
end

/-- on contexts satisfying `I`, no panic and no hang, and `I` still holds -/
def CInv (I J : σ → Prop) (k : Nat) (p : CParser σ ε α) : Prop := ∀ r g, I g → COut k r (p (r, g)) ∧ J (p (r, g)).2.2

section
variable {I J K : σ → Prop}

theorem CInv.mono {j k : Nat} {p : CParser σ ε α} (h : CInv I J k p) (hjk : j ≤ k) : CInv I J j p := by
  intro r g hg
  obtain ⟨h1, h2⟩ := h r g hg
  refine ⟨?_, h2⟩
  rcases hp : p (r, g) with ⟨_ | _ | _, _⟩ <;> rw [hp] at h1
  · exact Adv.mono h1 hjk
  · trivial
  · exact h1.elim
theorem CInv.zero {k : Nat} {p : CParser σ ε α} (h : CInv I J k p) : CInv I J 0 p := h.mono (Nat.zero_le _)
theorem cinv_of_safe {k : Nat} {p : CParser σ ε α} (h : CSafe k p) (hk : ∀ s, I s.2 → J (p s).2.2) : CInv I J k p :=
  fun r g hg => ⟨h.out r g, hk (r, g) hg⟩
theorem cinv_pure (a : α) : CInv I I 0 (pure a : CParser σ ε α) := fun r _ h => ⟨Adv.refl r, h⟩
theorem cinv_fail (k : Nat) (e : ε) : CInv I I k (CParser.fail e : CParser σ ε α) := fun _ _ h => ⟨trivial, h⟩
theorem cinv_lift {k : Nat} {p : Parser ε α} (h : Safe k p) : CInv I I k (CParser.lift p : CParser σ ε α) :=
  cinv_of_safe (csafe_lift h) fun _ hg => hg
theorem cinv_modify {f : σ → σ} (h : ∀ g, I g → J (f g)) : CInv I J 0 (CParser.modify f : CParser σ ε Unit) :=
  fun r g hg => ⟨Adv.refl r, h g hg⟩
theorem CInv.mapErr {k : Nat} {p : CParser σ ε α} (f : ε → ε') (h : CInv I J k p) : CInv I J k (CParser.mapErr f p) := by
  intro r g hg
  obtain ⟨h1, h2⟩ := h r g hg
  refine ⟨?_, h2⟩
  rw [CParser.mapErr_run]
  rcases hp : p (r, g) with ⟨_ | _ | _, _⟩ <;> rw [hp] at h1 <;> exact h1
theorem CInv.bind' {j k : Nat} (hjk : ∀ g, J g → K g) {p : CParser σ ε α} {f : α → CParser σ ε β} (hp : CInv I J j p)
    (hf : ∀ a, CInv J K k (f a)) : CInv I K (j + k) (p >>= f) := by
  intro r g hg
  obtain ⟨h1, h2⟩ := hp r g hg
  rcases he : p (r, g) with ⟨a | e | x, ⟨r1, g1⟩⟩ <;> rw [he] at h1 h2
  · rw [bind_ok he]
    obtain ⟨h3, h4⟩ := hf a r1 g1 h2
    refine ⟨?_, h4⟩
    rcases he2 : f a (r1, g1) with ⟨b | e | x, ⟨r2, g2⟩⟩ <;> rw [he2] at h3
    · exact Adv.trans h1 h3
    · trivial
    · exact h3.elim
  · rw [bind_err he]; exact ⟨trivial, hjk _ h2⟩
  · exact h1.elim
theorem CInv.bind_l {k : Nat} {p : CParser σ ε α} {f : α → CParser σ ε β} (hp : CInv I I k p)
    (hf : ∀ a, CInv I I 0 (f a)) : CInv I I k (p >>= f) := CInv.bind' (fun _ h => h) hp hf
theorem CInv.bind_r {k : Nat} {p : CParser σ ε α} {f : α → CParser σ ε β} (hp : CInv I I 0 p)
    (hf : ∀ a, CInv I I k (f a)) : CInv I I k (p >>= f) := by
  have := CInv.bind' (fun _ h => h) hp hf
  rwa [Nat.zero_add] at this
theorem CInv.onSub {k : Nat} {p : CParser σ ε α} (sub : Reader) (h : CInv I J k p) : CInv I J 0 (CParser.onSub sub p) := by
  intro r g hg
  obtain ⟨h1, h2⟩ := h sub g hg
  unfold CParser.onSub
  rcases he : p (sub, g) with ⟨a | e | x, ⟨r1, g1⟩⟩ <;> rw [he] at h1 h2 <;> simp only
  · exact ⟨Adv.refl r, h2⟩
  · exact ⟨trivial, h2⟩
  · exact h1.elim
theorem CInv.ite {k : Nat} {c : Prop} [Decidable c] {p q : CParser σ ε α} (hp : c → CInv I J k p)
    (hq : ¬ c → CInv I J k q) : CInv I J k (if c then p else q) := by
  by_cases h : c
  · rw [if_pos h]; exact hp h
  · rw [if_neg h]; exact hq h
theorem CInv.cmany {p : CParser σ ε (Option α)} (h : CInv I I 1 p) : CInv I I 0 (CParser.cmany p) := by
  have aux : ∀ n r g, r.buf.length ≤ n → I g → COut 0 r (cmanyF p n (r, g)) ∧ I (cmanyF p n (r, g)).2.2 := by
    intro n
    induction n with
    | zero => intro r g _ hg; exact ⟨Adv.refl r, hg⟩
    | succ n ih =>
      intro r g hn hg
      unfold cmanyF
      by_cases hb : r.buf = []
      · simp only [if_pos hb]; exact ⟨Adv.refl r, hg⟩
      · simp only [if_neg hb]
        obtain ⟨h1, h2⟩ := h r g hg
        rcases he : p (r, g) with ⟨a | e | x, ⟨r1, g1⟩⟩ <;> rw [he] at h1 h2 <;> simp only
        · have hl : r1.buf.length < r.buf.length := by
            have h1 : Adv 1 r r1 := h1
            obtain ⟨m, hm, hm', rfl⟩ := h1
            simp only [List.length_drop]; omega
          rw [if_pos hl]
          obtain ⟨i1, i2⟩ := ih r1 g1 (by omega) h2
          rcases hm : cmanyF p n (r1, g1) with ⟨b | e | x, ⟨r2, g2⟩⟩ <;> rw [hm] at i1 i2
          · exact ⟨(Adv.trans h1 i1).mono (Nat.zero_le _), i2⟩
          · exact ⟨trivial, i2⟩
          · exact i1.elim
        · exact ⟨trivial, h2⟩
        · exact h1.elim
  exact fun r g hg => aux _ r g (Nat.le_refl _) hg
end
end Verif
