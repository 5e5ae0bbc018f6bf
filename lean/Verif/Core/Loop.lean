import Verif.Core.CRd
/-!
# Loops over what is left of the input

`while cond(i, cur.remaining()) { .. }` where the body reads an element, may change the context and passes on a loop
variable. The conditions of the code are false once nothing is left.
-/
namespace Verif
open Parser
variable {σ ε ε' α β ι : Type}

namespace CParser

/-- the context -/
def getCtx : CParser σ ε σ := fun s => (.ok s.2, s)

/-- `loop` below with an explicit bound on the number of iterations -/
def loopF (c : ι → Nat → Bool) (p : ι → CParser σ ε (α × ι)) : Nat → ι → CParser σ ε (List α)
  | 0, _, s => (.ok [], s)
  | n + 1, i, s =>
    if c i s.1.buf.length then
      match p i s with
      | (.ok (a, i'), s') =>
        if s'.1.buf.length < s.1.buf.length then
          match loopF c p n i' s' with
          | (.ok as, s'') => (.ok (a :: as), s'')
          | (.err e, s'') => (.err e, s'')
          | (.fault x, s'') => (.fault x, s'')
        else (.fault .hang, s')
      | (.err e, s') => (.err e, s')
      | (.fault x, s') => (.fault x, s')
    else (.ok [], s)

/-- `while c(i, cur.remaining()) { let (a, i) = p(i, cur)?; out.push(a) }`. An iteration that consumes nothing is reported
as `hang`, as in `parseAll`: none of the conditions and bodies of the code would ever leave the loop after it. -/
def loop (c : ι → Nat → Bool) (p : ι → CParser σ ε (α × ι)) (i : ι) : CParser σ ε (List α) := fun s =>
  loopF c p s.1.buf.length i s

/-- `while cur.remaining() >= k { out.push(p(cur)?) }`, for `k > 0` -/
def rows (k : Nat) (p : CParser σ ε α) : CParser σ ε (List α) :=
  loop (fun _ n => decide (k ≤ n)) (fun _ => do let a ← p; pure (a, ())) ()

section
variable {c : ι → Nat → Bool} {p : ι → CParser σ ε (α × ι)}

theorem loopF_ge (n : Nat) (i : ι) (s : Reader × σ) (hc : ∀ i, c i 0 = false) (h : s.1.buf.length ≤ n) :
    loopF c p n i s = loop c p i s := by
  suffices ∀ n m i (s : Reader × σ), s.1.buf.length ≤ n → s.1.buf.length ≤ m → loopF c p n i s = loopF c p m i s from
    this n s.1.buf.length i s h (Nat.le_refl _)
  clear h s n i
  intro n
  induction n with
  | zero =>
    intro m i s h1 h2
    have hb : s.1.buf.length = 0 := by omega
    cases m <;> simp [loopF, hb, hc]
  | succ n ih =>
    intro m i s h1 h2
    cases m with
    | zero =>
      have hb : s.1.buf.length = 0 := by omega
      simp [loopF, hb, hc]
    | succ m =>
      unfold loopF
      split
      · rcases p i s with ⟨⟨a, i'⟩ | e | x, s'⟩
        · simp only
          split
          · rw [ih m i' s' (by omega) (by omega)]
          · rfl
        · rfl
        · rfl
      · rfl

/-- the loop equation -/
theorem loop_eq (hc : ∀ i, c i 0 = false) (i : ι) (s : Reader × σ) :
    loop c p i s =
      if c i s.1.buf.length then
        match p i s with
        | (.ok (a, i'), s') =>
          if s'.1.buf.length < s.1.buf.length then
            match loop c p i' s' with
            | (.ok as, s'') => (.ok (a :: as), s'')
            | (.err e, s'') => (.err e, s'')
            | (.fault x, s'') => (.fault x, s'')
          else (.fault .hang, s')
        | (.err e, s') => (.err e, s')
        | (.fault x, s') => (.fault x, s')
      else (.ok [], s) := by
  show loopF c p s.1.buf.length i s = _
  by_cases hb : s.1.buf.length = 0
  · rw [hb, hc]; rfl
  · obtain ⟨n, hn⟩ : ∃ n, s.1.buf.length = n + 1 := ⟨s.1.buf.length - 1, by omega⟩
    rw [hn, loopF, hn]
    split
    · rcases p i s with ⟨⟨a, i'⟩ | e | x, s'⟩
      · simp only
        split
        · rw [loopF_ge n i' s' hc (by omega)]
        · rfl
      · rfl
      · rfl
    · rfl

theorem loop_stop (i : ι) (s : Reader × σ) (h : c i s.1.buf.length = false) : loop c p i s = (.ok [], s) := by
  show loopF c p s.1.buf.length i s = _
  cases hb : s.1.buf.length with
  | zero => rfl
  | succ n => rw [loopF, h]; rfl

theorem loop_cons (hc : ∀ i, c i 0 = false) {i i' : ι} {s s' : Reader × σ} {a : α} (h : c i s.1.buf.length = true)
    (hp : p i s = (.ok (a, i'), s')) (hl : s'.1.buf.length < s.1.buf.length) :
    loop c p i s = match loop c p i' s' with
      | (.ok as, s'') => (.ok (a :: as), s'')
      | (.err e, s'') => (.err e, s'')
      | (.fault x, s'') => (.fault x, s'') := by
  rw [loop_eq hc, if_pos h, hp]
  simp only
  rw [if_pos hl]

theorem loop_err (hc : ∀ i, c i 0 = false) {i : ι} {s s' : Reader × σ} {e : ε} (h : c i s.1.buf.length = true)
    (hp : p i s = (.err e, s')) : loop c p i s = (.err e, s') := by
  rw [loop_eq hc, if_pos h, hp]

/-- what a successful loop did, by induction over its iterations -/
theorem loop_ok_induction (hc : ∀ i, c i 0 = false) {Q : ι → Reader × σ → List α → Reader × σ → Prop}
    (stop : ∀ i s, c i s.1.buf.length = false → Q i s [] s)
    (cons : ∀ i s a i' s1 as s2, c i s.1.buf.length = true → p i s = (.ok (a, i'), s1) →
      s1.1.buf.length < s.1.buf.length → loop c p i' s1 = (.ok as, s2) → Q i' s1 as s2 → Q i s (a :: as) s2)
    {i : ι} {s s' : Reader × σ} {l : List α} (h : loop c p i s = (.ok l, s')) : Q i s l s' := by
  suffices ∀ n i s l, s.1.buf.length = n → loop c p i s = (.ok l, s') → Q i s l s' from this _ i s l rfl h
  clear h l s i
  intro n
  induction n using Nat.strongRecOn with
  | ind n ih =>
    intro i s l hn h
    by_cases hb : c i s.1.buf.length = true
    · rw [loop_eq hc, if_pos hb] at h
      rcases hp : p i s with ⟨⟨a, i'⟩ | e | x, s1⟩ <;> rw [hp] at h
      · simp only at h
        by_cases hl : s1.1.buf.length < s.1.buf.length
        · rw [if_pos hl] at h
          rcases hcc : loop c p i' s1 with ⟨as | e | x, s2⟩ <;> rw [hcc] at h
          · simp only [Prod.mk.injEq, Res.ok.injEq] at h
            obtain ⟨rfl, rfl⟩ := h
            exact cons i s a i' s1 as s2 hb hp hl hcc (ih _ (by omega) i' s1 as rfl hcc)
          · simp at h
          · simp at h
        · rw [if_neg hl] at h; simp at h
      · simp at h
      · simp at h
    · have hb' : c i s.1.buf.length = false := by simpa using hb
      rw [loop_stop i s hb'] at h
      simp only [Prod.mk.injEq, Res.ok.injEq] at h
      obtain ⟨rfl, rfl⟩ := h
      exact stop i s hb'

/-- a loop neither panics nor hangs if its body does not and always consumes something -/
theorem csafe_loop (hc : ∀ i, c i 0 = false)
    (h : ∀ i r g, c i r.buf.length = true → COut 1 r (p i (r, g))) (i : ι) : CSafe 0 (loop c p i) := by
  have key : ∀ n i (r : Reader) (g : σ), r.buf.length = n → COut 0 r (loop c p i (r, g)) := by
    intro n
    induction n using Nat.strongRecOn with
    | ind n ih =>
      intro i r g hr
      by_cases hb : c i r.buf.length = true
      · have h1 := h i r g hb
        rcases he : p i (r, g) with ⟨⟨a, i'⟩ | _ | _, ⟨r', g'⟩⟩ <;> rw [he] at h1
        · have hlt := Adv.length h1
          rw [loop_cons (s := (r, g)) hc hb he (by simp only at hlt ⊢; omega)]
          have h2 := ih _ (by simp only at hlt; omega) i' r' g' rfl
          rcases he2 : loop c p i' (r', g') with ⟨_ | _ | _, r''⟩ <;> rw [he2] at h2
          · exact (Adv.trans h1 h2).mono (by omega)
          · trivial
          · exact h2.elim
        · rw [loop_err (s := (r, g)) hc hb he]; trivial
        · exact h1.elim
      · rw [loop_stop i (r, g) (by simpa using hb)]; exact Adv.refl r
  exact ⟨fun r g => key _ i r g rfl⟩

/-- what a loop does to the context, whatever the outcome -/
theorem keeps_loop {R : σ → σ → Prop} (hr : ∀ g, R g g) (ht : ∀ {a b c}, R a b → R b c → R a c)
    (h : ∀ i, Keeps R (p i)) (i : ι) : Keeps R (loop c p i) := by
  have aux : ∀ n i s, R s.2 (loopF c p n i s).2.2 := by
    intro n
    induction n with
    | zero => intro i s; exact hr _
    | succ n ih =>
      intro i s
      unfold loopF
      by_cases hb : c i s.1.buf.length = true
      · rw [if_pos hb]
        have h1 := h i s
        rcases he : p i s with ⟨⟨a, i'⟩ | e | x, s'⟩ <;> rw [he] at h1 <;> simp only
        · by_cases hl : s'.1.buf.length < s.1.buf.length
          · rw [if_pos hl]
            have h2 := ih i' s'
            rcases he2 : loopF c p n i' s' with ⟨l | e | x, s''⟩ <;> rw [he2] at h2 <;> exact ht h1 h2
          · rw [if_neg hl]; exact h1
        · exact h1
        · exact h1
      · rw [if_neg hb]; exact hr _
  exact fun s => aux _ i s
end

/-! ## Rows -/
section
variable {k : Nat} {p : CParser σ ε α}

private theorem rows_cond (hk : 0 < k) : ∀ i : Unit, (fun (_ : Unit) n => decide (k ≤ n)) i 0 = false := by
  intro _; simpa using Nat.pos_iff_ne_zero.mp hk

theorem rows_body (s : Reader × σ) : (do let a ← p; pure (a, ()) : CParser σ ε (α × Unit)) s =
    match p s with
    | (.ok a, s') => (.ok (a, ()), s')
    | (.err e, s') => (.err e, s')
    | (.fault x, s') => (.fault x, s') := rfl

theorem rows_stop (s : Reader × σ) (h : s.1.buf.length < k) : rows k p s = (.ok [], s) :=
  loop_stop _ _ (by simpa using h)

theorem rows_cons {s s' : Reader × σ} {a : α} (hk : 0 < k) (h : k ≤ s.1.buf.length) (hp : p s = (.ok a, s'))
    (hl : s'.1.buf.length < s.1.buf.length) :
    rows k p s = match rows k p s' with
      | (.ok as, s'') => (.ok (a :: as), s'')
      | (.err e, s'') => (.err e, s'')
      | (.fault x, s'') => (.fault x, s'') :=
  loop_cons (rows_cond hk) (by simpa using h) (by rw [rows_body, hp]) hl

theorem rows_err {s s' : Reader × σ} {e : ε} (hk : 0 < k) (h : k ≤ s.1.buf.length) (hp : p s = (.err e, s')) :
    rows k p s = (.err e, s') :=
  loop_err (rows_cond hk) (by simpa using h) (by rw [rows_body, hp])

theorem rows_ok_induction (hk : 0 < k) {Q : Reader × σ → List α → Reader × σ → Prop}
    (stop : ∀ s, s.1.buf.length < k → Q s [] s)
    (cons : ∀ s a s1 as s2, k ≤ s.1.buf.length → p s = (.ok a, s1) → s1.1.buf.length < s.1.buf.length →
      rows k p s1 = (.ok as, s2) → Q s1 as s2 → Q s (a :: as) s2)
    {s s' : Reader × σ} {l : List α} (h : rows k p s = (.ok l, s')) : Q s l s' := by
  refine loop_ok_induction (rows_cond hk) (Q := fun _ => Q) (fun _ s hs => stop s (by simpa using hs)) ?_ h
  intro i s a i' s1 as s2 hc hp hl hr hq
  rw [rows_body] at hp
  rcases he : p s with ⟨b | e | x, s1'⟩ <;> rw [he] at hp
  · simp only [Prod.mk.injEq, Res.ok.injEq, and_true] at hp
    obtain ⟨rfl, rfl⟩ := hp
    exact cons s _ _ as s2 (by simpa using hc) he hl hr hq
  · simp at hp
  · simp at hp

/-- the rows read before the one that fails -/
theorem rows_err_induction (hk : 0 < k) {Q : Reader × σ → List α → Prop} {e : ε} {s' : Reader × σ}
    (here : ∀ s, k ≤ s.1.buf.length → p s = (.err e, s') → Q s [])
    (next : ∀ s a s1 l, k ≤ s.1.buf.length → p s = (.ok a, s1) → Q s1 l → Q s (a :: l))
    {s : Reader × σ} (h : rows k p s = (.err e, s')) : ∃ l, Q s l := by
  suffices ∀ n (s : Reader × σ), s.1.buf.length = n → rows k p s = (.err e, s') → ∃ l, Q s l from this _ s rfl h
  clear h s
  intro n
  induction n using Nat.strongRecOn with
  | ind n ih =>
    intro s hn h
    by_cases hb : k ≤ s.1.buf.length
    · rcases hp : p s with ⟨a | e' | x, s1⟩
      · by_cases hl : s1.1.buf.length < s.1.buf.length
        · rw [rows_cons hk hb hp hl] at h
          rcases hr : rows k p s1 with ⟨as | e' | x, s2⟩ <;> rw [hr] at h
          · simp at h
          · simp only [Prod.mk.injEq, Res.err.injEq] at h
            obtain ⟨rfl, rfl⟩ := h
            obtain ⟨l, hq⟩ := ih _ (by omega) s1 rfl hr
            exact ⟨_, next s a s1 l hb hp hq⟩
          · simp at h
        · unfold rows at h
          rw [loop_eq (rows_cond hk), if_pos (by simpa using hb), rows_body, hp] at h
          simp only [if_neg hl] at h
          simp at h
      · rw [rows_err hk hb hp] at h
        simp only [Prod.mk.injEq, Res.err.injEq] at h
        obtain ⟨rfl, rfl⟩ := h
        exact ⟨[], here s hb hp⟩
      · unfold rows at h
        rw [loop_eq (rows_cond hk), if_pos (by simpa using hb), rows_body, hp] at h
        simp at h
    · rw [rows_stop s (by omega)] at h; simp at h

theorem csafe_rows (hk : 0 < k) (h : ∀ r g, k ≤ r.buf.length → COut 1 r (p (r, g))) : CSafe 0 (rows k p) := by
  refine csafe_loop (rows_cond hk) (fun i r g hr => ?_) ()
  have := h r g (by simpa using hr)
  rw [rows_body]
  rcases he : p (r, g) with ⟨b | e | x, s1'⟩ <;> rw [he] at this <;> exact this

theorem keeps_rows {R : σ → σ → Prop} (hr : ∀ g, R g g) (ht : ∀ {a b c}, R a b → R b c → R a c) (h : Keeps R p) :
    Keeps R (rows k p) :=
  keeps_loop hr ht (fun _ => Keeps.bind (R := R) (fun h1 h2 => ht h1 h2) h fun _ => keeps_pure hr _) ()

/-- rows that were written one after the other; what follows is too short for another one -/
theorem crd_rows (hk : 0 < k) {I : σ → Prop} (w : α → Bytes) (l : List α) (hp : ∀ a ∈ l, CRd I I p a (w a))
    (hw : ∀ a ∈ l, k ≤ (w a).length) (rest : Bytes) (hrest : rest.length < k) (o : Nat) (g : σ) (hg : I g) :
    ∃ g', rows k p (⟨(l.map w).flatten ++ rest, o⟩, g) = (.ok l, (⟨rest, o + (l.map w).flatten.length⟩, g')) ∧ I g' := by
  induction l generalizing o g with
  | nil => exact ⟨g, by rw [rows_stop _ (by simpa using hrest)]; simp, hg⟩
  | cons a l ih =>
    obtain ⟨g1, h1, h2⟩ := hp a (by simp) ((l.map w).flatten ++ rest) o g hg
    obtain ⟨g2, h3, h4⟩ := ih (fun b hb => hp b (by simp [hb])) (fun b hb => hw b (by simp [hb])) (o + (w a).length) g1 h2
    have hl := hw a (by simp)
    refine ⟨g2, ?_, h4⟩
    rw [List.map_cons, List.flatten_cons, List.append_assoc,
      rows_cons hk (by simp only [List.length_append]; omega) h1 (by simp only [List.length_append]; omega), h3]
    simp [Nat.add_assoc]

theorem crdAll_rows (hk : 0 < k) {I : σ → Prop} (w : α → Bytes) (l : List α) (hp : ∀ a ∈ l, CRd I I p a (w a))
    (hw : ∀ a ∈ l, k ≤ (w a).length) : CRdAll I I (rows k p) l (l.map w).flatten := by
  intro o g hg
  obtain ⟨g', h1, h2⟩ := crd_rows hk w l hp hw [] (by simpa using hk) o g hg
  rw [List.append_nil] at h1
  exact ⟨g', h1, h2⟩
end

end CParser
end Verif
