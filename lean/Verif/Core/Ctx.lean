import Verif.Core.Reads
import Verif.Core.Safe
import Verif.Core.Inv
/-!
# Parsers with a mutable context

`fn parse(cur: &mut SliceReader, ctx: &mut Ctx) -> Result<α, ε>` where parsing also changes the context (the list of
ignored errors of a `BgpParsingContext`). The context afterwards is part of the result also when parsing fails.
-/
namespace Verif
open Parser
variable {σ ε ε' α β : Type}

/-- a parser that also updates a context of type `σ` -/
abbrev CParser (σ ε α : Type) : Type := Reader × σ → Res ε α × (Reader × σ)

namespace CParser

protected def pure (a : α) : CParser σ ε α := fun s => (.ok a, s)
protected def bind (p : CParser σ ε α) (f : α → CParser σ ε β) : CParser σ ε β := fun s =>
  match p s with
  | (.ok a, s') => f a s'
  | (.err e, s') => (.err e, s')
  | (.fault x, s') => (.fault x, s')

instance : Monad (CParser σ ε) where
  pure := CParser.pure
  bind := CParser.bind

/-- a parser that leaves the context alone -/
def lift (p : Parser ε α) : CParser σ ε α := fun s =>
  let x := p s.1; (x.1, (x.2, s.2))
/-- `return Err(e)` -/
def fail (e : ε) : CParser σ ε α := fun s => (.err e, s)
/-- `?` with a `From` conversion of the error -/
def mapErr (f : ε → ε') (p : CParser σ ε α) : CParser σ ε' α := fun s =>
  let x := p s; (x.1.mapErr f, x.2)
/-- an update of the context -/
def modify (f : σ → σ) : CParser σ ε Unit := fun s => (.ok (), (s.1, f s.2))
/-- run `p` on a sub-reader, with the same context; the outer cursor is not touched -/
def onSub (sub : Reader) (p : CParser σ ε α) : CParser σ ε (α × Reader) := fun s =>
  match p (sub, s.2) with
  | (.ok a, (sub', g)) => (.ok (a, sub'), (s.1, g))
  | (.err e, (_, g)) => (.err e, (s.1, g))
  | (.fault x, (_, g)) => (.fault x, (s.1, g))
/-- `match p(cur) { Ok(a) => .., Err(e) => .. }`: the error is a value for the continuation -/
def attempt (p : Parser ε α) : CParser σ ε' (Except ε α) := fun s =>
  match p s.1 with
  | (.ok a, r) => (.ok (.ok a), (r, s.2))
  | (.err e, r) => (.ok (.error e), (r, s.2))
  | (.fault x, r) => (.fault x, (r, s.2))

theorem bind_ok {p : CParser σ ε α} {f : α → CParser σ ε β} {s s' : Reader × σ} {a : α}
    (h : p s = (.ok a, s')) : (p >>= f) s = f a s' := by
  show CParser.bind p f s = _
  rw [CParser.bind, h]
theorem bind_err {p : CParser σ ε α} {f : α → CParser σ ε β} {s s' : Reader × σ} {e : ε}
    (h : p s = (.err e, s')) : (p >>= f) s = (.err e, s') := by
  show CParser.bind p f s = _
  rw [CParser.bind, h]
theorem bind_fault {p : CParser σ ε α} {f : α → CParser σ ε β} {s s' : Reader × σ} {x : Fault}
    (h : p s = (.fault x, s')) : (p >>= f) s = (.fault x, s') := by
  show CParser.bind p f s = _
  rw [CParser.bind, h]
@[simp] theorem pure_run (a : α) (s : Reader × σ) : (pure a : CParser σ ε α) s = (.ok a, s) := rfl
@[simp] theorem fail_run (e : ε) (s : Reader × σ) : (fail e : CParser σ ε α) s = (.err e, s) := rfl
@[simp] theorem modify_run (f : σ → σ) (s : Reader × σ) :
    (modify f : CParser σ ε Unit) s = (.ok (), (s.1, f s.2)) := rfl
theorem lift_run (p : Parser ε α) (r : Reader) (g : σ) :
    (lift p : CParser σ ε α) (r, g) = ((p r).1, ((p r).2, g)) := rfl
theorem mapErr_run (f : ε → ε') (p : CParser σ ε α) (s : Reader × σ) :
    mapErr f p s = ((p s).1.mapErr f, (p s).2) := rfl

theorem bind_eq_ok {p : CParser σ ε α} {f : α → CParser σ ε β} {s s'' : Reader × σ} {b : β}
    (h : (p >>= f) s = (.ok b, s'')) : ∃ a s', p s = (.ok a, s') ∧ f a s' = (.ok b, s'') := by
  rcases hp : p s with ⟨a | e | x, s'⟩
  · rw [bind_ok hp] at h; exact ⟨a, s', rfl, h⟩
  · rw [bind_err hp] at h; simp at h
  · rw [bind_fault hp] at h; simp at h

theorem lift_eq_ok {p : Parser ε α} {s s' : Reader × σ} {a : α}
    (h : (lift p : CParser σ ε α) s = (.ok a, s')) : p s.1 = (.ok a, s'.1) ∧ s'.2 = s.2 := by
  obtain ⟨r, g⟩ := s
  rw [lift_run] at h
  obtain ⟨h1, rfl⟩ := Prod.mk.injEq .. ▸ h
  exact ⟨Prod.ext h1 rfl, rfl⟩

theorem mapErr_eq_ok {f : ε → ε'} {p : CParser σ ε α} {s s' : Reader × σ} {a : α}
    (h : mapErr f p s = (.ok a, s')) : p s = (.ok a, s') := by
  rw [mapErr_run] at h
  rcases hp : p s with ⟨a | e | x, s1⟩ <;> rw [hp] at h
  · simpa [Res.mapErr] using h
  · simp [Res.mapErr] at h
  · simp [Res.mapErr] at h

theorem onSub_eq_ok {sub sub' : Reader} {p : CParser σ ε α} {s s' : Reader × σ} {a : α}
    (h : onSub sub p s = (.ok (a, sub'), s')) : p (sub, s.2) = (.ok a, (sub', s'.2)) ∧ s'.1 = s.1 := by
  unfold onSub at h
  rcases hp : p (sub, s.2) with ⟨b | e | x, ⟨r1, g1⟩⟩ <;> rw [hp] at h
  · simp only [Prod.mk.injEq, Res.ok.injEq] at h
    obtain ⟨⟨rfl, rfl⟩, rfl⟩ := h
    exact ⟨rfl, rfl⟩
  · simp at h
  · simp at h

/-- `cmany` below with an explicit bound on the number of iterations -/
def cmanyF (p : CParser σ ε (Option α)) : Nat → CParser σ ε (List α)
  | 0, s => (.ok [], s)
  | n + 1, s =>
    if s.1.buf = [] then (.ok [], s)
    else
      match p s with
      | (.ok a, s') =>
        if s'.1.buf.length < s.1.buf.length then
          match cmanyF p n s' with
          | (.ok as, s'') => (.ok (a.toList ++ as), s'')
          | (.err e, s'') => (.err e, s'')
          | (.fault x, s'') => (.fault x, s'')
        else (.fault .hang, s')
      | (.err e, s') => (.err e, s')
      | (.fault x, s') => (.fault x, s')

/-- `while !cur.is_empty() { .. }` with a body that may push an element to the result and may change the context.
An iteration that consumes nothing is reported as `hang`, as in `parseAll`. -/
def cmany (p : CParser σ ε (Option α)) : CParser σ ε (List α) := fun s => cmanyF p s.1.buf.length s

theorem cmanyF_ge (p : CParser σ ε (Option α)) (n : Nat) (s : Reader × σ) (h : s.1.buf.length ≤ n) :
    cmanyF p n s = cmany p s := by
  suffices ∀ n m (s : Reader × σ), s.1.buf.length ≤ n → s.1.buf.length ≤ m → cmanyF p n s = cmanyF p m s from
    this n s.1.buf.length s h (Nat.le_refl _)
  clear h s n
  intro n
  induction n with
  | zero =>
    intro m s h1 h2
    have hb : s.1.buf = [] := List.length_eq_zero_iff.mp (by omega)
    cases m <;> simp [cmanyF, hb]
  | succ n ih =>
    intro m s h1 h2
    cases m with
    | zero =>
      have hb : s.1.buf = [] := List.length_eq_zero_iff.mp (by omega)
      simp [cmanyF, hb]
    | succ m =>
      unfold cmanyF
      split
      · rfl
      · rcases p s with ⟨a | e | x, s'⟩
        · simp only
          split
          · rw [ih m s' (by omega) (by omega)]
          · rfl
        · rfl
        · rfl

/-- the loop equation -/
theorem cmany_eq (p : CParser σ ε (Option α)) (s : Reader × σ) :
    cmany p s = if s.1.buf = [] then (.ok [], s)
      else
        match p s with
        | (.ok a, s') =>
          if s'.1.buf.length < s.1.buf.length then
            match cmany p s' with
            | (.ok as, s'') => (.ok (a.toList ++ as), s'')
            | (.err e, s'') => (.err e, s'')
            | (.fault x, s'') => (.fault x, s'')
          else (.fault .hang, s')
        | (.err e, s') => (.err e, s')
        | (.fault x, s') => (.fault x, s') := by
  show cmanyF p s.1.buf.length s = _
  by_cases hb : s.1.buf = []
  · rw [if_pos hb]
    have : s.1.buf.length = 0 := by rw [hb]; rfl
    rw [this]; rfl
  · rw [if_neg hb]
    obtain ⟨n, hn⟩ : ∃ n, s.1.buf.length = n + 1 :=
      ⟨s.1.buf.length - 1, by have := List.length_pos_iff.mpr hb; omega⟩
    rw [hn, cmanyF, if_neg hb]
    rcases p s with ⟨a | e | x, s'⟩
    · simp only [hn]
      split
      · rw [cmanyF_ge p n s' (by omega)]
      · rfl
    · rfl
    · rfl

theorem cmany_nil (p : CParser σ ε (Option α)) (s : Reader × σ) (h : s.1.buf = []) : cmany p s = (.ok [], s) := by
  rw [cmany_eq, if_pos h]

theorem cmany_cons {p : CParser σ ε (Option α)} {s s' : Reader × σ} {a : Option α} (h : s.1.buf ≠ [])
    (hp : p s = (.ok a, s')) (hl : s'.1.buf.length < s.1.buf.length) :
    cmany p s = match cmany p s' with
      | (.ok as, s'') => (.ok (a.toList ++ as), s'')
      | (.err e, s'') => (.err e, s'')
      | (.fault x, s'') => (.fault x, s'') := by
  rw [cmany_eq, if_neg h, hp]
  simp only
  rw [if_pos hl]

theorem cmany_err {p : CParser σ ε (Option α)} {s s' : Reader × σ} {e : ε} (h : s.1.buf ≠ [])
    (hp : p s = (.err e, s')) : cmany p s = (.err e, s') := by
  rw [cmany_eq, if_neg h, hp]

/-- what a successful loop did, by induction over its iterations -/
theorem cmany_ok_induction {p : CParser σ ε (Option α)} {Q : Reader × σ → List α → Reader × σ → Prop}
    (nil : ∀ s, s.1.buf = [] → Q s [] s)
    (cons : ∀ s a s1 as s2, s.1.buf ≠ [] → p s = (.ok a, s1) → s1.1.buf.length < s.1.buf.length →
      cmany p s1 = (.ok as, s2) → Q s1 as s2 → Q s (a.toList ++ as) s2)
    {s s' : Reader × σ} {l : List α} (h : cmany p s = (.ok l, s')) : Q s l s' := by
  suffices ∀ n s l, s.1.buf.length = n → cmany p s = (.ok l, s') → Q s l s' from this _ s l rfl h
  clear h l s
  intro n
  induction n using Nat.strongRecOn with
  | ind n ih =>
    intro s l hn h
    by_cases hb : s.1.buf = []
    · rw [cmany_nil p s hb] at h
      simp only [Prod.mk.injEq, Res.ok.injEq] at h
      obtain ⟨rfl, rfl⟩ := h
      exact nil s hb
    · rw [cmany_eq, if_neg hb] at h
      rcases hp : p s with ⟨a | e | x, s1⟩ <;> rw [hp] at h
      · simp only at h
        by_cases hl : s1.1.buf.length < s.1.buf.length
        · rw [if_pos hl] at h
          rcases hc : cmany p s1 with ⟨as | e | x, s2⟩ <;> rw [hc] at h
          · simp only [Prod.mk.injEq, Res.ok.injEq] at h
            obtain ⟨rfl, rfl⟩ := h
            exact cons s a s1 as s2 hb hp hl hc (ih _ (by omega) s1 as rfl hc)
          · simp at h
          · simp at h
        · rw [if_neg hl] at h; simp at h
      · simp at h
      · simp at h

/-- where a failing loop failed -/
theorem cmany_err_induction {p : CParser σ ε (Option α)} {Q : Reader × σ → Prop} {e : ε} {s' : Reader × σ}
    (here : ∀ s, s.1.buf ≠ [] → p s = (.err e, s') → Q s)
    (next : ∀ s a s1, s.1.buf ≠ [] → p s = (.ok a, s1) → Q s1 → Q s)
    {s : Reader × σ} (h : cmany p s = (.err e, s')) : Q s := by
  suffices ∀ n s, s.1.buf.length = n → cmany p s = (.err e, s') → Q s from this _ s rfl h
  clear h s
  intro n
  induction n using Nat.strongRecOn with
  | ind n ih =>
    intro s hn h
    by_cases hb : s.1.buf = []
    · rw [cmany_nil p s hb] at h; simp at h
    · rw [cmany_eq, if_neg hb] at h
      rcases hp : p s with ⟨a | e1 | x, s1⟩ <;> rw [hp] at h
      · simp only at h
        by_cases hl : s1.1.buf.length < s.1.buf.length
        · rw [if_pos hl] at h
          rcases hc : cmany p s1 with ⟨as | e2 | x, s2⟩ <;> rw [hc] at h
          · simp at h
          · simp only [Prod.mk.injEq, Res.err.injEq] at h
            obtain ⟨rfl, rfl⟩ := h
            exact next s a s1 hb hp (ih _ (by omega) s1 rfl hc)
          · simp at h
        · rw [if_neg hl] at h; simp at h
      · simp only [Prod.mk.injEq, Res.err.injEq] at h
        obtain ⟨rfl, rfl⟩ := h
        exact here s hb hp
      · simp at h

/-! ## Safety -/

/-- an acceptable outcome: an error, or success after consuming at least `k` octets -/
def COut (k : Nat) (r : Reader) : Res ε α × (Reader × σ) → Prop
  | (.ok _, s) => Adv k r s.1
  | (.err _, _) => True
  | (.fault _, _) => False

/-- as `Safe`, whatever the context -/
structure CSafe (k : Nat) (p : CParser σ ε α) : Prop where
  out : ∀ r g, COut k r (p (r, g))

theorem CSafe.noFault {k : Nat} {p : CParser σ ε α} (h : CSafe k p) (s : Reader × σ) :
    (p s).1.isFault = false := by
  have := h.out s.1 s.2
  rcases hp : p s with ⟨_ | _ | _, _⟩ <;> rw [show (s.1, s.2) = s from rfl, hp] at this
  · rfl
  · rfl
  · exact this.elim

theorem CSafe.mono {j k : Nat} {p : CParser σ ε α} (h : CSafe k p) (hjk : j ≤ k) : CSafe j p := by
  refine ⟨fun r g => ?_⟩
  have := h.out r g
  rcases hp : p (r, g) with ⟨_ | _ | _, _⟩ <;> rw [hp] at this
  · exact Adv.mono this hjk
  · trivial
  · exact this.elim

theorem CSafe.zero {k : Nat} {p : CParser σ ε α} (h : CSafe k p) : CSafe 0 p := h.mono (Nat.zero_le _)

theorem csafe_pure (a : α) : CSafe 0 (pure a : CParser σ ε α) := ⟨fun r _ => Adv.refl r⟩
theorem csafe_fail (k : Nat) (e : ε) : CSafe k (fail e : CParser σ ε α) := ⟨fun _ _ => trivial⟩
theorem csafe_modify (f : σ → σ) : CSafe 0 (modify f : CParser σ ε Unit) := ⟨fun r _ => Adv.refl r⟩
theorem csafe_lift {k : Nat} {p : Parser ε α} (h : Safe k p) : CSafe k (lift p : CParser σ ε α) := by
  refine ⟨fun r g => ?_⟩
  have := h.out r
  rw [lift_run]
  rcases hp : p r with ⟨_ | _ | _, _⟩ <;> rw [hp] at this
  · exact this
  · trivial
  · exact this.elim

theorem csafe_bind' {j k : Nat} {p : CParser σ ε α} {f : α → CParser σ ε β} (hp : CSafe j p)
    (hf : ∀ r g a s', p (r, g) = (.ok a, s') → COut k s'.1 (f a s')) : CSafe (j + k) (p >>= f) := by
  refine ⟨fun r g => ?_⟩
  have h1 := hp.out r g
  rcases he : p (r, g) with ⟨a | _ | _, s'⟩ <;> rw [he] at h1
  · have h2 := hf r g a s' he
    rw [bind_ok he]
    rcases he2 : f a s' with ⟨_ | _ | _, r''⟩ <;> rw [he2] at h2
    · exact Adv.trans h1 h2
    · trivial
    · exact h2.elim
  · rw [bind_err he]; trivial
  · exact h1.elim

theorem csafe_bind {j k : Nat} {p : CParser σ ε α} {f : α → CParser σ ε β} (hp : CSafe j p)
    (hf : ∀ a, CSafe k (f a)) : CSafe (j + k) (p >>= f) :=
  csafe_bind' hp fun _ _ a s' _ => (hf a).out s'.1 s'.2

theorem csafe_bind_l {k : Nat} {p : CParser σ ε α} {f : α → CParser σ ε β} (hp : CSafe k p)
    (hf : ∀ a, CSafe 0 (f a)) : CSafe k (p >>= f) := csafe_bind hp hf
theorem csafe_bind_r {k : Nat} {p : CParser σ ε α} {f : α → CParser σ ε β} (hp : CSafe 0 p)
    (hf : ∀ a, CSafe k (f a)) : CSafe k (p >>= f) := by
  have := csafe_bind hp hf; rwa [Nat.zero_add] at this

theorem csafe_mapErr {k : Nat} (g : ε → ε') {p : CParser σ ε α} (h : CSafe k p) : CSafe k (mapErr g p) := by
  refine ⟨fun r c => ?_⟩
  have := h.out r c
  rw [mapErr_run]
  rcases he : p (r, c) with ⟨_ | _ | _, _⟩ <;> rw [he] at this
  · exact this
  · trivial
  · exact this.elim

theorem csafe_ite {k : Nat} {c : Prop} [Decidable c] {p q : CParser σ ε α} (hp : c → CSafe k p)
    (hq : ¬ c → CSafe k q) : CSafe k (if c then p else q) := by
  split
  · exact hp ‹_›
  · exact hq ‹_›

theorem csafe_onSub {k : Nat} (sub : Reader) {p : CParser σ ε α} (h : CSafe k p) : CSafe 0 (onSub sub p) := by
  refine ⟨fun r g => ?_⟩
  have := h.out sub g
  show COut 0 r (onSub sub p (r, g))
  unfold onSub
  rcases he : p (sub, g) with ⟨_ | _ | _, ⟨r', g'⟩⟩ <;> rw [he] at this
  · exact Adv.refl r
  · trivial
  · exact this.elim

theorem csafe_cmany {p : CParser σ ε (Option α)} (h : ∀ r g, r.buf ≠ [] → COut 1 r (p (r, g))) :
    CSafe 0 (cmany p) := by
  have key : ∀ n (r : Reader) (g : σ), r.buf.length = n → COut 0 r (cmany p (r, g)) := by
    intro n
    induction n using Nat.strongRecOn with
    | ind n ih =>
      intro r g hr
      by_cases hb : r.buf = []
      · rw [cmany_nil _ _ hb]; exact Adv.refl r
      · have h1 := h r g hb
        rcases he : p (r, g) with ⟨a | _ | _, ⟨r', g'⟩⟩ <;> rw [he] at h1
        · have hlt := Adv.length h1
          rw [cmany_cons (s := (r, g)) hb he (by simp only at hlt ⊢; omega)]
          have h2 := ih _ (by simp only at hlt; omega) r' g' rfl
          rcases he2 : cmany p (r', g') with ⟨_ | _ | _, r''⟩ <;> rw [he2] at h2
          · exact (Adv.trans h1 h2).mono (by omega)
          · trivial
          · exact h2.elim
        · rw [cmany_err (s := (r, g)) hb he]; trivial
        · exact h1.elim
  exact ⟨fun r g => key _ r g rfl⟩

/-! ## Round trip -/

/-- `p` reads `a` from the octets `w`, leaving what follows and the context -/
structure CReads (p : CParser σ ε α) (a : α) (w : Bytes) : Prop where
  run : ∀ rest o g, p (⟨w ++ rest, o⟩, g) = (.ok a, (⟨rest, o + w.length⟩, g))

/-- the same when nothing follows -/
structure CReadsAll (p : CParser σ ε α) (a : α) (w : Bytes) : Prop where
  run : ∀ o g, p (⟨w, o⟩, g) = (.ok a, (⟨[], o + w.length⟩, g))

theorem CReads.all {p : CParser σ ε α} {a : α} {w : Bytes} (h : CReads p a w) : CReadsAll p a w :=
  ⟨fun o g => by simpa using h.run [] o g⟩

theorem creads_lift {p : Parser ε α} {a : α} {w : Bytes} (h : Reads p a w) :
    CReads (lift p : CParser σ ε α) a w := ⟨fun rest o g => by rw [lift_run, h.run]⟩

theorem creadsAll_lift {p : Parser ε α} {a : α} {w : Bytes} (h : ReadsAll p a w) :
    CReadsAll (lift p : CParser σ ε α) a w := ⟨fun o g => by rw [lift_run, h.run]⟩

theorem creads_pure (a : α) : CReads (pure a : CParser σ ε α) a [] := ⟨fun rest o g => by simp⟩

theorem CReads.bind {p : CParser σ ε α} {f : α → CParser σ ε β} {a : α} {b : β} {v w : Bytes}
    (hp : CReads p a v) (hf : CReads (f a) b w) : CReads (p >>= f) b (v ++ w) :=
  ⟨fun rest o g => by
    rw [List.append_assoc, bind_ok (hp.run _ _ _), hf.run]; simp [Nat.add_assoc]⟩

theorem CReads.bind_last {p : CParser σ ε α} {f : α → CParser σ ε β} {a : α} {b : β} {v : Bytes}
    (hp : CReads p a v) (hf : CReads (f a) b []) : CReads (p >>= f) b v := by
  have := hp.bind hf; rwa [List.append_nil] at this

theorem CReads.mapErr {p : CParser σ ε α} {a : α} {w : Bytes} (f : ε → ε') (h : CReads p a w) :
    CReads (CParser.mapErr f p) a w := ⟨fun rest o g => by rw [mapErr_run, h.run]; rfl⟩

theorem CReadsAll.mapErr {p : CParser σ ε α} {a : α} {w : Bytes} (f : ε → ε') (h : CReadsAll p a w) :
    CReadsAll (CParser.mapErr f p) a w := ⟨fun o g => by rw [mapErr_run, h.run]; rfl⟩

theorem CReadsAll.bind {p : CParser σ ε α} {f : α → CParser σ ε β} {a : α} {b : β} {v w : Bytes}
    (hp : CReads p a v) (hf : CReadsAll (f a) b w) : CReadsAll (p >>= f) b (v ++ w) :=
  ⟨fun o g => by rw [bind_ok (hp.run _ _ _), hf.run]; simp [Nat.add_assoc]⟩

theorem CReadsAll.bind_all {p : CParser σ ε α} {f : α → CParser σ ε β} {a : α} {b : β} {w : Bytes}
    (hp : CReadsAll p a w) (hf : CReads (f a) b []) : CReadsAll (p >>= f) b w :=
  ⟨fun o g => by
    rw [bind_ok (hp.run _ _)]
    have := hf.run [] (o + w.length) g
    simpa using this⟩

theorem creads_onSub {p : CParser σ ε α} {a : α} {v : Bytes} (h : CReadsAll p a v) (o : Nat) :
    CReads (onSub ⟨v, o⟩ p) (a, ⟨[], o + v.length⟩) [] :=
  ⟨fun rest o' g => by unfold onSub; rw [h.run]; simp⟩

theorem CReads.onSub {p : CParser σ ε α} {f : α × Reader → CParser σ ε β} {a : α} {b : β} {v w : Bytes} {o : Nat}
    (h : CReadsAll p a v) (hf : ∀ s', CReads (f (a, s')) b w) : CReads (CParser.onSub ⟨v, o⟩ p >>= f) b w :=
  (creads_onSub h o).bind (hf _)

theorem CReadsAll.onSub {p : CParser σ ε α} {f : α × Reader → CParser σ ε β} {a : α} {b : β} {v w : Bytes} {o : Nat}
    (h : CReadsAll p a v) (hf : ∀ s', CReadsAll (f (a, s')) b w) : CReadsAll (CParser.onSub ⟨v, o⟩ p >>= f) b w :=
  CReadsAll.bind (creads_onSub h o) (hf _)

theorem CReads.takeSlice {f : Reader → CParser σ ε β} {g : ParseError → ε} {v w : Bytes} {b : β} {n : Nat}
    (hn : v.length = n) (h : ∀ o, CReads (f ⟨v, o⟩) b w) :
    CReads (lift (Parser.mapErr g (Verif.takeSlice n)) >>= f) b (v ++ w) :=
  ⟨fun rest o c => by
    rw [bind_ok (s' := (⟨w ++ rest, o + n⟩, c)) (a := ⟨v, o⟩), (h o).run]
    · simp [← hn, Nat.add_assoc]
    · rw [lift_run, List.append_assoc, Parser.mapErr_ok (takeSlice_append hn)]⟩

theorem CReadsAll.takeSlice {f : Reader → CParser σ ε β} {g : ParseError → ε} {v w : Bytes} {b : β} {n : Nat}
    (hn : v.length = n) (h : ∀ o, CReadsAll (f ⟨v, o⟩) b w) :
    CReadsAll (lift (Parser.mapErr g (Verif.takeSlice n)) >>= f) b (v ++ w) :=
  ⟨fun o c => by
    rw [bind_ok (s' := (⟨w, o + n⟩, c)) (a := ⟨v, o⟩), (h o).run]
    · simp [← hn, Nat.add_assoc]
    · rw [lift_run, Parser.mapErr_ok (takeSlice_append hn)]⟩

theorem CReads.getOffset {f : Nat → CParser σ ε β} {b : β} {w : Bytes} (h : ∀ o, CReads (f o) b w) :
    CReads (lift Parser.getOffset >>= f) b w :=
  ⟨fun rest o g => by rw [bind_ok (p := lift Parser.getOffset) (s' := (⟨w ++ rest, o⟩, g)) (a := o) rfl, (h o).run]⟩

theorem CReads.peekU8 {f : UInt8 → CParser σ ε β} {g : ParseError → ε} {x : UInt8} {b : β} {w : Bytes}
    (h : CReads (f x) b (x :: w)) : CReads (lift (Parser.mapErr g Verif.peekU8) >>= f) b (x :: w) :=
  ⟨fun rest o c => by
    rw [bind_ok (p := lift (Parser.mapErr g Verif.peekU8)) (s' := (⟨x :: w ++ rest, o⟩, c)) (a := x) rfl, h.run]⟩

theorem creads_attempt {p : Parser ε α} {a : α} {w : Bytes} (h : Reads p a w) :
    CReads (attempt p : CParser σ ε' (Except ε α)) (.ok a) w :=
  ⟨fun rest o g => by
    show attempt p (⟨w ++ rest, o⟩, g) = _
    unfold attempt
    rw [show ((⟨w ++ rest, o⟩, g) : Reader × σ).1 = ⟨w ++ rest, o⟩ from rfl, h.run]⟩

theorem attempt_ok {p : Parser ε α} {r r' : Reader} {a : α} (h : p r = (.ok a, r')) (g : σ) :
    (attempt p : CParser σ ε' (Except ε α)) (r, g) = (.ok (.ok a), (r', g)) := by
  unfold attempt; rw [show ((r, g) : Reader × σ).1 = r from rfl, h]
theorem attempt_err {p : Parser ε α} {r r' : Reader} {e : ε} (h : p r = (.err e, r')) (g : σ) :
    (attempt p : CParser σ ε' (Except ε α)) (r, g) = (.ok (.error e), (r', g)) := by
  unfold attempt; rw [show ((r, g) : Reader × σ).1 = r from rfl, h]
theorem attempt_fault {p : Parser ε α} {r r' : Reader} {x : Fault} (h : p r = (.fault x, r')) (g : σ) :
    (attempt p : CParser σ ε' (Except ε α)) (r, g) = (.fault x, (r', g)) := by
  unfold attempt; rw [show ((r, g) : Reader × σ).1 = r from rfl, h]

/-- a loop over a concatenation of encodings -/
theorem creadsAll_cmany {p : CParser σ ε (Option α)} (w : α → Bytes) (l : List α)
    (hp : ∀ a ∈ l, CReads p (some a) (w a)) (hne : ∀ a ∈ l, w a ≠ []) :
    CReadsAll (cmany p) l (l.map w).flatten := by
  induction l with
  | nil => exact ⟨fun o g => by rw [cmany_nil _ _ (by simp)]; simp⟩
  | cons a l ih =>
    have h1 := hp a (by simp)
    have h2 := hne a (by simp)
    have h3 := ih (fun b hb => hp b (by simp [hb])) (fun b hb => hne b (by simp [hb]))
    refine ⟨fun o g => ?_⟩
    have hl := List.length_pos_iff.mpr h2
    rw [List.map_cons, List.flatten_cons,
      cmany_cons (s := (⟨w a ++ (l.map w).flatten, o⟩, g)) (by simp [h2]) (h1.run _ _ _)
        (by simp only [List.length_append]; omega), h3.run]
    simp [Nat.add_assoc]

end CParser
end Verif
