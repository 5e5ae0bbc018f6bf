import Verif.Core.CRel
/-!
# Reading what was written, with a context that changes

`CReads` of `Core/Ctx` leaves the context as it is. Here it goes from one with `P` to one with `Q`.
-/
namespace Verif
open CParser

variable {σ ε ε' α β : Type} {P Q S : σ → Prop}

/-- `p` reads `a` from the octets `w` and leaves what follows -/
def CRd (P Q : σ → Prop) (p : CParser σ ε α) (a : α) (w : Bytes) : Prop :=
  ∀ rest o g, P g → ∃ g', p (⟨w ++ rest, o⟩, g) = (.ok a, (⟨rest, o + w.length⟩, g')) ∧ Q g'

/-- the same when nothing follows -/
def CRdAll (P Q : σ → Prop) (p : CParser σ ε α) (a : α) (w : Bytes) : Prop :=
  ∀ o g, P g → ∃ g', p (⟨w, o⟩, g) = (.ok a, (⟨[], o + w.length⟩, g')) ∧ Q g'

theorem CRd.all {p : CParser σ ε α} {a : α} {w : Bytes} (h : CRd P Q p a w) : CRdAll P Q p a w := by
  intro o g hg
  obtain ⟨g', h1, h2⟩ := h [] o g hg
  rw [List.append_nil] at h1
  exact ⟨g', h1, h2⟩

theorem CParser.CReads.crd {p : CParser σ ε α} {a : α} {w : Bytes} (h : CReads p a w) : CRd P P p a w :=
  fun rest o g hg => ⟨g, h.run rest o g, hg⟩
theorem CParser.CReadsAll.crd {p : CParser σ ε α} {a : α} {w : Bytes} (h : CReadsAll p a w) : CRdAll P P p a w :=
  fun o g hg => ⟨g, h.run o g, hg⟩
theorem crd_lift {p : Parser ε α} {a : α} {w : Bytes} (h : Reads p a w) : CRd P P (CParser.lift p) a w := (creads_lift h).crd
theorem crdAll_lift {p : Parser ε α} {a : α} {w : Bytes} (h : ReadsAll p a w) : CRdAll P P (CParser.lift p) a w :=
  (creadsAll_lift h).crd
theorem crd_pure (a : α) : CRd P P (pure a : CParser σ ε α) a [] := (creads_pure a).crd

theorem crd_modify {f : σ → σ} (h : ∀ g, P g → Q (f g)) : CRd P Q (CParser.modify f : CParser σ ε Unit) () [] :=
  fun _ _ g hg => ⟨f g, rfl, h g hg⟩

theorem CRd.bind {p : CParser σ ε α} {f : α → CParser σ ε β} {a : α} {b : β} {v w : Bytes} (hp : CRd P Q p a v)
    (hf : CRd Q S (f a) b w) : CRd P S (p >>= f) b (v ++ w) := by
  intro rest o g hg
  obtain ⟨g1, h1, h2⟩ := hp (w ++ rest) o g hg
  obtain ⟨g2, h3, h4⟩ := hf rest (o + v.length) g1 h2
  refine ⟨g2, ?_, h4⟩
  rw [List.append_assoc, bind_ok h1, h3]; simp [Nat.add_assoc]

theorem CRd.bind_nil {p : CParser σ ε α} {f : α → CParser σ ε β} {a : α} {b : β} {w : Bytes} (hp : CRd P Q p a [])
    (hf : CRd Q S (f a) b w) : CRd P S (p >>= f) b w := hp.bind hf

theorem CRd.bind_last {p : CParser σ ε α} {f : α → CParser σ ε β} {a : α} {b : β} {v : Bytes} (hp : CRd P Q p a v)
    (hf : CRd Q S (f a) b []) : CRd P S (p >>= f) b v := by
  have := hp.bind hf; rwa [List.append_nil] at this

theorem CRdAll.bind {p : CParser σ ε α} {f : α → CParser σ ε β} {a : α} {b : β} {v w : Bytes} (hp : CRd P Q p a v)
    (hf : CRdAll Q S (f a) b w) : CRdAll P S (p >>= f) b (v ++ w) := by
  intro o g hg
  obtain ⟨g1, h1, h2⟩ := hp w o g hg
  obtain ⟨g2, h3, h4⟩ := hf (o + v.length) g1 h2
  refine ⟨g2, ?_, h4⟩
  rw [bind_ok h1, h3]; simp [Nat.add_assoc]

theorem CRdAll.bind_nil {p : CParser σ ε α} {f : α → CParser σ ε β} {a : α} {b : β} {w : Bytes} (hp : CRd P Q p a [])
    (hf : CRdAll Q S (f a) b w) : CRdAll P S (p >>= f) b w := CRdAll.bind hp hf

theorem CRdAll.bind_all {p : CParser σ ε α} {f : α → CParser σ ε β} {a : α} {b : β} {w : Bytes} (hp : CRdAll P Q p a w)
    (hf : CRd Q S (f a) b []) : CRdAll P S (p >>= f) b w := by
  intro o g hg
  obtain ⟨g1, h1, h2⟩ := hp o g hg
  obtain ⟨g2, h3, h4⟩ := hf [] (o + w.length) g1 h2
  refine ⟨g2, ?_, h4⟩
  rw [bind_ok h1]; simpa using h3

theorem CRd.mapErr {p : CParser σ ε α} {a : α} {w : Bytes} (f : ε → ε') (h : CRd P Q p a w) :
    CRd P Q (CParser.mapErr f p) a w := by
  intro rest o g hg
  obtain ⟨g1, h1, h2⟩ := h rest o g hg
  exact ⟨g1, by rw [CParser.mapErr_run, h1]; rfl, h2⟩
theorem CRdAll.mapErr {p : CParser σ ε α} {a : α} {w : Bytes} (f : ε → ε') (h : CRdAll P Q p a w) :
    CRdAll P Q (CParser.mapErr f p) a w := by
  intro o g hg
  obtain ⟨g1, h1, h2⟩ := h o g hg
  exact ⟨g1, by rw [CParser.mapErr_run, h1]; rfl, h2⟩

theorem CRdAll.onSub {p : CParser σ ε α} {a : α} {v : Bytes} (h : CRdAll P Q p a v) (o : Nat) :
    CRd P Q (CParser.onSub ⟨v, o⟩ p) (a, ⟨[], o + v.length⟩) [] := by
  intro rest o' g hg
  obtain ⟨g1, h1, h2⟩ := h o g hg
  refine ⟨g1, ?_, h2⟩
  unfold CParser.onSub
  simp only
  rw [h1]; simp

theorem CRd.takeSlice {f : Reader → CParser σ ε β} {g : ParseError → ε} {v w : Bytes} {b : β} {n : Nat}
    (hn : v.length = n) (h : ∀ o, CRd P Q (f ⟨v, o⟩) b w) :
    CRd P Q (CParser.lift (Parser.mapErr g (Verif.takeSlice n)) >>= f) b (v ++ w) := by
  intro rest o c hc
  obtain ⟨g1, h1, h2⟩ := h o rest (o + n) c hc
  refine ⟨g1, ?_, h2⟩
  rw [bind_ok (s' := (⟨w ++ rest, o + n⟩, c)) (a := ⟨v, o⟩), h1]
  · simp [← hn, Nat.add_assoc]
  · rw [lift_run, List.append_assoc, Parser.mapErr_ok (takeSlice_append hn)]

theorem CRd.getOffset {f : Nat → CParser σ ε β} {b : β} {w : Bytes} (h : ∀ o, CRd P Q (f o) b w) :
    CRd P Q (CParser.lift Parser.getOffset >>= f) b w := by
  intro rest o g hg
  obtain ⟨g1, h1, h2⟩ := h o rest o g hg
  exact ⟨g1, by rw [bind_ok (p := CParser.lift Parser.getOffset) (s' := (⟨w ++ rest, o⟩, g)) (a := o) rfl, h1], h2⟩
theorem CRdAll.getOffset {f : Nat → CParser σ ε β} {b : β} {w : Bytes} (h : ∀ o, CRdAll P Q (f o) b w) :
    CRdAll P Q (CParser.lift Parser.getOffset >>= f) b w := by
  intro o g hg
  obtain ⟨g1, h1, h2⟩ := h o o g hg
  exact ⟨g1, by rw [bind_ok (p := CParser.lift Parser.getOffset) (s' := (⟨w, o⟩, g)) (a := o) rfl, h1], h2⟩

/-- the rest of the input is at least as long as what the following reads -/
theorem CRd.getRemaining {f : Nat → CParser σ ε β} {b : β} {w : Bytes} (h : ∀ n, w.length ≤ n → CRd P Q (f n) b w) :
    CRd P Q (CParser.lift Parser.getRemaining >>= f) b w := by
  intro rest o g hg
  obtain ⟨g1, h1, h2⟩ := h (w ++ rest).length (by simp) rest o g hg
  exact ⟨g1, by rw [bind_ok (p := CParser.lift Parser.getRemaining) (s' := (⟨w ++ rest, o⟩, g)) (a := (w ++ rest).length) rfl, h1], h2⟩

/-- a loop over a concatenation of encodings; the context goes through `I` -/
theorem crdAll_cmany {I : σ → Prop} {p : CParser σ ε (Option α)} (w : α → Bytes) (l : List α)
    (hp : ∀ a ∈ l, CRd I I p (some a) (w a)) (hne : ∀ a ∈ l, w a ≠ []) :
    CRdAll I I (CParser.cmany p) l (l.map w).flatten := by
  induction l with
  | nil => intro o g hg; exact ⟨g, by rw [cmany_nil _ _ (by simp)]; simp, hg⟩
  | cons a l ih =>
    intro o g hg
    obtain ⟨g1, h1, h2⟩ := hp a (by simp) (l.map w).flatten o g hg
    obtain ⟨g2, h3, h4⟩ := ih (fun b hb => hp b (by simp [hb])) (fun b hb => hne b (by simp [hb])) (o + (w a).length) g1 h2
    have hl := List.length_pos_iff.mpr (hne a (by simp))
    refine ⟨g2, ?_, h4⟩
    rw [List.map_cons, List.flatten_cons,
      cmany_cons (s := (⟨w a ++ (l.map w).flatten, o⟩, g)) (by simp [hne a (by simp)]) h1
        (by simp only [List.length_append]; omega), h3]
    simp [Nat.add_assoc]

theorem CRdAll.weaken {P' Q' : σ → Prop} {p : CParser σ ε α} {a : α} {w : Bytes} (h : CRdAll P Q p a w)
    (hP : ∀ g, P' g → P g) (hQ : ∀ g, Q g → Q' g) : CRdAll P' Q' p a w := by
  intro o g hg
  obtain ⟨g', e, h1⟩ := h o g (hP g hg)
  exact ⟨g', e, hQ g' h1⟩

end Verif
