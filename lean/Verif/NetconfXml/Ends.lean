import Verif.NetconfXml.Messages
/-!
# Reading messages ends

What functions of the parser are safe on: no faults, and the events left are a suffix of those that were there.
-/
namespace Verif.Xml
open Verif.Collector (Text)

/-- a closing tag, or where quick-xml gives an error -/
def Raw.stops : Raw → Bool
  | .close _ => true
  | .bad => true
  | _ => false

/-- behind each opening tag is a closing tag somewhere, or an error, and the values of its attributes are UTF-8 -/
def Doc : List Ev → Prop
  | [] => True
  | e :: es => (∀ q as, e.raw = .start q as → (∃ x ∈ es, x.raw.stops = true) ∧ ∀ a ∈ as, a.value.isSome = true) ∧ Doc es

theorem doc_suffix {a b : List Ev} (h : a <:+ b) (hb : Doc b) : Doc a := by
  induction b with
  | nil => rw [List.suffix_nil.1 h]; trivial
  | cons e b ih =>
    rcases List.suffix_cons_iff.1 h with rfl | h
    · exact hb
    · exact ih h hb.2

/-- from a state that meets a condition there is no fault, and what comes out well meets another -/
def T {α : Type} (Pre : St → Prop) (p : P α) (Q : α → St → Prop) : Prop :=
  ∀ s, Doc s.evs → Pre s → (p s).2.evs <:+ s.evs ∧ (match (p s).1 with | .ok a => Q a (p s).2 | .err _ => True | .fault _ => False)

theorem T.bind {α β : Type} {Pre : St → Prop} {p : P α} {Q : α → St → Prop} {f : α → P β} {R : β → St → Prop} (hp : T Pre p Q) (hf : ∀ a, T (Q a) (f a) R) : T Pre (p >>= f) R := by
  intro s hd hs
  obtain ⟨h1, h2⟩ := hp s hd hs
  show (match p s with | (.ok a, s') => f a s' | (.err e, s') => (.err e, s') | (.fault x, s') => (.fault x, s') : Res PErr β × St).2.evs <:+ s.evs ∧
    (match (match p s with | (.ok a, s') => f a s' | (.err e, s') => (.err e, s') | (.fault x, s') => (.fault x, s') : Res PErr β × St).1 with | .ok a => R a (match p s with | (.ok a, s') => f a s' | (.err e, s') => (.err e, s') | (.fault x, s') => (.fault x, s') : Res PErr β × St).2 | .err _ => True | .fault _ => False)
  rcases hps : p s with ⟨r, s'⟩
  rw [hps] at h1 h2
  cases r with
  | ok a =>
    obtain ⟨h3, h4⟩ := hf a s' (doc_suffix h1 hd) h2
    exact ⟨h3.trans h1, h4⟩
  | err e => exact ⟨h1, trivial⟩
  | fault x => exact h2.elim

theorem T.mono {α : Type} {Pre Pre' : St → Prop} {p : P α} {Q Q' : α → St → Prop} (h : T Pre p Q) (h1 : ∀ s, Pre' s → Pre s) (h2 : ∀ a s, Q a s → Q' a s) : T Pre' p Q' := by
  intro s hd hs
  obtain ⟨h3, h4⟩ := h s hd (h1 s hs)
  refine ⟨h3, ?_⟩
  cases hr : (p s).1 with
  | ok a => rw [hr] at h4; exact h2 _ _ h4
  | err e => trivial
  | fault x => rw [hr] at h4; exact h4

theorem T.pure {α : Type} {Q : α → St → Prop} (a : α) : T (Q a) (Pure.pure a : P α) Q := fun _ _ h => ⟨List.suffix_rfl, h⟩

theorem T.raise {α : Type} {Pre : St → Prop} {Q : α → St → Prop} (e : PErr) : T Pre (Xml.raise e : P α) Q := fun _ _ _ => ⟨List.suffix_rfl, trivial⟩

theorem T.lift {α : Type} {Q : St → Prop} (e : PErr) (o : Option α) : T Q (Xml.lift e o) (fun _ => Q) := by
  cases o with
  | some a => exact T.pure (Q := fun _ => Q) a
  | none => exact T.raise e

theorem T.map {α β : Type} {Pre : St → Prop} {p : P α} {Q : α → St → Prop} {R : β → St → Prop} (f : α → β) (hp : T Pre p Q) (h : ∀ a s, Q a s → R (f a) s) : T Pre (f <$> p) R :=
  hp.bind fun a => (T.pure (f a)).mono (h a) fun _ _ x => x

/-- at most so many events are left -/
def AtMost (n : Nat) (s : St) : Prop := s.evs.length ≤ n
/-- fewer events are left -/
def Fewer (n : Nat) (s : St) : Prop := s.evs.length < n
/-- an element was opened, and maybe its text was read: closing it leaves fewer events -/
def Inside (n : Nat) (s : St) : Prop := s.evs.length < n ∨ hasChild s.parents = false ∧ s.evs ≠ [] ∧ s.evs.length ≤ n
/-- an element was just opened -/
def Opened (n : Nat) (s : St) : Prop := Inside n s ∧ (hasChild s.parents = true → headBad s.evs = false ∧ ∃ x ∈ s.evs, x.raw.stops = true)

theorem fewer_atMost {n : Nat} {s : St} (h : Fewer n s) : AtMost n s := Nat.le_of_lt h
theorem inside_atMost {n : Nat} {s : St} (h : Inside n s) : AtMost n s := by
  rcases h with h | h
  · exact Nat.le_of_lt h
  · exact h.2.2
theorem opened_atMost {n : Nat} {s : St} (h : Opened n s) : AtMost n s := inside_atMost h.1

/-- safe in any state -/
def Safe {α : Type} (p : P α) : Prop := ∀ n, T (AtMost n) p fun _ => AtMost n
/-- safe and leaves fewer events -/
def Eats {α : Type} (p : P α) : Prop := ∀ n, T (AtMost n) p fun _ => Fewer n

theorem Eats.safe {α : Type} {p : P α} (h : Eats p) : Safe p := fun n => (h n).mono (fun _ x => x) fun _ _ => fewer_atMost

theorem Safe.bind {α β : Type} {p : P α} {f : α → P β} (hp : Safe p) (hf : ∀ a, Safe (f a)) : Safe (p >>= f) := fun n => (hp n).bind fun a => hf a n

theorem Safe.fewer {α : Type} {p : P α} (h : Safe p) (n : Nat) : T (Fewer n) p fun _ => Fewer n := by
  intro s hd hs
  obtain ⟨h1, h2⟩ := h s.evs.length s hd (Nat.le_refl _)
  refine ⟨h1, ?_⟩
  cases hr : (p s).1 with
  | ok a => rw [hr] at h2; exact Nat.lt_of_le_of_lt h2 hs
  | err e => trivial
  | fault x => rw [hr] at h2; exact h2

theorem Safe.of {α : Type} {p : P α} (h : ∀ s, Doc s.evs → (p s).2.evs <:+ s.evs ∧ ∀ x, (p s).1 ≠ .fault x) : Safe p := by
  intro n s hd hs
  obtain ⟨h1, h2⟩ := h s hd
  refine ⟨h1, ?_⟩
  cases hr : (p s).1 with
  | ok a => exact Nat.le_trans h1.length_le hs
  | err e => trivial
  | fault x => exact h2 x hr

theorem Safe.sub {α : Type} {p : P α} (h : Safe p) {s : St} (hd : Doc s.evs) : (p s).2.evs <:+ s.evs ∧ ∀ x, (p s).1 ≠ .fault x := by
  obtain ⟨h1, h2⟩ := h s.evs.length s hd (Nat.le_refl _)
  exact ⟨h1, fun x hx => by rw [hx] at h2; exact h2⟩

theorem safe_pure {α : Type} (a : α) : Safe (Pure.pure a : P α) := fun _ => T.pure (Q := fun _ => AtMost _) a
theorem safe_raise {α : Type} (e : PErr) : Safe (raise e : P α) := fun _ => T.raise e
theorem safe_lift {α : Type} (e : PErr) (o : Option α) : Safe (lift e o) := fun _ => T.lift e o
theorem safe_map {α β : Type} {p : P α} (f : α → β) (h : Safe p) : Safe (f <$> p) := fun n => (h n).map f fun _ _ x => x

theorem next_sub (s : St) : (next s).2.evs <:+ s.evs ∧ ∀ x, (next s).1 ≠ .fault x := by
  unfold next
  split
  · exact ⟨List.suffix_rfl, by simp⟩
  · next e es h =>
    split
    · exact ⟨List.suffix_rfl, by simp⟩
    · exact ⟨by rw [h]; exact List.suffix_cons _ _, by simp⟩

theorem next_less {s : St} {s' : St} (h : next s = (.ok (), s')) (hs : s.evs ≠ []) : s'.evs.length < s.evs.length := by
  unfold next at h
  split at h
  · next e => exact absurd e hs
  · next e es he =>
    split at h
    · simp at h
    · simp at h; subst h; rw [he]; simp

theorem readToEnd_suffix {q : QName} {d : Nat} {es r : List Ev} (h : readToEnd q d es = some r) : r <:+ es := by
  induction es generalizing d with
  | nil => simp [readToEnd] at h
  | cons e es ih =>
    unfold readToEnd at h
    split at h
    · simp at h
    · exact (ih h).trans (List.suffix_cons _ _)
    · split at h
      · split at h
        · simp at h; subst h; exact List.suffix_cons _ _
        · exact (ih h).trans (List.suffix_cons _ _)
      · exact (ih h).trans (List.suffix_cons _ _)
    · exact (ih h).trans (List.suffix_cons _ _)

/-- skipping that succeeds leaves fewer events -/
theorem eats_skip : Eats skip := by
  intro n s _ hs
  unfold AtMost at hs
  unfold skip
  split
  · exact ⟨List.suffix_rfl, trivial⟩
  · next e es he =>
    split
    · split
      · next r hr =>
        split
        · exact ⟨List.suffix_rfl, trivial⟩
        · have := readToEnd_suffix hr
          refine ⟨by rw [he]; exact this.trans (List.suffix_cons _ _), ?_⟩
          have hl := this.length_le
          rw [he] at hs
          simp only [List.length_cons] at hs
          show r.length < n
          omega
      · exact ⟨List.suffix_rfl, trivial⟩
    · exact ⟨List.suffix_rfl, trivial⟩
    · refine ⟨(next_sub s).1, ?_⟩
      cases hr : (next s).1 with
      | ok a =>
        have := next_less (s := s) (s' := (next s).2) (by rw [← hr]) (by rw [he]; simp)
        exact Nat.lt_of_lt_of_le this hs
      | err e => trivial
      | fault x => exact (next_sub s).2 x hr

theorem skipTextL_sub (es : List Ev) : (skipTextL es).2 <:+ es ∧ ∀ x, (skipTextL es).1 ≠ .fault x := by
  induction es with
  | nil => exact ⟨List.suffix_rfl, by simp [skipTextL]⟩
  | cons e es ih =>
    unfold skipTextL
    split
    · split
      · exact ⟨List.suffix_rfl, by simp⟩
      · exact ⟨ih.1.trans (List.suffix_cons _ _), ih.2⟩
    · exact ⟨List.suffix_rfl, by simp⟩

theorem safe_skipText : Safe skipText := Safe.of fun s _ => skipTextL_sub s.evs

theorem t_open (ns : Text) (key : String) (n : Nat) : T (AtMost n) (openTag ns key) fun _ => Opened n := by
  intro s hd hs
  unfold AtMost at hs
  unfold openTag
  split
  · exact ⟨List.suffix_rfl, trivial⟩
  · next e es he =>
    split
    · next q as hr =>
      split
      · refine ⟨List.suffix_rfl, .inr ⟨rfl, by rw [he]; simp, hs⟩, ?_⟩
        intro h; simp [hasChild] at h
      · exact ⟨List.suffix_rfl, trivial⟩
    · next q as hr =>
      split
      · split
        · exact ⟨List.suffix_rfl, trivial⟩
        · next hb =>
          rw [he] at hd hs
          simp only [List.length_cons] at hs
          refine ⟨by rw [he]; exact List.suffix_cons _ _, .inl (by show es.length < n; omega), fun _ => ⟨by simpa using hb, (hd.1 q as hr).1⟩⟩
      · exact ⟨List.suffix_rfl, trivial⟩
    · exact ⟨List.suffix_rfl, trivial⟩

theorem t_maybe (ns : Text) (key : String) (n : Nat) : T (AtMost n) (maybeOpen ns key) fun o s => (o.isSome → Opened n s) ∧ AtMost n s := by
  refine (safe_skipText n).bind fun _ => ?_
  intro s hd hs
  obtain ⟨h1, h2⟩ := t_open ns key n s hd hs
  simp only
  rcases ho : openTag ns key s with ⟨r, s'⟩
  rw [ho] at h1 h2
  have hl : AtMost n s' := Nat.le_trans h1.length_le hs
  cases r with
  | ok a => exact ⟨h1, fun _ => h2, hl⟩
  | err e =>
    cases e
    case recoverable => exact ⟨h1, by simp, hl⟩
    case wrongToken => exact ⟨h1, by simp, hl⟩
    all_goals exact ⟨h1, trivial⟩
  | fault x => exact h2.elim

theorem t_opens (ns : Text) (key : String) (n : Nat) : T (AtMost n) (opens ns key) fun o s => (o = true → Opened n s) ∧ AtMost n s := by
  intro s hd hs
  obtain ⟨h1, h2⟩ := t_maybe ns key n s hd hs
  unfold opens
  rcases ho : maybeOpen ns key s with ⟨r, s'⟩
  rw [ho] at h1 h2
  have hl : AtMost n s' := Nat.le_trans h1.length_le hs
  cases r with
  | ok a =>
    cases a with
    | some a => exact ⟨h1, fun _ => h2.1 rfl, hl⟩
    | none => exact ⟨h1, by simp, hl⟩
  | err e => exact ⟨h1, by simp, hl⟩
  | fault x => exact h2.elim

theorem tagStringL_sub (es : List Ev) : ∀ acc, headBad es = false → (∃ x ∈ es, x.raw.stops = true) → (tagStringL acc es).2 <:+ es ∧ ∀ x, (tagStringL acc es).1 ≠ .fault x := by
  induction es with
  | nil => intro acc _ h; obtain ⟨x, hx, _⟩ := h; simp at hx
  | cons e es ih =>
    intro acc hb hx
    have go : ∀ acc', e.raw.stops = false → (if headBad es then (Res.err PErr.reader, e :: es) else tagStringL acc' es : Res PErr Text × List Ev).2 <:+ e :: es ∧
        ∀ x, (if headBad es then (Res.err PErr.reader, e :: es) else tagStringL acc' es : Res PErr Text × List Ev).1 ≠ .fault x := by
      intro acc' hr
      split
      · exact ⟨List.suffix_rfl, by simp⟩
      · next hb' =>
        obtain ⟨x, hx, hs⟩ := hx
        rcases List.mem_cons.1 hx with rfl | hx
        · rw [hr] at hs; simp at hs
        · obtain ⟨h1, h2⟩ := ih acc' (by simpa using hb') ⟨x, hx, hs⟩
          exact ⟨h1.trans (List.suffix_cons _ _), h2⟩
    unfold tagStringL
    split
    · next h => exact go _ (by rw [h]; rfl)
    · next h => exact go _ (by rw [h]; rfl)
    · next h => exact go _ (by rw [h]; rfl)
    · exact ⟨List.suffix_rfl, by simp⟩
    · exact ⟨List.suffix_rfl, by simp⟩
    · refine ⟨List.suffix_rfl, ?_⟩; intro x; simp only; split <;> simp
    · refine ⟨List.suffix_rfl, ?_⟩; intro x; simp only; split <;> simp
    · next h1 h2 h3 h4 h5 h6 h7 =>
      refine go _ ?_
      simp only [headBad] at hb
      rcases hr : e.raw with _ <;> simp_all [Raw.stops]

theorem t_tagString (n : Nat) : T (Opened n) tagString fun _ => Inside n := by
  intro s _ hs
  unfold tagString
  split
  · next hc =>
    obtain ⟨hb, hx⟩ := hs.2 hc
    obtain ⟨h1, h2⟩ := tagStringL_sub s.evs [] hb hx
    refine ⟨h1, ?_⟩
    simp only
    cases hr : (tagStringL [] s.evs).1 with
    | ok a =>
      rcases hs.1 with h | h
      · exact .inl (Nat.lt_of_le_of_lt h1.length_le h)
      · rw [hc] at h; exact absurd h.1 (by simp)
    | err e => trivial
    | fault x => exact h2 x hr
  · exact ⟨List.suffix_rfl, hs.1⟩

theorem t_closeF (f : Nat) : ∀ n, T (fun s => s.evs.length < f ∧ AtMost n s) (closeF f) fun _ => Fewer n := by
  induction f with
  | zero => intro n s _ h; exact absurd h.1 (by omega)
  | succ f ih =>
    intro n s hd hs
    unfold closeF
    split
    · next q sc es he =>
      have hs1 : ({ s with parents := s.parents.tail } : St).evs = s.evs := rfl
      refine ⟨(next_sub { s with parents := s.parents.tail }).1, ?_⟩
      cases hr : (next { s with parents := s.parents.tail }).1 with
      | ok a =>
        have := next_less (s := { s with parents := s.parents.tail }) (s' := (next { s with parents := s.parents.tail }).2) (by rw [← hr]) (by rw [hs1, he]; simp)
        exact Nat.lt_of_lt_of_le this hs.2
      | err e => trivial
      | fault x => exact (next_sub { s with parents := s.parents.tail }).2 x hr
    · obtain ⟨h1, h2⟩ := eats_skip s.evs.length s hd (Nat.le_refl _)
      rcases hk : skip s with ⟨r, s'⟩
      rw [hk] at h1 h2
      cases r with
      | ok a =>
        have hl : s'.evs.length < s.evs.length := h2
        have hs2 : s.evs.length ≤ n := hs.2
        obtain ⟨h3, h4⟩ := ih n s' (doc_suffix h1 hd) ⟨by have := hs.1; omega, by show s'.evs.length ≤ n; omega⟩
        exact ⟨h3.trans h1, h4⟩
      | err e => exact ⟨h1, trivial⟩
      | fault x => exact h2.elim

/-- closing leaves fewer events -/
theorem t_close (n : Nat) : T (Inside n) close fun _ => Fewer n := by
  intro s hd hs
  unfold close
  split
  · exact t_closeF _ n s hd ⟨Nat.lt_succ_self _, inside_atMost hs⟩
  · refine ⟨(next_sub { s with parents := s.parents.tail }).1, ?_⟩
    cases hr : (next { s with parents := s.parents.tail }).1 with
    | ok a =>
      have hsub := (next_sub { s with parents := s.parents.tail }).1.length_le
      rcases hs with h | h
      · exact Nat.lt_of_le_of_lt hsub h
      · have := next_less (s := { s with parents := s.parents.tail }) (s' := (next { s with parents := s.parents.tail }).2) (by rw [← hr]) h.2.1
        exact Nat.lt_of_lt_of_le this h.2.2
    | err e => trivial
    | fault x => exact (next_sub { s with parents := s.parents.tail }).2 x hr

theorem safe_close : Safe close := by
  refine Safe.of fun s hd => ?_
  have : Inside (s.evs.length + 1) s := .inl (Nat.lt_succ_self _)
  obtain ⟨h1, h2⟩ := t_close _ s hd this
  exact ⟨h1, fun x hx => by rw [hx] at h2; exact h2⟩

theorem withNs_some {sc : Scope} {q : QName} {as : List Attr} (h : ∀ a ∈ as, a.value.isSome = true) : ∃ as', withNs sc q as = some as' := by
  unfold withNs
  have : (as.any fun a => a.value.isNone) = false := by
    rw [List.any_eq_false]; intro a ha; have := h a ha; cases hv : a.value <;> simp_all
  rw [this]
  simp only [Bool.false_eq_true, if_false]
  split
  · exact ⟨_, rfl⟩
  · split <;> exact ⟨_, rfl⟩

theorem copyL_sub (tag : String) (es : List Ev) : ∀ w, Doc es → (copyL tag w es).2 <:+ es ∧ ∀ x, (copyL tag w es).1 ≠ .fault x := by
  induction es with
  | nil => intro w _; exact ⟨List.suffix_rfl, by simp [copyL]⟩
  | cons e es ih =>
    intro w hd
    have go : ∀ w' r, (if headBad es then (Res.err PErr.reader, e :: es) else ((copyL tag w' es).1.map (r :: ·), (copyL tag w' es).2) : Res PErr (List Raw) × List Ev).2 <:+ e :: es ∧
        ∀ x, (if headBad es then (Res.err PErr.reader, e :: es) else ((copyL tag w' es).1.map (r :: ·), (copyL tag w' es).2) : Res PErr (List Raw) × List Ev).1 ≠ .fault x := by
      intro w' r
      split
      · exact ⟨List.suffix_rfl, by simp⟩
      · obtain ⟨h1, h2⟩ := ih w' hd.2
        refine ⟨h1.trans (List.suffix_cons _ _), ?_⟩
        intro x
        cases hr : (copyL tag w' es).1 with
        | ok a => simp [Res.map]
        | err a => simp [Res.map]
        | fault y => exact absurd hr (h2 y)
    unfold copyL
    split
    · split
      · exact ⟨List.suffix_rfl, by simp⟩
      · next hr _ => have := go w e.raw; rw [hr] at this; rw [hr]; exact this
    · next q as hr =>
      split
      · have := go w e.raw; rw [hr] at this; rw [hr]; exact this
      · obtain ⟨as', ha⟩ := withNs_some (sc := e.scope) (q := q) (hd.1 q as hr).2
        rw [ha]
        exact go true (.start q as')
    · exact go w e.raw

theorem safe_copyTill (tag : String) : Safe (copyTill tag) := by
  refine Safe.of fun s hd => ?_
  obtain ⟨h1, h2⟩ := copyL_sub tag s.evs false hd
  unfold copyTill
  rcases hc : copyL tag false s.evs with ⟨r, es⟩
  rw [hc] at h1 h2
  cases r with
  | ok rs => refine ⟨h1, ?_⟩; intro x; simp only; split <;> simp
  | err e => exact ⟨h1, by simp⟩
  | fault x => exact absurd rfl (h2 x)

theorem t_collectF {α : Type} {p : P α} (hp : Eats p) (f : Nat) : T (Fewer f) (collectF p f) fun _ _ => True := by
  induction f with
  | zero => intro s _ h; exact absurd h (by simp [Fewer])
  | succ f ih =>
    unfold collectF
    refine (safe_skipText.fewer (f + 1)).bind fun _ => ?_
    intro s hd hs
    have hs' : s.evs.length < f + 1 := hs
    obtain ⟨h1, h2⟩ := hp s.evs.length s hd (Nat.le_refl _)
    simp only
    rcases ho : p s with ⟨r, s'⟩
    rw [ho] at h1 h2
    cases r with
    | ok v =>
      have hl : s'.evs.length < s.evs.length := h2
      have hb : T (Fewer f) (do return v :: (← collectF p f) : P (List α)) fun _ _ => True := ih.bind fun a => (T.pure (Q := fun _ _ => True) _)
      obtain ⟨h3, h4⟩ := hb s' (doc_suffix h1 hd) (by show s'.evs.length < f; omega)
      exact ⟨h3.trans h1, h4⟩
    | err e =>
      cases e
      all_goals first
        | exact ⟨h1, trivial⟩
        | (simp only
           split
           · exact ⟨h1, trivial⟩
           · have hb : T (AtMost f) (do skip; collectF p f) fun _ _ => True := (eats_skip f).bind fun _ => ih
             obtain ⟨h3, h4⟩ := hb s' (doc_suffix h1 hd) (by have := h1.length_le; show s'.evs.length ≤ f; simp only at this; omega)
             exact ⟨h3.trans h1, h4⟩)
    | fault x => exact h2.elim

theorem safe_collect {α : Type} {p : P α} (hp : Eats p) : Safe (collect p) := by
  refine Safe.of fun s hd => ?_
  unfold collect
  split
  · obtain ⟨h1, h2⟩ := t_collectF hp _ s hd (Nat.lt_succ_self _)
    exact ⟨h1, fun x hx => by rw [hx] at h2; exact h2⟩
  · exact ⟨List.suffix_rfl, by simp⟩

theorem t_collectTagF {α : Type} {ns : Text} {tag : String} {p : P α} (hp : Eats p) (f : Nat) : T (Fewer f) (collectTagF ns tag p f) fun _ _ => True := by
  induction f with
  | zero => intro s _ h; exact absurd h (by simp [Fewer])
  | succ f ih =>
    unfold collectTagF
    refine (safe_skipText.fewer (f + 1)).bind fun _ => ?_
    intro s hd hs
    have hs' : s.evs.length < f + 1 := hs
    obtain ⟨h1, h2⟩ := hp s.evs.length s hd (Nat.le_refl _)
    simp only
    split
    · split
      · rcases ho : p s with ⟨r, s'⟩
        rw [ho] at h1 h2
        cases r with
        | ok v =>
          have hl : s'.evs.length < s.evs.length := h2
          have hb : T (Fewer f) (do return v :: (← collectTagF ns tag p f) : P (List α)) fun _ _ => True := ih.bind fun a => (T.pure (Q := fun _ _ => True) _)
          obtain ⟨h3, h4⟩ := hb s' (doc_suffix h1 hd) (by show s'.evs.length < f; omega)
          exact ⟨h3.trans h1, h4⟩
        | err e =>
          cases e
          case recoverable =>
            simp only
            split
            · exact ⟨h1, trivial⟩
            · have hb : T (AtMost f) (do skip; collectTagF ns tag p f) fun _ _ => True := (eats_skip f).bind fun _ => ih
              obtain ⟨h3, h4⟩ := hb s' (doc_suffix h1 hd) (by have := h1.length_le; show s'.evs.length ≤ f; simp only at this; omega)
              exact ⟨h3.trans h1, h4⟩
          all_goals exact ⟨h1, trivial⟩
        | fault x => exact h2.elim
      · exact ⟨List.suffix_rfl, trivial⟩
    · exact ⟨List.suffix_rfl, trivial⟩

theorem safe_collectTag {α : Type} {ns : Text} {tag : String} {p : P α} (hp : Eats p) : Safe (collectTag ns tag p) := by
  refine Safe.of fun s hd => ?_
  unfold collectTag
  split
  · obtain ⟨h1, h2⟩ := t_collectTagF hp _ s hd (Nat.lt_succ_self _)
    exact ⟨h1, fun x hx => by rw [hx] at h2; exact h2⟩
  · exact ⟨List.suffix_rfl, by simp⟩

theorem t_skipToInfoEnd (f : Nat) : T (Fewer f) (skipToInfoEnd f) fun _ _ => True := by
  induction f with
  | zero => intro s _ h; exact absurd h (by simp [Fewer])
  | succ f ih =>
    have hb : T (AtMost f) (do skip; skipToInfoEnd f : P Unit) fun _ _ => True := (eats_skip f).bind fun _ => ih
    intro s hd hs
    have hs' : AtMost f s := Nat.le_of_lt_succ hs
    unfold skipToInfoEnd
    split
    · split
      · exact ⟨List.suffix_rfl, trivial⟩
      · exact hb s hd hs'
    · exact hb s hd hs'

end Verif.Xml
