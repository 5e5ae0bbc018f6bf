import Verif.NetconfXml.Spec
import Verif.NetconfXml.RoundTripAll
/-!
# What XML says of what is written
-/
namespace Verif.Xml
open Verif.Collector (Text)

theorem said_textOf (t : Text) (l : List Raw) : said (textOf t ++ l) = (said l).map (t ++ ·) := by
  unfold textOf; split
  · next h => rw [List.isEmpty_iff] at h; subst h; simp
  · simp [said]

theorem said_lex (t acc : Text) : said (lex none acc (escape t)) = some (acc ++ t) := by
  induction t generalizing acc with
  | nil => simp only [escape, lex, List.append_nil]; have := said_textOf acc []; simpa [said] using this
  | cons c t ih =>
    have key : ∀ (r : Text) (d : Char), (∀ x ∈ r, x ≠ ';' ∧ x ≠ '&' ∧ x ≠ '<') → refersTo r = some [d] →
        said (lex none acc ('&' :: (r ++ ';' :: escape t))) = some (acc ++ d :: t) := by
      intro r d hr hd
      have : lex none acc ('&' :: (r ++ ';' :: escape t)) = textOf acc ++ .ref r :: lex none [] (escape t) := by
        show textOf acc ++ lex (some []) [] (r ++ ';' :: escape t) = _
        rw [lex_ref _ _ _ hr]; simp
      rw [this, said_textOf]
      simp [said, hd, ih]
    by_cases h1 : c = '<'
    · subst h1; exact key ['l', 't'] _ (by decide) rfl
    by_cases h2 : c = '>'
    · subst h2; exact key ['g', 't'] _ (by decide) rfl
    by_cases h3 : c = '&'
    · subst h3; exact key ['a', 'm', 'p'] _ (by decide) rfl
    by_cases h4 : c = '\''
    · subst h4; exact key ['a', 'p', 'o', 's'] _ (by decide) rfl
    by_cases h5 : c = '"'
    · subst h5; exact key ['q', 'u', 'o', 't'] _ (by decide) rfl
    rw [escape_other _ h1 h2 h3 h4 h5, lex_char _ _ h3 h1]
    have := ih (acc ++ [c])
    simpa using this

theorem said_written (t : Text) : said (written t) = some t := said_lex t []

/-- the parser takes predefined references for what they are -/
theorem refText_predefined {r x : Text} (h : predefined r = some x) : refText r = x ∧ refersTo r = some x := by
  have : r = ['l', 't'] ∨ r = ['g', 't'] ∨ r = ['a', 'm', 'p'] ∨ r = ['a', 'p', 'o', 's'] ∨ r = ['q', 'u', 'o', 't'] := by
    unfold predefined at h
    split at h <;> simp_all
  rcases this with rfl | rfl | rfl | rfl | rfl <;> simp [predefined] at h <;> subst h <;> exact ⟨rfl, rfl⟩

/-- the loop of `tag_string` over text with predefined references -/
theorem tagStringL_said : ∀ (es : List Ev) (v acc : Text), said (es.map (·.raw)) = some v → (∀ r, Raw.ref r ∈ es.map (·.raw) → (predefined r).isSome) →
    ∀ {e : Ev} {rest : List Ev}, (∃ q, e.raw = .close q) → tagStringL acc (es ++ e :: rest) = (.ok (acc ++ v), e :: rest) := by
  intro es
  induction es with
  | nil =>
    intro v acc hv _ e rest ⟨q, he⟩
    simp [said] at hv; subst hv
    simp [tagStringL, he]
  | cons x es ih =>
    intro v acc hv hr e rest he
    obtain ⟨raw, sc⟩ := x
    have hr' : ∀ r, Raw.ref r ∈ es.map (·.raw) → (predefined r).isSome := fun r h => hr r (by simp only [List.map_cons]; exact List.mem_cons_of_mem _ h)
    have hb : ∀ w, said (es.map (·.raw)) = some w → headBad (es ++ e :: rest) = false := by
      intro w hw
      cases es with
      | nil => obtain ⟨q, he⟩ := he; simp [headBad, he]
      | cons y es =>
        obtain ⟨ry, sy⟩ := y
        cases ry <;> simp [headBad, said] at hw ⊢
    simp only [List.map_cons] at hv
    cases raw with
    | text t =>
      simp only [said, Option.map_eq_some_iff] at hv
      obtain ⟨w, hw, rfl⟩ := hv
      simp [tagStringL, hb w hw, ih w (acc ++ t) hw hr' he]
    | cdata t =>
      simp only [said, Option.map_eq_some_iff] at hv
      obtain ⟨w, hw, rfl⟩ := hv
      simp [tagStringL, hb w hw, ih w (acc ++ t) hw hr' he]
    | ref r =>
      obtain ⟨y, hy⟩ := Option.isSome_iff_exists.1 (hr r (by simp))
      obtain ⟨h1, h2⟩ := refText_predefined hy
      simp only [said, h2, Option.bind_some, Option.map_eq_some_iff] at hv
      obtain ⟨w, hw, rfl⟩ := hv
      simp [tagStringL, hb w hw, h1, ih w (acc ++ y) hw hr' he]
    | comment t =>
      simp only [said] at hv
      simp [tagStringL, hb v hv, ih v acc hv hr' he]
    | other =>
      simp only [said] at hv
      simp [tagStringL, hb v hv, ih v acc hv hr' he]
    | _ => simp [said] at hv

theorem bal_said : ∀ {l : List Raw} {v : Text}, said l = some v → Bal l := by
  intro l
  induction l with
  | nil => intro _ _; exact .nil
  | cons r l ih =>
    intro v h
    cases r with
    | text t => simp only [said, Option.map_eq_some_iff] at h; obtain ⟨w, hw, _⟩ := h; exact .single rfl (ih hw)
    | cdata t => simp only [said, Option.map_eq_some_iff] at h; obtain ⟨w, hw, _⟩ := h; exact .single rfl (ih hw)
    | ref t =>
      simp only [said, Option.bind_eq_some_iff, Option.map_eq_some_iff] at h
      obtain ⟨_, _, w, hw, _⟩ := h; exact .single rfl (ih hw)
    | comment t => exact .single rfl (ih h)
    | other => exact .single rfl (ih h)
    | _ => simp [said] at h

/-- an element with text -/
theorem readText_said (name : String) {l : List Raw} {v : Text} (h : said l = some v) (hr : ∀ r, Raw.ref r ∈ l → (predefined r).isSome) :
    run (readText name) (annotate [] (element name l)) = .ok v := by
  unfold run element
  rw [headBad_start]
  simp only [Bool.false_eq_true, if_false]
  suffices H : ∃ s, readText name ⟨annotate [] (.start ⟨none, name⟩ [⟨⟨none, "xmlns"⟩, some nsNetconf⟩] :: (l ++ [.close ⟨none, name⟩])), []⟩ = (.ok v, s) by
    obtain ⟨s, hs⟩ := H; rw [hs]
  refine ⟨⟨[], []⟩, ?_⟩
  refine (bind_ok (open_start (by rfl) (fine_bal (bal_said h)))).trans ?_
  obtain ⟨es, h1, h2⟩ := annotate_bal (bal_said h) [((⟨none, name⟩ : QName), declared [⟨⟨none, "xmlns"⟩, some nsNetconf⟩] ++ Stack.scope [])]
  have ht : tagString ⟨annotate [((⟨none, name⟩ : QName), declared [⟨⟨none, "xmlns"⟩, some nsNetconf⟩] ++ Stack.scope [])] (l ++ [.close ⟨none, name⟩]), [true]⟩ =
      (.ok v, ⟨annotate [((⟨none, name⟩ : QName), declared [⟨⟨none, "xmlns"⟩, some nsNetconf⟩] ++ Stack.scope [])] [.close ⟨none, name⟩], [true]⟩) := by
    rw [h2, annotate_close]
    have := tagStringL_said es v [] (by rw [h1]; exact h) (by rw [h1]; exact hr) (e := ⟨.close ⟨none, name⟩, declared [⟨⟨none, "xmlns"⟩, some nsNetconf⟩] ++ Stack.scope []⟩)
      (rest := annotate [] []) ⟨_, rfl⟩
    simp only [tagString, hasChild, if_true, this, List.nil_append]
  refine (bind_ok ht).trans ?_
  exact (bind_ok (close_here rfl)).trans rfl

theorem balanced_bal {c : List Raw} (h : Bal c) : ∀ (st : List QName) (R : List Raw), balanced st (c ++ R) = balanced st R := by
  induction h with
  | nil => intro st R; rfl
  | @single r c hr _ ih =>
    intro st R
    rw [List.cons_append, ← ih st R]
    cases r <;> simp [Raw.single] at hr <;> cases st <;> rfl
  | tag q as _ _ iha ihb =>
    intro st R
    rw [List.cons_append, List.append_assoc]
    have : ∀ l, balanced st (.start q as :: l) = balanced (q :: st) l := by intro l; cases st <;> rfl
    rw [this, iha, List.cons_append]
    simp [balanced, ihb]

theorem balanced_of_bal {c : List Raw} (h : Bal c) : balanced [] c = true := by
  have := balanced_bal h [] []; simpa [balanced] using this

/-- content that is well formed is balanced as the proofs use it -/
theorem bal_of_balanced : ∀ (n : Nat) (c : List Raw), c.length ≤ n → ∀ (st : List QName), balanced st c = true →
    (st = [] → Bal c) ∧ (∀ q st', st = q :: st' → ∃ a b, c = a ++ .close q :: b ∧ Bal a ∧ balanced st' b = true) := by
  intro n
  induction n with
  | zero =>
    intro c hc st h
    have : c = [] := List.length_eq_zero_iff.1 (by omega)
    subst this
    cases st with
    | nil => exact ⟨fun _ => .nil, by simp⟩
    | cons q st => simp [balanced] at h
  | succ n ih =>
    intro c hc st h
    cases c with
    | nil =>
      cases st with
      | nil => exact ⟨fun _ => .nil, by simp⟩
      | cons q st => simp [balanced] at h
    | cons r c =>
      simp only [List.length_cons] at hc
      have single : r.single = true → (st = [] → Bal (r :: c)) ∧ (∀ q st', st = q :: st' → ∃ a b, r :: c = a ++ .close q :: b ∧ Bal a ∧ balanced st' b = true) := by
        intro hr
        have h' : balanced st c = true := by rw [← h]; cases r <;> simp [Raw.single] at hr <;> cases st <;> rfl
        obtain ⟨h1, h2⟩ := ih c (by omega) st h'
        refine ⟨fun e => .single hr (h1 e), fun q st' e => ?_⟩
        obtain ⟨a, b, rfl, ha, hb⟩ := h2 q st' e
        exact ⟨r :: a, b, rfl, .single hr ha, hb⟩
      cases r with
      | start p as =>
        have h' : balanced (p :: st) c = true := by rw [← h]; cases st <;> rfl
        obtain ⟨a, b, rfl, ha, hb⟩ := (ih c (by omega) (p :: st) h').2 p st rfl
        simp only [List.length_append, List.length_cons] at hc
        obtain ⟨h1, h2⟩ := ih b (by omega) st hb
        refine ⟨fun e => .tag p as ha (h1 e), fun q st' e => ?_⟩
        obtain ⟨a', b', rfl, ha', hb'⟩ := h2 q st' e
        exact ⟨.start p as :: (a ++ .close p :: a'), b', by simp, .tag p as ha ha', hb'⟩
      | close p =>
        cases st with
        | nil => simp [balanced] at h
        | cons q st =>
          simp [balanced] at h
          obtain ⟨rfl, h⟩ := h
          refine ⟨by simp, fun q' st' e => ?_⟩
          simp at e; obtain ⟨rfl, rfl⟩ := e
          exact ⟨[], c, rfl, .nil, h⟩
      | bad => cases st <;> simp [balanced] at h
      | _ => exact single rfl

theorem bal_iff {c : List Raw} : Bal c ↔ balanced [] c = true := ⟨balanced_of_bal, fun h => (bal_of_balanced c.length c (Nat.le_refl _) [] h).1 rfl⟩

end Verif.Xml
