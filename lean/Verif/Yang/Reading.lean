import Verif.Yang.Lemmas
/-! # Keywords, arguments and other statements that are well written are read -/
namespace Verif.Yang

/-! ## Keywords -/

/-- what may come after a word: what is no part of it, and below 128 -/
def WordEnd (t : List Char) : Prop := ∀ c ∈ t.head?, c.toNat < 128 ∧ ¬WordChar c

theorem WordChar.ascii {c : Char} (h : WordChar c) : 45 ≤ c.toNat ∧ c.toNat < 127 := by
  rw [wordChar_iff] at h; omega

theorem peekTail_word (k : Classes) {w t : List Char} (hw : ∀ c ∈ w, WordChar c ∧ c ≠ ':') (ht : ∀ c ∈ t.head?, c.toNat < 128 ∧ ¬(WordChar c ∧ c ≠ ':')) :
    peekTail k (w ++ t) = .ok w := by
  induction w with
  | nil =>
    cases t with
    | nil => rfl
    | cons c t =>
      obtain ⟨h1, h2⟩ := ht c rfl
      obtain ⟨b, e, eb⟩ := utf8_ascii h1
      simp only [List.nil_append, peekTail, e]
      rw [if_neg (by rw [identByte_iff k h1 eb]; exact h2)]
  | cons c w ih =>
    have hc := hw c List.mem_cons_self
    have h1 : c.toNat < 128 := by have := hc.1.ascii; omega
    obtain ⟨b, e, eb⟩ := utf8_ascii h1
    simp only [List.cons_append, peekTail, e]
    rw [if_pos ((identByte_iff k h1 eb).mpr hc), ih fun x hx => hw x (List.mem_cons_of_mem _ hx)]
    rfl

/-- the part of a word before its first colon -/
theorem colon_split (w : List Char) : ∃ w₁ w₂, w = w₁ ++ w₂ ∧ (∀ c ∈ w₁, c ≠ ':') ∧ (∀ c ∈ w₂.head?, c = ':') := by
  induction w with
  | nil => exact ⟨[], [], rfl, by simp, by simp⟩
  | cons c w ih =>
    by_cases h : c = ':'
    · exact ⟨[], c :: w, rfl, by simp, by simp [h]⟩
    · obtain ⟨w₁, w₂, rfl, h1, h2⟩ := ih
      refine ⟨c :: w₁, w₂, rfl, ?_, h2⟩
      intro d hd
      rcases List.mem_cons.mp hd with rfl | hd
      · exact h
      · exact h1 d hd

theorem peekIdentifier_word (k : Classes) {w₁ t : List Char} {c : Char} (h : Letter c ∨ c = '_') (hw : ∀ d ∈ w₁, WordChar d ∧ d ≠ ':')
    (ht : ∀ d ∈ t.head?, d.toNat < 128 ∧ ¬(WordChar d ∧ d ≠ ':')) : peekIdentifier k (c :: w₁ ++ t) = .ok (some (c :: w₁)) := by
  have h1 : c.toNat < 128 := by
    rcases h with h | rfl
    · rw [letter_iff] at h; omega
    · decide
  obtain ⟨b, e, eb⟩ := utf8_ascii h1
  simp only [List.cons_append, peekIdentifier, e]
  rw [if_pos ((firstByte_iff k h1 eb).mpr h), peekTail_word k hw ht]
  rfl

theorem match_word (k : Classes) {keyword w t : List Char} (hk : ':' ∉ keyword) (hw : Word w) (ht : WordEnd t) :
    matchKeyword k keyword (w ++ t) = .ok (if w = keyword ∧ endsKeyword k t = true then some t else none) := by
  obtain ⟨⟨c, hc, hl⟩, hall⟩ := hw
  obtain ⟨w₁, w₂, rfl, h1, h2⟩ := colon_split w
  cases w₁ with
  | nil =>
    exfalso
    have := h2 c hc
    subst this
    rcases hl with hl | hl
    · rw [letter_iff] at hl; exact absurd hl (by decide)
    · cases hl
  | cons c' w₁ =>
    cases hc
    have hp : peekIdentifier k (c :: w₁ ++ w₂ ++ t) = .ok (some (c :: w₁)) := by
      rw [List.append_assoc]
      refine peekIdentifier_word k hl (fun d hd => ⟨hall d (by simp [hd]), h1 d (List.mem_cons_of_mem _ hd)⟩) ?_
      intro d hd
      cases w₂ with
      | nil => exact ⟨(ht d hd).1, fun h => (ht d hd).2 h.1⟩
      | cons d' w₂ =>
        cases hd
        exact ⟨by have := h2 d rfl; subst this; decide, fun h => h.2 (h2 d rfl)⟩
    unfold matchKeyword
    rw [hp]
    simp only [Except.map, Option.some.injEq]
    congr 1
    cases w₂ with
    | nil =>
      rw [List.append_nil]
      by_cases e : c :: w₁ = keyword
      · subst e
        simp [List.drop_left']
      · rw [if_neg (fun h => e h.1), if_neg (fun h => e h.1)]
    | cons d w₂ =>
      have := h2 d rfl
      subst this
      rw [if_neg, if_neg]
      · rintro ⟨e, _⟩; exact hk (by rw [← e]; simp)
      · rintro ⟨e, he⟩
        rw [← e, List.append_assoc, List.drop_left' rfl] at he
        cases he

theorem match_sign (k : Classes) {keyword t : List Char} {c : Char} (h : c.toNat < 128) (hl : ¬Letter c) (hu : c ≠ '_') : matchKeyword k keyword (c :: t) = .ok none := by
  obtain ⟨b, e, eb⟩ := utf8_ascii h
  unfold matchKeyword
  simp only [peekIdentifier, e]
  rw [if_neg (by rw [firstByte_iff k h eb]; exact fun x => x.elim hl hu)]
  rfl

/-! ## Arguments -/

theorem takeWhile_word (k : Classes) {w t : List Char} (hw : ∀ c ∈ w, WordChar c) (ht : WordEnd t) : (w ++ t).takeWhile k.goesOn = w ∧ (w ++ t).dropWhile k.goesOn = t := by
  induction w with
  | nil =>
    cases t with
    | nil => exact ⟨rfl, rfl⟩
    | cons c t =>
      obtain ⟨h1, h2⟩ := ht c rfl
      have : k.goesOn c = false := by rw [← Bool.not_eq_true, goesOn_iff k h1]; exact h2
      simp [this]
  | cons c w ih =>
    have hc := hw c List.mem_cons_self
    have : k.goesOn c = true := (goesOn_iff k (by have := hc.ascii; omega)).mpr hc
    simp only [List.cons_append, List.takeWhile_cons, List.dropWhile_cons, this, if_true]
    exact ⟨by rw [(ih fun x hx => hw x (List.mem_cons_of_mem _ hx)).1], (ih fun x hx => hw x (List.mem_cons_of_mem _ hx)).2⟩

theorem readIdentifier_name (k : Classes) {w t : List Char} (hw : Name w) (ht : WordEnd t) : readIdentifier k (w ++ t) = some (w, t) := by
  obtain ⟨⟨c, hc, hl⟩, hall⟩ := hw
  cases w with
  | nil => cases hc
  | cons d w =>
    cases hc
    have ha : c.toNat < 128 := by have := (hall c List.mem_cons_self).ascii; omega
    obtain ⟨h1, h2⟩ := takeWhile_word k (fun x hx => hall x (List.mem_cons_of_mem _ hx)) ht
    simp only [List.cons_append, readIdentifier]
    rw [if_pos, h1, h2]
    simp only [Bool.or_eq_true, alpha_iff k ha, numeric_iff k ha, decide_eq_true_eq]
    rcases hl with hl | hl | hl
    · rw [letter_iff] at hl; omega
    · exact .inl (.inr hl)
    · rw [digit_iff] at hl; exact .inr hl

theorem readDouble_double {v t r : List Char} (h : Double v t) : readDouble (t ++ '"' :: r) = (some v, r) := by
  induction h with
  | nil => rfl
  | plain h1 h2 _ ih =>
    rename_i c v t _
    rw [List.cons_append, readDouble.eq_def]
    split
    · rename_i e; cases e
    · rename_i e; cases e; exact absurd rfl h1
    · rename_i e; exact absurd (List.cons.inj e).1 h2
    · rename_i e; exact absurd (List.cons.inj e).1 h2
    · rename_i e; cases e; rw [ih]; rfl
  | newline _ ih => simp only [List.cons_append, readDouble]; rw [ih]; rfl
  | tab _ ih => simp only [List.cons_append, readDouble]; rw [ih]; rfl
  | quote _ ih => simp only [List.cons_append, readDouble]; rw [ih]; rfl
  | backslash _ ih => simp only [List.cons_append, readDouble]; rw [ih]; rfl

theorem readSingle_single {v r : List Char} (h : '\'' ∉ v) : readSingle (v ++ '\'' :: r) = (some v, r) := by
  induction v with
  | nil => rfl
  | cons c v ih =>
    rw [List.cons_append, readSingle.eq_def]
    split
    · rename_i e; cases e
    · rename_i e; cases e; exact absurd List.mem_cons_self h
    · rename_i e; cases e; rw [ih (fun x => h (List.mem_cons_of_mem _ x))]; rfl

/-- what ends arguments -/
def Ender (e : Char) : Prop := e = ';' ∨ e = '{'

theorem Ender.solid {e : Char} (h : Ender e) (r : List Char) : Solid (e :: r) := by
  rcases h with rfl | rfl <;> exact ⟨_, r, rfl, by decide, by decide, fun h => absurd h (by decide)⟩

theorem plus_solid (r : List Char) : Solid ('+' :: r) := ⟨_, r, rfl, by decide, by decide, fun h => absurd h (by decide)⟩

theorem Quoted.solid {v t : List Char} (h : Quoted v t) (r : List Char) : Solid (t ++ r) := by
  cases h <;> exact ⟨_, _, rfl, by decide, by decide, fun h => absurd h (by decide)⟩

theorem Quoted.ne {v t : List Char} (h : Quoted v t) : t ≠ [] := by cases h <;> simp

theorem Strings.solid {v t : List Char} (h : Strings v t) (r : List Char) : Solid (t ++ r) := by
  cases h with
  | one h => exact h.solid r
  | more h _ _ _ => simp only [List.append_assoc]; exact h.solid _

theorem Sep.wordEnd {s t : List Char} (h : Sep s) (ht : WordEnd t) : WordEnd (s ++ t) := by
  cases h with
  | nil => exact ht
  | space hc _ =>
    intro c hc'
    cases hc'
    rcases hc with rfl | rfl | rfl | rfl <;> exact ⟨by decide, by rw [wordChar_iff]; decide⟩
  | line _ _ => intro c hc'; cases hc'; exact ⟨by decide, by rw [wordChar_iff]; decide⟩
  | block _ _ => intro c hc'; cases hc'; exact ⟨by decide, by rw [wordChar_iff]; decide⟩

theorem Ender.wordEnd {e : Char} (h : Ender e) (r : List Char) : WordEnd (e :: r) := by
  intro c hc
  cases hc
  rcases h with rfl | rfl <;> exact ⟨by decide, by rw [wordChar_iff]; decide⟩

/-- the rest of an argument in quotes -/
def readAfter (k : Classes) (n : Nat) (acc cs : List Char) : Except Stop (List Char × List Char) :=
  match cs with
  | '"' :: cs => let r := readDouble cs; readParts k n (acc ++ r.1.getD []) r.2
  | '\'' :: cs => let r := readSingle cs; readParts k n (acc ++ r.1.getD []) r.2
  | cs => .ok (acc, cs)

theorem readAfter_quoted (k : Classes) {n : Nat} {acc v t r : List Char} (h : Quoted v t) : readAfter k n acc (t ++ r) = readParts k n (acc ++ v) r := by
  cases h with
  | double h =>
    rename_i t
    show readAfter k n acc ('"' :: ((t ++ ['"']) ++ r)) = _
    rw [List.append_assoc]
    simp only [readAfter]
    rw [show t ++ (['"'] ++ r) = t ++ '"' :: r from rfl, readDouble_double h]
    rfl
  | single h =>
    show readAfter k n acc ('\'' :: ((v ++ ['\'']) ++ r)) = _
    rw [List.append_assoc]
    simp only [readAfter]
    rw [show v ++ (['\''] ++ r) = v ++ '\'' :: r from rfl, readSingle_single h]
    rfl

theorem readParts_plus (k : Classes) {n : Nat} {acc s₁ s₂ t : List Char} (h1 : Sep s₁) (h2 : Sep s₂) (ht : Solid t) :
    readParts k (n + 1) acc (s₁ ++ '+' :: (s₂ ++ t)) = readAfter k n acc t := by
  rw [readParts, skip_to k h1 (plus_solid _)]
  simp only [Except.bind]
  rw [skip_to k h2 ht]
  rfl

theorem readParts_end (k : Classes) {n : Nat} {acc s r : List Char} {e : Char} (hs : Sep s) (he : Ender e) : readParts k (n + 1) acc (s ++ e :: r) = .ok (acc, e :: r) := by
  rw [readParts, skip_to k hs (he.solid r)]
  rcases he with rfl | rfl <;> rfl

theorem readAfter_strings (k : Classes) {v t s r : List Char} {e : Char} (h : Strings v t) (hs : Sep s) (he : Ender e) :
    ∀ n acc, t.length < n → readAfter k n acc (t ++ (s ++ e :: r)) = .ok (acc ++ v, e :: r) := by
  induction h with
  | one h =>
    intro n acc hn
    obtain ⟨n, rfl⟩ : ∃ m, n = m + 1 := ⟨n - 1, by omega⟩
    rw [readAfter_quoted k h, readParts_end k hs he]
  | more h h1 h2 hmore ih =>
    rename_i v t s₁ s₂ v' t'
    intro n acc hn
    obtain ⟨n, rfl⟩ : ∃ m, n = m + 1 := ⟨n - 1, by omega⟩
    have : t ++ s₁ ++ '+' :: s₂ ++ t' ++ (s ++ e :: r) = t ++ (s₁ ++ '+' :: (s₂ ++ (t' ++ (s ++ e :: r)))) := by simp
    rw [this, readAfter_quoted k h, readParts_plus k h1 h2 (hmore.solid _), ih _ _ (by simp at hn; omega), List.append_assoc]

theorem Quoted.readArg (k : Classes) {v t r : List Char} (h : Quoted v t) :
    readArg k (t ++ r) = (readParts k (r.length + 1) v r).map fun x => (some x.1, x.2) := by
  unfold Yang.readArg
  rw [skip_solid k (h.solid r)]
  cases h with
  | double h =>
    rename_i t
    have := readDouble_double h (r := r)
    simp only [List.cons_append, List.append_assoc, List.nil_append, Except.bind, this]
  | single h =>
    have := readSingle_single h (r := r)
    simp only [List.cons_append, List.append_assoc, List.nil_append, Except.bind, this]

theorem Arg.solid {v a : List Char} (h : Arg v a) (r : List Char) : Solid (a ++ r) := by
  cases h with
  | strings h => exact h.solid r
  | name h =>
    obtain ⟨⟨c, hc, hl⟩, hall⟩ := h
    cases v with
    | nil => cases hc
    | cons d v =>
      cases hc
      have := (hall c List.mem_cons_self).ascii
      refine ⟨c, v ++ r, rfl, by omega, by omega, ?_⟩
      rintro rfl
      have := hall '/' List.mem_cons_self
      rw [wordChar_iff] at this
      exact absurd this (by decide)

theorem Arg.ne {v a : List Char} (h : Arg v a) : a ≠ [] := by
  intro e
  have := h.solid []
  subst e
  obtain ⟨_, _, e, _⟩ := this
  cases e

/-- an argument is read for what it stands for, up to what ends it -/
theorem Arg.read (k : Classes) {v a s r : List Char} {e : Char} (h : Arg v a) (hs : Sep s) (he : Ender e) :
    ∃ cs, readArg k (a ++ (s ++ e :: r)) = .ok (some v, cs) ∧ skipSep k .code cs = .ok (e :: r) := by
  cases h with
  | name h =>
    refine ⟨s ++ e :: r, ?_, skip_to k hs (he.solid r)⟩
    have hso := (Arg.name h).solid (s ++ e :: r)
    unfold readArg
    rw [skip_solid k hso]
    have hr := readIdentifier_name k h (hs.wordEnd (he.wordEnd r))
    obtain ⟨⟨c, hc, hl⟩, hall⟩ := h
    cases v with
    | nil => cases hc
    | cons d v =>
      cases hc
      have h1 : c ≠ '"' := by rintro rfl; have := hall _ List.mem_cons_self; rw [wordChar_iff] at this; exact absurd this (by decide)
      have h2 : c ≠ '\'' := by rintro rfl; have := hall _ List.mem_cons_self; rw [wordChar_iff] at this; exact absurd this (by decide)
      simp only [Except.bind, List.cons_append] at hr ⊢
      split
      · rename_i e; cases e; exact absurd rfl h1
      · rename_i e; cases e; exact absurd rfl h2
      · rw [hr]
  | strings h =>
    refine ⟨e :: r, ?_, skip_solid k (he.solid r)⟩
    cases h with
    | one h => rw [h.readArg k, readParts_end k hs he]; rfl
    | more h h1 h2 hm =>
      rename_i v t s₁ s₂ v' t'
      have : t ++ s₁ ++ '+' :: s₂ ++ t' ++ (s ++ e :: r) = t ++ (s₁ ++ '+' :: (s₂ ++ (t' ++ (s ++ e :: r)))) := by simp
      rw [this, h.readArg k, readParts_plus k h1 h2 (hm.solid _), readAfter_strings k hm hs he _ _ (by simp; omega)]
      rfl

theorem need_arg (k : Classes) {s₁ v a s r : List Char} {e : Char} (h₁ : Sep s₁) (h : Arg v a) (hs : Sep s) (he : Ender e) :
    ∃ cs, needArg k (s₁ ++ (a ++ (s ++ e :: r))) = .ok (v, cs) ∧ skipSep k .code cs = .ok (e :: r) := by
  obtain ⟨cs, h2, h3⟩ := h.read k hs he (r := r)
  refine ⟨cs, ?_, h3⟩
  unfold needArg
  rw [skip_to k h₁ (h.solid _)]
  simp only [Except.bind]
  rw [h2]

theorem read_value (k : Classes) {s₁ v a s r : List Char} {e : Char} (h₁ : Sep s₁) (h : Arg v a) (hs : Sep s) (he : Ender e) :
    readValue k e (s₁ ++ (a ++ (s ++ e :: r))) = .ok (v, r) := by
  obtain ⟨cs, h2, h3⟩ := need_arg k h₁ h hs he (r := r)
  unfold readValue expectChar
  rw [h2]
  simp only [Except.bind]
  rw [h3]
  simp only
  rw [skip_solid k (he.solid r)]
  simp [Except.map]

end Verif.Yang
