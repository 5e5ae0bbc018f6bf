import Verif.Yang.Skipping
/-! # Imports, includes and schemas that are well written are read -/
namespace Verif.Yang

instance (c : Char) : Decidable (Letter c) := by unfold Letter; infer_instance
instance (c : Char) : Decidable (Digit c) := by unfold Digit; infer_instance
instance (c : Char) : Decidable (WordChar c) := by unfold WordChar; infer_instance

theorem Gap.sep {g : List Char} (h : Gap g) : Sep g := by
  obtain ⟨c, t, rfl, hc, ht⟩ := h
  exact .space hc ht

theorem Gap.wordEnd {g : List Char} (h : Gap g) (t : List Char) : WordEnd (g ++ t) := by
  obtain ⟨c, t', rfl, hc, ht⟩ := h
  intro d hd
  cases hd
  rcases hc with rfl | rfl | rfl | rfl <;> exact ⟨by decide, by decide⟩

theorem Gap.ends (k : Classes) {g : List Char} (h : Gap g) (t : List Char) : endsKeyword k (g ++ t) = true := by
  obtain ⟨c, t', rfl, hc, ht⟩ := h
  simp [endsKeyword, space_white k hc]

theorem Word.name {w : List Char} (h : Word w) : Name w := by
  obtain ⟨⟨c, hc, hl⟩, ha⟩ := h
  exact ⟨⟨c, hc, hl.elim .inl (.inr ∘ .inl)⟩, ha⟩

theorem Word.solid {w : List Char} (h : Word w) (t : List Char) : Solid (w ++ t) := (Arg.name h.name).solid t

theorem Word.ne {w : List Char} (h : Word w) : w ≠ [] := (Arg.name h.name).ne

theorem match_gap (k : Classes) {w g : List Char} (hw : Word w) (hk : ':' ∉ w) (hg : Gap g) (t : List Char) : matchKeyword k w (w ++ (g ++ t)) = .ok (some (g ++ t)) := by
  rw [match_word k hk hw (hg.wordEnd t), if_pos ⟨rfl, hg.ends k t⟩]

theorem match_differs (k : Classes) {keyword w t : List Char} (hk : ':' ∉ keyword) (hw : Word w) (ht : WordEnd t) (h : w ≠ keyword) : matchKeyword k keyword (w ++ t) = .ok none := by
  rw [match_word k hk hw ht, if_neg (fun e => h e.1)]

theorem word_prefix : Word "prefix".toList := ⟨⟨'p', rfl, .inl (by decide)⟩, by decide⟩
theorem word_revision : Word "revision-date".toList := ⟨⟨'r', rfl, .inl (by decide)⟩, by decide⟩
theorem word_import : Word "import".toList := ⟨⟨'i', rfl, .inl (by decide)⟩, by decide⟩
theorem word_include : Word "include".toList := ⟨⟨'i', rfl, .inl (by decide)⟩, by decide⟩

theorem word_descriptions {w : List Char} (h : w ∈ descriptions) : Word w := by
  simp only [descriptions, List.mem_cons, List.not_mem_nil, or_false] at h
  rcases h with rfl | rfl | rfl | rfl
  · exact ⟨⟨'o', rfl, .inl (by decide)⟩, by decide⟩
  · exact ⟨⟨'c', rfl, .inl (by decide)⟩, by decide⟩
  · exact ⟨⟨'d', rfl, .inl (by decide)⟩, by decide⟩
  · exact ⟨⟨'r', rfl, .inl (by decide)⟩, by decide⟩

/-! ## Braces of imports and includes -/

theorem Inside.ascii {b : Bool} {t : List Char} (h : Inside b t) : ∀ c ∈ t.head?, c.toNat < 127 := by
  induction h with
  | nil => simp
  | sep hs _ ih =>
    cases hs with
    | nil => exact ih
    | space hc _ => intro d hd; cases hd; rcases hc with rfl | rfl | rfl | rfl <;> decide
    | line _ _ => intro d hd; cases hd; decide
    | block _ _ => intro d hd; cases hd; decide
  | char _ h _ _ _ => intro d hd; cases hd; exact h
  | slash _ _ _ => intro d hd; cases hd; decide
  | string hq _ _ =>
    obtain ⟨v, hq, _⟩ := hq
    cases hq <;> (intro d hd; cases hd; decide)
  | semicolon _ _ => intro d hd; cases hd; decide
  | braces _ _ _ _ => intro d hd; cases hd; decide

/-- other statements begin with other words -/
theorem Other.differs (k : Classes) {ws : List (List Char)} {t r keyword : List Char} (h : Other ws t) (hk : ':' ∉ keyword) (hm : keyword ∈ ws) :
    matchKeyword k keyword (t ++ r) = .ok none := by
  obtain ⟨w, a, e, hw, hn, ha, hh, rfl, he⟩ := h
  rw [List.append_assoc, List.append_assoc]
  refine match_differs k hk hw ?_ (fun x => hn (x ▸ hm))
  intro c hc
  cases a with
  | nil => rcases he with rfl | ⟨s, _, rfl⟩ <;> (cases hc; exact ⟨by decide, by decide⟩)
  | cons d a =>
    cases hc
    exact ⟨by have := ha.ascii c rfl; omega, hh c rfl⟩

theorem Other.solid {ws : List (List Char)} {t : List Char} (h : Other ws t) (r : List Char) : Solid (t ++ r) ∧ (t ++ r).head? ≠ some '}' := by
  obtain ⟨w, a, e, hw, _, _, _, rfl, _⟩ := h
  rw [List.append_assoc, List.append_assoc]
  refine ⟨hw.solid _, ?_⟩
  obtain ⟨⟨c, hc, hl⟩, _⟩ := hw
  cases w with
  | nil => cases hc
  | cons d w =>
    cases hc
    intro e
    cases e
    exact absurd hl (by decide)

theorem Other.ne {ws : List (List Char)} {t : List Char} (h : Other ws t) : 0 < t.length := by
  obtain ⟨w, a, e, hw, _, _, _, rfl, _⟩ := h
  have := List.length_pos_iff.mpr hw.ne
  simp only [List.length_append]; omega

theorem import_body (k : Classes) {p r : Option (List Char)} {b : List Char} (h : ImportBody p r b) :
    ∀ {n : Nat} {p₀ r₀ : Option (List Char)} {rest : List Char}, b.length < n → importBody k n p₀ r₀ (b ++ '}' :: rest) = some (.ok (p.or p₀, r.or r₀, rest)) := by
  induction h with
  | nil hs =>
    intro n p₀ r₀ rest hn
    obtain ⟨n, rfl⟩ : ∃ m, n = m + 1 := ⟨n - 1, by omega⟩
    rw [importBody, skip_to k hs (brace_solid rest)]
    simp [Loop.after]
  | pre hs ht _ ih =>
    rename_i r s v t b _
    intro n p₀ r₀ rest hn
    obtain ⟨n, rfl⟩ : ∃ m, n = m + 1 := ⟨n - 1, by omega⟩
    obtain ⟨s₁, a, s₂, hg, ha, hs2, rfl⟩ := ht
    have e : s ++ ("prefix".toList ++ s₁ ++ a ++ s₂ ++ [';']) ++ b ++ '}' :: rest = s ++ ("prefix".toList ++ (s₁ ++ (a ++ (s₂ ++ ';' :: (b ++ '}' :: rest))))) := by simp
    rw [e, importBody, skip_to k hs (word_prefix.solid _)]
    simp only [Loop.after]
    rw [if_neg (by simp), match_gap k word_prefix (by decide) hg]
    simp only
    rw [read_value k hg.sep ha hs2 (.inl rfl)]
    simp only
    rw [ih (by simp at hn; omega)]
    simp
  | revision hs ht _ ih =>
    rename_i p s v t b _
    intro n p₀ r₀ rest hn
    obtain ⟨n, rfl⟩ : ∃ m, n = m + 1 := ⟨n - 1, by omega⟩
    obtain ⟨s₁, a, s₂, hg, ha, hs2, rfl⟩ := ht
    have e : s ++ ("revision-date".toList ++ s₁ ++ a ++ s₂ ++ [';']) ++ b ++ '}' :: rest = s ++ ("revision-date".toList ++ (s₁ ++ (a ++ (s₂ ++ ';' :: (b ++ '}' :: rest))))) := by simp
    rw [e, importBody, skip_to k hs (word_revision.solid _)]
    simp only [Loop.after]
    rw [if_neg (by simp), match_differs k (by decide) word_revision (hg.wordEnd _) (by decide)]
    simp only
    rw [match_gap k word_revision (by decide) hg]
    simp only
    rw [read_value k hg.sep ha hs2 (.inl rfl)]
    simp only
    rw [ih (by simp at hn; omega)]
    simp
  | other hs ht _ ih =>
    rename_i p r s t b _
    intro n p₀ r₀ rest hn
    obtain ⟨n, rfl⟩ : ∃ m, n = m + 1 := ⟨n - 1, by omega⟩
    have := ht.ne
    rw [show s ++ t ++ b ++ '}' :: rest = s ++ (t ++ (b ++ '}' :: rest)) by simp, importBody, skip_to k hs (ht.solid _).1]
    simp only [Loop.after]
    rw [if_neg (ht.solid _).2, ht.differs k (by decide) (by simp)]
    simp only
    rw [ht.differs k (by decide) (by simp)]
    simp only
    rw [skip_other k ht]
    simp only
    rw [ih (by simp at hn; omega)]

theorem include_body (k : Classes) {r : Option (List Char)} {b : List Char} (h : IncludeBody r b) :
    ∀ {n : Nat} {r₀ : Option (List Char)} {rest : List Char}, b.length < n → includeBody k n r₀ (b ++ '}' :: rest) = some (.ok (r.or r₀, rest)) := by
  induction h with
  | nil hs =>
    intro n r₀ rest hn
    obtain ⟨n, rfl⟩ : ∃ m, n = m + 1 := ⟨n - 1, by omega⟩
    rw [includeBody, skip_to k hs (brace_solid rest)]
    simp [Loop.after]
  | revision hs ht _ ih =>
    rename_i s v t b _
    intro n r₀ rest hn
    obtain ⟨n, rfl⟩ : ∃ m, n = m + 1 := ⟨n - 1, by omega⟩
    obtain ⟨s₁, a, s₂, hg, ha, hs2, rfl⟩ := ht
    have e : s ++ ("revision-date".toList ++ s₁ ++ a ++ s₂ ++ [';']) ++ b ++ '}' :: rest = s ++ ("revision-date".toList ++ (s₁ ++ (a ++ (s₂ ++ ';' :: (b ++ '}' :: rest))))) := by simp
    rw [e, includeBody, skip_to k hs (word_revision.solid _)]
    simp only [Loop.after]
    rw [if_neg (by simp), match_gap k word_revision (by decide) hg]
    simp only
    rw [read_value k hg.sep ha hs2 (.inl rfl)]
    simp only
    rw [ih (by simp at hn; omega)]
    simp
  | other hs ht _ ih =>
    rename_i r s t b _
    intro n r₀ rest hn
    obtain ⟨n, rfl⟩ : ∃ m, n = m + 1 := ⟨n - 1, by omega⟩
    have := ht.ne
    rw [show s ++ t ++ b ++ '}' :: rest = s ++ (t ++ (b ++ '}' :: rest)) by simp, includeBody, skip_to k hs (ht.solid _).1]
    simp only [Loop.after]
    rw [if_neg (ht.solid _).2, ht.differs k (by decide) (by simp)]
    simp only
    rw [skip_other k ht]
    simp only
    rw [ih (by simp at hn; omega)]

/-- an import is read, after its keyword -/
theorem parse_import (k : Classes) {n : Nat} {p name : List Char} {r : Option (List Char)} {s₁ a s₂ b rest : List Char} (hg : Gap s₁) (ha : Arg name a) (hs : Sep s₂)
    (hb : ImportBody (some p) r b) (hn : b.length < n) : parseImport k n (s₁ ++ (a ++ (s₂ ++ '{' :: (b ++ '}' :: rest)))) = some (.ok (⟨name, p, r⟩, rest)) := by
  unfold parseImport
  rw [read_value k hg.sep ha hs (.inr rfl)]
  simp only [Loop.after]
  rw [import_body k hb hn]
  simp

theorem parse_include (k : Classes) {n : Nat} {name : List Char} {s₁ a s₂ rest : List Char} (hg : Gap s₁) (ha : Arg name a) (hs : Sep s₂) :
    parseInclude k n (s₁ ++ (a ++ (s₂ ++ ';' :: rest))) = some (.ok (⟨name, none⟩, rest)) := by
  unfold parseInclude
  obtain ⟨cs, h1, h2⟩ := need_arg k hg.sep ha hs (.inl rfl : Ender ';') (r := rest)
  rw [h1]
  simp only [Except.bind, h2, Except.map, Loop.after]

theorem parse_include_body (k : Classes) {n : Nat} {name : List Char} {r : Option (List Char)} {s₁ a s₂ b rest : List Char} (hg : Gap s₁) (ha : Arg name a) (hs : Sep s₂)
    (hb : IncludeBody r b) (hn : b.length < n) : parseInclude k n (s₁ ++ (a ++ (s₂ ++ '{' :: (b ++ '}' :: rest)))) = some (.ok (⟨name, r⟩, rest)) := by
  unfold parseInclude
  obtain ⟨cs, h1, h2⟩ := need_arg k hg.sep ha hs (.inr rfl : Ender '{') (r := b ++ '}' :: rest)
  rw [h1]
  simp only [Except.bind, h2, Except.map, Loop.after]
  rw [include_body k hb hn]
  simp

/-! ## Schemas -/

theorem skipToken_word (k : Classes) {w t : List Char} (hw : Word w) (ht : WordEnd t) : skipToken k (w ++ t) = t := by
  obtain ⟨⟨c, hc, hl⟩, hall⟩ := hw
  cases w with
  | nil => cases hc
  | cons d w =>
    cases hc
    have h1 := takeWhile_word k (fun x hx => hall x (List.mem_cons_of_mem _ hx)) ht
    rw [List.cons_append, skipToken.eq_def]
    split
    · rename_i e; cases e
    · rename_i e; cases e; exact absurd hl (by decide)
    · rename_i e; cases e; exact absurd hl (by decide)
    · rename_i e
      cases e
      rw [if_pos, h1.2]
      have := (hall c List.mem_cons_self).ascii
      rw [Bool.or_eq_true, alpha_iff k (by omega), decide_eq_true_eq]
      rcases hl with hl | hl
      · rw [letter_iff] at hl; omega
      · exact .inr hl

theorem skipToken_sign (k : Classes) {c : Char} {t : List Char} (ha : c.toNat < 128) (hl : ¬Letter c) (h : c ∉ ['_', '"', '\'']) : skipToken k (c :: t) = t := by
  simp only [List.mem_cons, List.not_mem_nil, or_false, not_or] at h
  rw [skipToken.eq_def]
  split
  · rename_i e; cases e
  · rename_i e; cases e; exact absurd rfl h.2.1
  · rename_i e; cases e; exact absurd rfl h.2.2
  · rename_i e
    cases e
    rw [if_neg]
    rw [Bool.or_eq_true, alpha_iff k ha, decide_eq_true_eq]
    rw [letter_iff] at hl
    rintro (x | x)
    · omega
    · exact h.1 x

theorem skipToken_quoted (k : Classes) {v q r : List Char} (h : Quoted v q) : skipToken k (q ++ r) = r := by
  cases h with
  | double h => simp only [List.cons_append, List.append_assoc, List.nil_append, skipToken, readDouble_double h]
  | single h => simp only [List.cons_append, List.append_assoc, List.nil_append, skipToken, readSingle_single h]

theorem matchAny_none (k : Classes) {ws : List (List Char)} {cs : List Char} (h : ∀ w ∈ ws, matchKeyword k w cs = .ok none) : matchAny k ws cs = .ok false := by
  induction ws with
  | nil => rfl
  | cons w ws ih =>
    rw [matchAny, h w List.mem_cons_self]
    exact ih fun x hx => h x (List.mem_cons_of_mem _ hx)

/-- a round without any of the keywords -/
theorem round_skip (k : Classes) {n : Nat} {is : List Import} {us : List Include} {cs r : List Char} (hs : skipSep k .code cs = .ok r) (hr : r ≠ [])
    (h : ∀ w ∈ looked, matchKeyword k w r = .ok none) : parseLoop k (n + 1) is us cs = parseLoop k n is us (skipToken k r) := by
  rw [parseLoop, hs]
  simp only [Loop.after]
  rw [if_neg hr, h _ (by simp [looked])]
  simp only
  rw [h _ (by simp [looked])]
  simp only
  rw [matchAny_none k (fun w hw => h w (by simp only [looked, List.mem_cons]; exact .inr (.inr hw)))]
  simp

theorem looked_colon {w : List Char} (h : w ∈ looked) : ':' ∉ w := by
  revert w; decide

theorem BareChar.not_word_end {t : List Char} (ht : ∀ c ∈ t.head?, c.toNat < 127 ∧ (BareChar c → c = '/')) : WordEnd t := by
  intro c hc
  obtain ⟨h1, h2⟩ := ht c hc
  refine ⟨by omega, fun hw => ?_⟩
  have ha := hw.ascii
  have : c = '/' := by
    refine h2 ⟨by omega, by omega, ?_⟩
    simp only [List.mem_cons, List.not_mem_nil, or_false]
    rintro (rfl | rfl | rfl | rfl | rfl) <;> exact absurd hw (by decide)
  subst this
  exact absurd hw (by decide)

theorem Bare.tail {ws : List (List Char)} {a b : List Char} (h : Bare ws (a ++ b)) : Bare ws b := by
  refine ⟨fun c hc => h.1 c (List.mem_append_right _ hc), fun w hw hi => h.2.1 w hw (hi.trans (List.suffix_append a b).isInfix), fun e => h.2.2 ?_⟩
  cases b with
  | nil => cases e
  | cons x b => rw [List.getLast?_append, e]; rfl

/-- the part of an argument that is a word -/
theorem word_split (w : List Char) : ∃ w₁ w₂, w = w₁ ++ w₂ ∧ (∀ c ∈ w₁, WordChar c) ∧ ∀ c ∈ w₂.head?, ¬WordChar c := by
  induction w with
  | nil => exact ⟨[], [], rfl, by simp, by simp⟩
  | cons c w ih =>
    by_cases h : WordChar c
    · obtain ⟨w₁, w₂, rfl, h1, h2⟩ := ih
      refine ⟨c :: w₁, w₂, rfl, ?_, h2⟩
      intro d hd
      rcases List.mem_cons.mp hd with rfl | hd
      · exact h
      · exact h1 d hd
    · exact ⟨[], c :: w, rfl, by simp, by simpa using h⟩

/-- a loop goes over arguments in which there is none of its keywords -/
theorem loop_bare (k : Classes) {ws : List (List Char)} (hws : ∀ w ∈ ws, ':' ∉ w) {β : Type} {F : Nat → List Char → Loop β}
    (hF : ∀ {n cs r}, skipSep k .code cs = .ok r → r ≠ [] → (∀ w ∈ ws, matchKeyword k w r = .ok none) → F (n + 1) cs = F n (skipToken k r)) {t : List Char} {R : Loop β}
    (ht : ∀ c ∈ t.head?, c.toNat < 127 ∧ (BareChar c → c = '/')) (hR : ∀ n, t.length < n → F n t = R) :
    ∀ (m : Nat) (w : List Char), w.length ≤ m → Bare ws w → ∀ n, (w ++ t).length < n → F n (w ++ t) = R := by
  intro m
  induction m with
  | zero =>
    intro w hw _ n hn
    have : w = [] := List.length_eq_zero_iff.mp (by omega)
    subst this
    exact hR n hn
  | succ m ih =>
    intro w hw hb n hn
    cases w with
    | nil => exact hR n hn
    | cons c w =>
      obtain ⟨n, rfl⟩ : ∃ x, n = x + 1 := ⟨n - 1, by omega⟩
      have hc := hb.1 c List.mem_cons_self
      have hso : Solid (c :: w ++ t) := by
        refine ⟨c, w ++ t, rfl, hc.1, hc.2.1, ?_⟩
        rintro rfl
        cases w with
        | nil => exact absurd rfl hb.2.2
        | cons d w =>
          constructor
          · intro e; cases e; exact hb.2.1 ['/', '/'] (by simp) ⟨[], w, rfl⟩
          · intro e; cases e; exact hb.2.1 ['/', '*'] (by simp) ⟨[], w, rfl⟩
      by_cases hl : Letter c ∨ c = '_'
      · obtain ⟨w₁, w₂, rfl, h1, h2⟩ := word_split w
        have hcw : WordChar c := hl.elim .inl (fun e => .inr (.inr (.inl e)))
        have hword : Word (c :: w₁) := ⟨⟨c, rfl, hl⟩, by
          intro d hd
          rcases List.mem_cons.mp hd with rfl | hd
          · exact hcw
          · exact h1 d hd⟩
        have hend : WordEnd (w₂ ++ t) := by
          cases w₂ with
          | nil => exact BareChar.not_word_end ht
          | cons d w₂ =>
            intro x hx
            cases hx
            have := (hb.1 d (by simp)).2.1
            exact ⟨by omega, h2 d rfl⟩
        have e : c :: (w₁ ++ w₂) ++ t = c :: w₁ ++ (w₂ ++ t) := by simp
        rw [hF (skip_solid k hso) (by simp), e, skipToken_word k hword hend]
        · refine ih w₂ (by simp at hw; omega) (Bare.tail (a := c :: w₁) hb) n ?_
          simp at hn ⊢; omega
        · intro kw hkw
          rw [e]
          refine match_differs k (hws kw hkw) hword hend ?_
          rintro rfl
          refine hb.2.1 (c :: w₁) ?_ ⟨[], w₂, rfl⟩
          exact List.mem_cons_of_mem _ (List.mem_cons_of_mem _ hkw)
      · rw [not_or] at hl
        rw [hF (skip_solid k hso) (by simp) (fun kw _ => match_sign k (by have := hc.2.1; omega) hl.1 hl.2), List.cons_append,
          skipToken_sign k (by have := hc.2.1; omega) hl.1 ?_]
        · refine ih w (by simp at hw; omega) (Bare.tail (a := [c]) hb) n ?_
          simp at hn ⊢; omega
        · have := hc.2.2
          simp only [List.mem_cons, List.not_mem_nil, or_false, not_or] at this ⊢
          exact ⟨hl.2, this.1, this.2.1⟩

/-- schemas that are well written are read for their imports and includes -/
theorem schema_read (k : Classes) {is : List Import} {us : List Include} {t : List Char} (h : Schema is us t) :
    ∀ {n : Nat} {is₀ : List Import} {us₀ : List Include}, t.length < n → parseLoop k n is₀ us₀ t = some (.ok (is₀ ++ is, us₀ ++ us)) := by
  induction h with
  | done hs =>
    rename_i s
    intro n is₀ us₀ hn
    obtain ⟨n, rfl⟩ : ∃ m, n = m + 1 := ⟨n - 1, by omega⟩
    have : skipSep k .code s = .ok [] := by
      have := skip_sep k hs (t := [])
      rwa [List.append_nil] at this
    rw [parseLoop, this]
    simp [Loop.after]
  | description hs hw hg =>
    rename_i s w g rest
    intro n is₀ us₀ hn
    obtain ⟨n, rfl⟩ : ∃ m, n = m + 1 := ⟨n - 1, by omega⟩
    have hword := word_descriptions hw
    rw [show s ++ w ++ g ++ rest = s ++ (w ++ (g ++ rest)) by simp, parseLoop, skip_to k hs (hword.solid _)]
    simp only [Loop.after]
    rw [if_neg (by simp [hword.ne]), match_differs k (by decide) hword (hg.wordEnd _) (by rintro rfl; revert hw; decide)]
    simp only
    rw [match_differs k (by decide) hword (hg.wordEnd _) (by rintro rfl; revert hw; decide)]
    simp only
    have : ∀ ws : List (List Char), (∀ x ∈ ws, ':' ∉ x) → w ∈ ws → matchAny k ws (w ++ (g ++ rest)) = .ok true := by
      intro ws hc hm
      induction ws with
      | nil => cases hm
      | cons x ws ih =>
        rw [matchAny, match_word k (hc x List.mem_cons_self) hword (hg.wordEnd _)]
        simp only [Except.bind]
        by_cases e : w = x
        · simp [e, hg.ends k]
        · simp only [e, false_and, if_false]
          rcases List.mem_cons.mp hm with hm | hm
          · exact absurd hm e
          · exact ih (fun y hy => hc y (List.mem_cons_of_mem _ hy)) hm
    rw [this metaKeywords (by decide) hw]
    simp
  | word hs hw hn' he _ ih =>
    rename_i is us s w t _
    intro n is₀ us₀ hn
    obtain ⟨n, rfl⟩ : ∃ m, n = m + 1 := ⟨n - 1, by omega⟩
    have hend : WordEnd t := fun c hc => ⟨by have := (he c hc).1; omega, (he c hc).2⟩
    have := List.length_pos_iff.mpr hw.ne
    rw [List.append_assoc, round_skip k (skip_to k hs (hw.solid t)) (by simp [hw.ne])
      (fun kw hkw => match_differs k (looked_colon hkw) hw hend (fun e => hn' (e ▸ hkw))), skipToken_word k hw hend]
    exact ih (by simp at hn; omega)
  | string hs hq _ ih =>
    rename_i is us s v q t _
    intro n is₀ us₀ hn
    obtain ⟨n, rfl⟩ : ∃ m, n = m + 1 := ⟨n - 1, by omega⟩
    have := List.length_pos_iff.mpr hq.ne
    rw [List.append_assoc, round_skip k (skip_to k hs (hq.solid t)) (by simp [hq.ne]) ?_, skipToken_quoted k hq]
    · exact ih (by simp at hn; omega)
    · intro kw _
      cases hq <;> exact match_sign k (by decide) (by decide) (by decide)
  | bare hs hb ht _ ih =>
    rename_i is us s w t _
    intro n is₀ us₀ hn
    have key := loop_bare k (fun w hw => looked_colon hw) (F := fun n cs => parseLoop k n is₀ us₀ cs) (round_skip k) ht (fun n hn => ih hn) w.length w (Nat.le_refl _) hb
    have hw : (w ++ t).length < n := by simp at hn ⊢; omega
    rw [← key n hw, List.append_assoc]
    obtain ⟨n, rfl⟩ : ∃ m, n = m + 1 := ⟨n - 1, by omega⟩
    conv => lhs; rw [parseLoop, skip_sep k hs]
    conv => rhs; rw [parseLoop]
  | sign hs hc _ ih =>
    rename_i is us s t c _
    intro n is₀ us₀ hn
    obtain ⟨n, rfl⟩ : ∃ m, n = m + 1 := ⟨n - 1, by omega⟩
    have hprop : 33 ≤ c.toNat ∧ c.toNat < 127 ∧ ¬Letter c ∧ c ∉ ['_', '"', '\'', '/'] := by
      simp only [List.mem_cons, List.not_mem_nil, or_false] at hc
      rcases hc with rfl | rfl | rfl <;> decide
    have hso : Solid (c :: t) := ⟨c, t, rfl, hprop.1, hprop.2.1, fun e => absurd e (by have := hprop.2.2.2; simp at this; exact this.2.2.2)⟩
    have hu : c ≠ '_' := by have := hprop.2.2.2; simp at this; exact this.1
    rw [round_skip k (skip_to k hs hso) (by simp) (fun kw _ => match_sign k (by omega) hprop.2.2.1 hu), skipToken_sign k (by omega) hprop.2.2.1 ?_]
    · exact ih (by simp at hn; omega)
    · have := hprop.2.2.2; simp at this ⊢; exact ⟨this.1, this.2.1, this.2.2.1⟩
  | «import» hs ht _ ih =>
    rename_i is us s t r i _
    intro n is₀ us₀ hn
    obtain ⟨n, rfl⟩ : ∃ m, n = m + 1 := ⟨n - 1, by omega⟩
    obtain ⟨s₁, a, s₂, b, hg, ha, hs2, hb, rfl⟩ := ht
    have e : s ++ ("import".toList ++ s₁ ++ a ++ s₂ ++ '{' :: (b ++ ['}'])) ++ r = s ++ ("import".toList ++ (s₁ ++ (a ++ (s₂ ++ '{' :: (b ++ '}' :: r))))) := by simp
    rw [e, parseLoop, skip_to k hs (word_import.solid _)]
    simp only [Loop.after]
    rw [if_neg (by simp), match_gap k word_import (by decide) hg]
    simp only
    rw [parse_import k hg ha hs2 hb (by simp at hn; omega)]
    simp only
    rw [ih (by simp at hn; omega), List.append_assoc]
    rfl
  | «include» hs ht _ ih =>
    rename_i is us s t r i _
    intro n is₀ us₀ hn
    obtain ⟨n, rfl⟩ : ∃ m, n = m + 1 := ⟨n - 1, by omega⟩
    rcases ht with ⟨hrev, s₁, a, s₂, hg, ha, hs2, rfl⟩ | ⟨s₁, a, s₂, b, hg, ha, hs2, hb, rfl⟩
    · have e : s ++ ("include".toList ++ s₁ ++ a ++ s₂ ++ [';']) ++ r = s ++ ("include".toList ++ (s₁ ++ (a ++ (s₂ ++ ';' :: r)))) := by simp
      rw [e, parseLoop, skip_to k hs (word_include.solid _)]
      simp only [Loop.after]
      rw [if_neg (by simp), match_differs k (by decide) word_include (hg.wordEnd _) (by decide)]
      simp only
      rw [match_gap k word_include (by decide) hg]
      simp only
      rw [parse_include k hg ha hs2]
      simp only
      rw [ih (by simp at hn; omega), List.append_assoc]
      obtain ⟨nm, rv⟩ := i
      cases hrev
      rfl
    · have e : s ++ ("include".toList ++ s₁ ++ a ++ s₂ ++ '{' :: (b ++ ['}'])) ++ r = s ++ ("include".toList ++ (s₁ ++ (a ++ (s₂ ++ '{' :: (b ++ '}' :: r))))) := by simp
      rw [e, parseLoop, skip_to k hs (word_include.solid _)]
      simp only [Loop.after]
      rw [if_neg (by simp), match_differs k (by decide) word_include (hg.wordEnd _) (by decide)]
      simp only
      rw [match_gap k word_include (by decide) hg]
      simp only
      rw [parse_include_body k hg ha hs2 hb (by simp at hn; omega)]
      simp only
      rw [ih (by simp at hn; omega), List.append_assoc]
      rfl

end Verif.Yang
