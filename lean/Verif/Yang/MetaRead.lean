import Verif.Yang.Documents
/-! # Metadata that is well written is read -/
namespace Verif.Yang

theorem matchFirst_word (k : Classes) {ws : List (List Char × Keyword)} (hc : ∀ x ∈ ws, ':' ∉ x.1) {w t : List Char} (hw : Word w) (ht : WordEnd t) (he : endsKeyword k t = true) :
    matchFirst k ws (w ++ t) = .ok ((ws.find? fun x => x.1 = w).map fun x => (x.2, t)) := by
  induction ws with
  | nil => rfl
  | cons x ws ih =>
    rw [matchFirst, match_word k (hc x List.mem_cons_self) hw ht]
    simp only [Except.bind]
    by_cases e : w = x.1
    · simp [e, he]
    · have e' : ¬x.1 = w := fun h => e h.symm
      simp only [e, false_and, if_false, List.find?_cons, e', decide_false]
      exact ih fun y hy => hc y (List.mem_cons_of_mem _ hy)

theorem matchFirst_none (k : Classes) {ws : List (List Char × Keyword)} {cs : List Char} (h : ∀ x ∈ ws, matchKeyword k x.1 cs = .ok none) : matchFirst k ws cs = .ok none := by
  induction ws with
  | nil => rfl
  | cons x ws ih =>
    rw [matchFirst, h x List.mem_cons_self]
    exact ih fun y hy => h y (List.mem_cons_of_mem _ hy)

theorem keywords_words : keywords.map (·.1) = metaWords := by decide

/-- a round without any of the keywords -/
theorem meta_skip (k : Classes) {n : Nat} {m : Metadata} {cs r : List Char} (hs : skipSep k .code cs = .ok r) (hr : r ≠ [])
    (h : ∀ w ∈ metaWords ++ dataWords, matchKeyword k w r = .ok none) : metaLoop k (n + 1) m cs = metaLoop k n m (skipToken k r) := by
  rw [metaLoop, hs]
  simp only [Loop.after]
  rw [if_neg hr, matchFirst_none k fun x hx => h x.1 (List.mem_append_left _ (by rw [← keywords_words]; exact List.mem_map_of_mem hx))]
  simp only
  rw [show dataKeywords = dataWords from rfl, matchAny_none k (fun w hw => h w (List.mem_append_right _ hw))]
  simp

theorem metaWords_colon {w : List Char} (h : w ∈ metaWords ++ dataWords) : ':' ∉ w := by
  revert w; decide

theorem word_data {w : List Char} (h : w ∈ dataWords) : Word w := by
  simp only [dataWords, List.mem_cons, List.not_mem_nil, or_false] at h
  rcases h with rfl | rfl | rfl | rfl | rfl | rfl | rfl | rfl | rfl
  · exact ⟨⟨'c', rfl, .inl (by decide)⟩, by decide⟩
  · exact ⟨⟨'l', rfl, .inl (by decide)⟩, by decide⟩
  · exact ⟨⟨'l', rfl, .inl (by decide)⟩, by decide⟩
  · exact ⟨⟨'g', rfl, .inl (by decide)⟩, by decide⟩
  · exact ⟨⟨'t', rfl, .inl (by decide)⟩, by decide⟩
  · exact ⟨⟨'i', rfl, .inl (by decide)⟩, by decide⟩
  · exact ⟨⟨'a', rfl, .inl (by decide)⟩, by decide⟩
  · exact ⟨⟨'r', rfl, .inl (by decide)⟩, by decide⟩
  · exact ⟨⟨'n', rfl, .inl (by decide)⟩, by decide⟩

theorem word_meta {w : List Char} (h : w ∈ metaWords) : Word w := by
  simp only [metaWords, List.mem_cons, List.not_mem_nil, or_false] at h
  rcases h with rfl | rfl | rfl | rfl | rfl | rfl | rfl
  · exact ⟨⟨'m', rfl, .inl (by decide)⟩, by decide⟩
  · exact ⟨⟨'s', rfl, .inl (by decide)⟩, by decide⟩
  · exact ⟨⟨'b', rfl, .inl (by decide)⟩, by decide⟩
  · exact ⟨⟨'n', rfl, .inl (by decide)⟩, by decide⟩
  · exact ⟨⟨'p', rfl, .inl (by decide)⟩, by decide⟩
  · exact ⟨⟨'y', rfl, .inl (by decide)⟩, by decide⟩
  · exact ⟨⟨'r', rfl, .inl (by decide)⟩, by decide⟩

/-- a round with one of the keywords -/
theorem meta_keyword (k : Classes) {n : Nat} {m : Metadata} {s w g t : List Char} {x : Keyword} (hs : Sep s) (hw : w ∈ metaWords) (hg : Gap g)
    (hx : (keywords.find? fun x => x.1 = w) = some (w, x)) :
    metaLoop k (n + 1) m (s ++ (w ++ (g ++ t))) = Loop.after (metaStep k m (g ++ t) x) fun r => metaLoop k n r.1 r.2 := by
  have hword := word_meta hw
  rw [metaLoop, skip_to k hs (hword.solid _)]
  simp only [Loop.after]
  rw [if_neg (by simp [hword.ne]), matchFirst_word k (by decide) hword (hg.wordEnd t) (hg.ends k t), hx]
  rfl

/-- what is known before, and what comes after -/
def Metadata.with (a b : Metadata) : Metadata := ⟨b.name.or a.name, b.uri.or a.uri, a.pre.or b.pre, a.revision.or b.revision, b.parent.or a.parent⟩

/-- the braces after an argument are skipped -/
theorem skip_braces (k : Classes) {cs b r : List Char} (h : skipSep k .code cs = .ok ('{' :: (b ++ '}' :: r))) (hb : Inside true b) : skipStatement k cs = .ok r := by
  show skipS k 0 none cs = _
  rw [skipS_code k h]
  simp only [skipStep]
  rw [skipS_inside k hb (by simp), skipS_code k (skip_solid k (brace_solid _))]
  rfl

/-- schemas that are well written are read for their metadata -/
theorem described_read (k : Classes) {b : Bool} {m : Metadata} {t : List Char} (h : Described b m t) :
    ∀ {n : Nat} {m₀ : Metadata}, m₀.pre.isSome = b → t.length < n → metaLoop k n m₀ t = some (.ok (m₀.with m)) := by
  induction h with
  | done hs =>
    rename_i s
    intro n m₀ _ hn
    obtain ⟨n, rfl⟩ : ∃ m, n = m + 1 := ⟨n - 1, by omega⟩
    have : skipSep k .code s = .ok [] := by
      have := skip_sep k hs (t := [])
      rwa [List.append_nil] at this
    rw [metaLoop, this]
    simp [Loop.after, Metadata.with]
  | data hs hw hg =>
    rename_i s w g rest
    intro n m₀ _ hn
    obtain ⟨n, rfl⟩ : ∃ m, n = m + 1 := ⟨n - 1, by omega⟩
    have hword := word_data hw
    rw [show s ++ w ++ g ++ rest = s ++ (w ++ (g ++ rest)) by simp, metaLoop, skip_to k hs (hword.solid _)]
    simp only [Loop.after]
    rw [if_neg (by simp [hword.ne]), matchFirst_none k fun x hx => match_differs k (metaWords_colon (by rw [← keywords_words]; exact List.mem_append_left _ (List.mem_map_of_mem hx))) hword
      (hg.wordEnd _) (by rintro rfl; exact absurd hw ((by decide : ∀ x ∈ keywords, x.1 ∉ dataWords) x hx))]
    simp only
    have : ∀ ws : List (List Char), (∀ x ∈ ws, ':' ∉ x) → w ∈ ws → matchAny k ws (w ++ (g ++ rest)) = .ok true := by
      intro ws hc hm
      induction ws with
      | nil => cases hm
      | cons x ws ih =>
        rw [matchAny, match_word k (hc x List.mem_cons_self) hword (hg.wordEnd _)]
        simp only [Except.bind]
        by_cases e : w = x
        · simp [e, hg.ends k]
        · simp only [e, false_and, if_false]
          rcases List.mem_cons.mp hm with hm | hm
          · exact absurd hm e
          · exact ih (fun y hy => hc y (List.mem_cons_of_mem _ hy)) hm
    rw [this dataKeywords (by decide) hw]
    simp [Metadata.with]
  | word hs hw hn' he _ ih =>
    rename_i b m s w t _
    intro n m₀ hb hn
    obtain ⟨n, rfl⟩ : ∃ m, n = m + 1 := ⟨n - 1, by omega⟩
    have hend : WordEnd t := fun c hc => ⟨by have := (he c hc).1; omega, (he c hc).2⟩
    have := List.length_pos_iff.mpr hw.ne
    rw [List.append_assoc, meta_skip k (skip_to k hs (hw.solid t)) (by simp [hw.ne])
      (fun kw hkw => match_differs k (metaWords_colon hkw) hw hend (fun e => hn' (e ▸ hkw))), skipToken_word k hw hend]
    exact ih hb (by simp at hn; omega)
  | string hs hq _ ih =>
    rename_i b m s v q t _
    intro n m₀ hb hn
    obtain ⟨n, rfl⟩ : ∃ m, n = m + 1 := ⟨n - 1, by omega⟩
    have := List.length_pos_iff.mpr hq.ne
    rw [List.append_assoc, meta_skip k (skip_to k hs (hq.solid t)) (by simp [hq.ne]) ?_, skipToken_quoted k hq]
    · exact ih hb (by simp at hn; omega)
    · intro kw _
      cases hq <;> exact match_sign k (by decide) (by decide) (by decide)
  | bare hs hb' ht _ ih =>
    rename_i b m s w t _
    intro n m₀ hb hn
    have key := loop_bare k (fun w hw => metaWords_colon hw) (F := fun n cs => metaLoop k n m₀ cs) (meta_skip k) ht (fun n hn => ih hb hn) w.length w (Nat.le_refl _) hb'
    have hw : (w ++ t).length < n := by simp at hn ⊢; omega
    rw [← key n hw, List.append_assoc]
    obtain ⟨n, rfl⟩ : ∃ m, n = m + 1 := ⟨n - 1, by omega⟩
    conv => lhs; rw [metaLoop, skip_sep k hs]
    conv => rhs; rw [metaLoop]
  | sign hs hc _ ih =>
    rename_i b m s t c _
    intro n m₀ hb hn
    obtain ⟨n, rfl⟩ : ∃ m, n = m + 1 := ⟨n - 1, by omega⟩
    have hprop : 33 ≤ c.toNat ∧ c.toNat < 127 ∧ ¬Letter c ∧ c ∉ ['_', '"', '\'', '/'] := by
      simp only [List.mem_cons, List.not_mem_nil, or_false] at hc
      rcases hc with rfl | rfl | rfl <;> decide
    have hso : Solid (c :: t) := ⟨c, t, rfl, hprop.1, hprop.2.1, fun e => absurd e (by have := hprop.2.2.2; simp at this; exact this.2.2.2)⟩
    have hu : c ≠ '_' := by have := hprop.2.2.2; simp at this; exact this.1
    rw [meta_skip k (skip_to k hs hso) (by simp) (fun kw _ => match_sign k (by omega) hprop.2.2.1 hu), skipToken_sign k (by omega) hprop.2.2.1 ?_]
    · exact ih hb (by simp at hn; omega)
    · have := hprop.2.2.2; simp at this ⊢; exact ⟨this.1, this.2.1, this.2.2.1⟩
  | start hs hw hg ha hs2 hm _ ih =>
    rename_i b m s w v g a s₂ t _
    intro n m₀ hb hn
    obtain ⟨n, rfl⟩ : ∃ m, n = m + 1 := ⟨n - 1, by omega⟩
    rw [show s ++ w ++ g ++ a ++ s₂ ++ '{' :: t = s ++ (w ++ (g ++ (a ++ (s₂ ++ '{' :: t)))) by simp]
    simp only [List.mem_cons, List.not_mem_nil, or_false] at hw
    rcases hw with rfl | rfl
    · rw [meta_keyword k hs (by decide) hg (x := .mod) (by decide)]
      simp only [metaStep, read_value k hg.sep ha hs2 (.inr rfl), Except.map, Loop.after]
      rw [ih (by exact hb) (by simp at hn; omega)]
      simp [Metadata.with, hm]
    · rw [meta_keyword k hs (by decide) hg (x := .sub) (by decide)]
      simp only [metaStep, read_value k hg.sep ha hs2 (.inr rfl), Except.map, Loop.after]
      rw [ih (by exact hb) (by simp at hn; omega)]
      simp [Metadata.with, hm]
  | uri hs hx hm _ ih =>
    rename_i b m s v x t _
    intro n m₀ hb hn
    obtain ⟨n, rfl⟩ : ∃ m, n = m + 1 := ⟨n - 1, by omega⟩
    obtain ⟨g, a, s₂, hg, ha, hs2, rfl⟩ := hx
    rw [show s ++ ("namespace".toList ++ g ++ a ++ s₂ ++ [';']) ++ t = s ++ ("namespace".toList ++ (g ++ (a ++ (s₂ ++ ';' :: t)))) by simp,
      meta_keyword k hs (by decide) hg (x := .uri) (by decide)]
    simp only [metaStep, read_value k hg.sep ha hs2 (.inl rfl), Except.map, Loop.after]
    rw [ih (by exact hb) (by simp at hn; omega)]
    simp [Metadata.with, hm]
  | parent hs hx hm _ ih =>
    rename_i b m s v x t _
    intro n m₀ hb hn
    obtain ⟨n, rfl⟩ : ∃ m, n = m + 1 := ⟨n - 1, by omega⟩
    obtain ⟨g, a, s₂, i, hg, ha, hs2, hi, rfl⟩ := hx
    obtain ⟨cs, h1, h2⟩ := need_arg k hg.sep ha hs2 (.inr rfl : Ender '{') (r := i ++ '}' :: t)
    rw [show s ++ ("belongs-to".toList ++ g ++ a ++ s₂ ++ '{' :: (i ++ ['}'])) ++ t = s ++ ("belongs-to".toList ++ (g ++ (a ++ (s₂ ++ '{' :: (i ++ '}' :: t))))) by simp,
      meta_keyword k hs (by decide) hg (x := .belongsTo) (by decide)]
    simp only [metaStep, h1, Except.bind, skip_braces k h2 hi, Except.map, Loop.after]
    rw [ih (by exact hb) (by simp at hn; omega)]
    simp [Metadata.with, hm]
  | version hs hx _ ih =>
    rename_i b m s v x t _
    intro n m₀ hb hn
    obtain ⟨n, rfl⟩ : ∃ m, n = m + 1 := ⟨n - 1, by omega⟩
    obtain ⟨g, a, s₂, hg, ha, hs2, rfl⟩ := hx
    obtain ⟨cs, h1, h2⟩ := ha.read k hs2 (.inl rfl : Ender ';') (r := t)
    rw [show s ++ ("yang-version".toList ++ g ++ a ++ s₂ ++ [';']) ++ t = s ++ ("yang-version".toList ++ (g ++ (a ++ (s₂ ++ ';' :: t)))) by simp,
      meta_keyword k hs (by decide) hg (x := .yangVersion) (by decide)]
    simp only [metaStep, skip_to k hg.sep (ha.solid _), Except.bind, h1, h2, expectChar, skip_solid k (Ender.solid (.inl rfl) t), if_true, Except.map, Loop.after]
    exact ih hb (by simp at hn; omega)
  | revision hs hx _ ih =>
    rename_i b m s v x t _
    intro n m₀ hb hn
    obtain ⟨n, rfl⟩ : ∃ m, n = m + 1 := ⟨n - 1, by omega⟩
    have hm : ∀ o : Option (List Char), (some (o.getD v)).or m.revision = o.or (some v) := by intro o; cases o <;> rfl
    rcases hx with ⟨g, a, s₂, hg, ha, hs2, rfl⟩ | ⟨g, a, s₂, i, hg, ha, hs2, hi, rfl⟩
    · obtain ⟨cs, h1, h2⟩ := need_arg k hg.sep ha hs2 (.inl rfl : Ender ';') (r := t)
      rw [show s ++ ("revision".toList ++ g ++ a ++ s₂ ++ [';']) ++ t = s ++ ("revision".toList ++ (g ++ (a ++ (s₂ ++ ';' :: t)))) by simp,
        meta_keyword k hs (by decide) hg (x := .revision) (by decide)]
      simp only [metaStep, h1, Except.bind, h2, List.head?_cons]
      have hne : ¬some ';' = some '{' := by decide
      simp only [hne, if_false, expectChar, skip_solid k (Ender.solid (.inl rfl) t), Except.bind, if_true, Except.map, Loop.after]
      rw [ih (by exact hb) (by simp at hn; omega)]
      simp [Metadata.with, hm]
    · obtain ⟨cs, h1, h2⟩ := need_arg k hg.sep ha hs2 (.inr rfl : Ender '{') (r := i ++ '}' :: t)
      rw [show s ++ ("revision".toList ++ g ++ a ++ s₂ ++ '{' :: (i ++ ['}'])) ++ t = s ++ ("revision".toList ++ (g ++ (a ++ (s₂ ++ '{' :: (i ++ '}' :: t))))) by simp,
        meta_keyword k hs (by decide) hg (x := .revision) (by decide)]
      simp only [metaStep, h1, Except.bind, h2, List.head?_cons, if_true]
      rw [skip_braces k (skip_solid k (Ender.solid (.inr rfl) _)) hi]
      simp only [Except.map, Loop.after]
      rw [ih (by exact hb) (by simp at hn; omega)]
      simp [Metadata.with, hm]
  | pre hs hx hm _ ih =>
    rename_i m s v x t _
    intro n m₀ hb hn
    obtain ⟨n, rfl⟩ : ∃ m, n = m + 1 := ⟨n - 1, by omega⟩
    obtain ⟨g, a, s₂, hg, ha, hs2, rfl⟩ := hx
    have hp : m₀.pre = none := by cases h : m₀.pre with | none => rfl | some x => rw [h] at hb; cases hb
    rw [show s ++ ("prefix".toList ++ g ++ a ++ s₂ ++ [';']) ++ t = s ++ ("prefix".toList ++ (g ++ (a ++ (s₂ ++ ';' :: t)))) by simp,
      meta_keyword k hs (by decide) hg (x := .pre) (by decide)]
    simp only [metaStep]
    rw [if_pos hp]
    simp only [read_value k hg.sep ha hs2 (.inl rfl), Except.map, Loop.after]
    rw [ih rfl (by simp at hn; omega)]
    simp [Metadata.with, hp]
  | imported hs hg ha _ ih =>
    rename_i m s g a t _
    intro n m₀ hb hn
    obtain ⟨n, rfl⟩ : ∃ m, n = m + 1 := ⟨n - 1, by omega⟩
    have hp : m₀.pre ≠ none := by intro h; rw [h] at hb; cases hb
    rw [show s ++ "prefix".toList ++ g ++ a ++ ';' :: t = s ++ ("prefix".toList ++ (g ++ (a ++ ';' :: t))) by simp,
      meta_keyword k hs (by decide) hg (x := .pre) (by decide)]
    simp only [metaStep]
    rw [if_neg hp]
    have : skipStatement k (g ++ (a ++ ';' :: t)) = .ok t := by
      show skipS k 0 none _ = _
      rw [skipS_congr k (skip_sep k hg.sep), skipS_inside k ha (by simp), skipS_code k (skip_solid k (Ender.solid (.inl rfl) _))]
      rfl
    simp only [this, Except.map, Loop.after]
    exact ih hb (by simp at hn; omega)

end Verif.Yang
