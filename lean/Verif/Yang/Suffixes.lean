import Verif.Yang.Skipping
/-! # What is left is a part of what there was, and nothing panics on texts in ASCII -/
namespace Verif.Yang

theorem suffix_cons {a b : List Char} {c : Char} (h : a <:+ b) : a <:+ c :: b := h.trans (List.suffix_cons c b)

theorem skipSep_suffix (k : Classes) : ∀ {m : Mode} {cs r : List Char}, skipSep k m cs = .ok r → r <:+ cs := by
  intro m cs
  fun_induction skipSep k m cs <;> intro r h
  all_goals first
    | (cases h; done)
    | (cases h; exact List.suffix_refl _)
    | (rename_i ih; exact suffix_cons (ih h))
    | (rename_i ih; exact suffix_cons (suffix_cons (ih h)))

theorem readDouble_suffix (cs : List Char) : (readDouble cs).2 <:+ cs := by
  fun_induction readDouble cs
  all_goals first
    | exact List.suffix_refl _
    | exact List.suffix_cons _ _
    | exact List.nil_suffix
    | (rename_i r ih; exact suffix_cons ih)
    | (rename_i r ih; exact suffix_cons (suffix_cons ih))

theorem readSingle_suffix (cs : List Char) : (readSingle cs).2 <:+ cs := by
  fun_induction readSingle cs
  all_goals first
    | exact List.suffix_refl _
    | exact List.suffix_cons _ _
    | exact List.nil_suffix
    | (rename_i r ih; exact suffix_cons ih)

theorem bind_ok {α β : Type} {x : Except Stop α} {f : α → Except Stop β} {b : β} (h : x.bind f = .ok b) : ∃ a, x = .ok a ∧ f a = .ok b := by
  cases x with
  | error e => cases h
  | ok a => exact ⟨a, rfl, h⟩

theorem map_ok {α β : Type} {x : Except Stop α} {f : α → β} {b : β} (h : x.map f = .ok b) : ∃ a, x = .ok a ∧ f a = b := by
  cases x with
  | error e => cases h
  | ok a => cases h; exact ⟨a, rfl, rfl⟩

theorem readParts_suffix (k : Classes) : ∀ {n : Nat} {acc cs v r : List Char}, readParts k n acc cs = .ok (v, r) → r <:+ cs := by
  intro n
  induction n with
  | zero => intro acc cs v r h; cases h; exact List.suffix_refl _
  | succ n ih =>
    intro acc cs v r h
    rw [readParts] at h
    obtain ⟨x, hx, h⟩ := bind_ok h
    have h1 := skipSep_suffix k hx
    simp only at h
    split at h
    · obtain ⟨y, hy, h⟩ := bind_ok h
      have h2 := skipSep_suffix k hy
      have h3 : y <:+ cs := h2.trans ((List.suffix_cons _ _).trans h1)
      split at h
      · exact ((ih h).trans ((readDouble_suffix _).trans (List.suffix_cons _ _))).trans h3
      · exact ((ih h).trans ((readSingle_suffix _).trans (List.suffix_cons _ _))).trans h3
      · cases h; exact h3
    · cases h; exact h1

theorem readIdentifier_suffix (k : Classes) {cs v r : List Char} (h : readIdentifier k cs = some (v, r)) : r <:+ cs := by
  cases cs with
  | nil => cases h
  | cons c cs =>
    rw [readIdentifier] at h
    split at h
    · cases h; exact suffix_cons (List.dropWhile_suffix _)
    · cases h

theorem readArg_suffix (k : Classes) {cs r : List Char} {v : Option (List Char)} (h : readArg k cs = .ok (v, r)) : r <:+ cs := by
  unfold readArg at h
  obtain ⟨x, hx, h⟩ := bind_ok h
  have h1 := skipSep_suffix k hx
  split at h
  · rename_i y
    have h2 := readDouble_suffix y
    split at h
    · rename_i e
      obtain ⟨z, hz, hv⟩ := map_ok h
      cases hv
      rw [e] at h2
      exact (readParts_suffix k hz).trans (h2.trans ((List.suffix_cons _ _).trans h1))
    · rename_i e
      cases h
      rw [e] at h2
      exact h2.trans ((List.suffix_cons _ _).trans h1)
  · rename_i y
    have h2 := readSingle_suffix y
    split at h
    · rename_i e
      obtain ⟨z, hz, hv⟩ := map_ok h
      cases hv
      rw [e] at h2
      exact (readParts_suffix k hz).trans (h2.trans ((List.suffix_cons _ _).trans h1))
    · rename_i e
      cases h
      rw [e] at h2
      exact h2.trans ((List.suffix_cons _ _).trans h1)
  · split at h
    · rename_i e; cases h; exact (readIdentifier_suffix k e).trans h1
    · cases h; exact h1

theorem needArg_suffix (k : Classes) {cs v r : List Char} (h : needArg k cs = .ok (v, r)) : r <:+ cs := by
  unfold needArg at h
  obtain ⟨x, hx, h⟩ := bind_ok h
  obtain ⟨y, hy, h⟩ := bind_ok h
  split at h
  · cases h; exact (readArg_suffix k hy).trans (skipSep_suffix k hx)
  · cases h

theorem expectChar_suffix (k : Classes) {e : Char} {cs r : List Char} (h : expectChar k e cs = .ok r) : r <:+ cs := by
  unfold expectChar at h
  obtain ⟨x, hx, h⟩ := bind_ok h
  have := skipSep_suffix k hx
  split at h
  · cases h
  · split at h
    · cases h; exact (List.suffix_cons _ _).trans this
    · cases h

theorem readValue_suffix (k : Classes) {e : Char} {cs v r : List Char} (h : readValue k e cs = .ok (v, r)) : r <:+ cs := by
  unfold readValue at h
  obtain ⟨x, hx, h⟩ := bind_ok h
  obtain ⟨y, hy, h⟩ := bind_ok h
  obtain ⟨z, hz, h⟩ := map_ok h
  cases h
  exact ((expectChar_suffix k hz).trans (skipSep_suffix k hy)).trans (needArg_suffix k hx)

theorem skipLoop_suffix (k : Classes) : ∀ {n d : Nat} {q : Option (Char × Char)} {cs r : List Char}, skipLoop k n d q cs = .ok r → r <:+ cs := by
  intro n
  induction n with
  | zero => intro d q cs r h; cases h; exact List.suffix_refl _
  | succ n ih =>
    intro d q cs r h
    cases cs with
    | nil => simp only [skipLoop] at h; cases h; exact List.suffix_refl _
    | cons c cs =>
      cases q with
      | some q =>
        obtain ⟨q, b⟩ := q
        simp only [skipLoop] at h
        split at h
        · exact suffix_cons (ih h)
        · exact suffix_cons (ih h)
      | none =>
        simp only [skipLoop] at h
        obtain ⟨x, hx, h⟩ := bind_ok h
        have h1 := skipSep_suffix k hx
        split at h
        · cases h; exact h1
        · exact ((ih h).trans (List.suffix_cons _ _)).trans h1
        · exact ((ih h).trans (List.suffix_cons _ _)).trans h1
        · exact ((ih h).trans (List.suffix_cons _ _)).trans h1
        · split at h
          · cases h; exact h1
          · cases h; exact (List.suffix_cons _ _).trans h1
          · exact ((ih h).trans (List.suffix_cons _ _)).trans h1
        · split at h
          · cases h; exact (List.suffix_cons _ _).trans h1
          · exact ((ih h).trans (List.suffix_cons _ _)).trans h1
        · exact ((ih h).trans (List.suffix_cons _ _)).trans h1

theorem skipStatement_suffix (k : Classes) {cs r : List Char} (h : skipStatement k cs = .ok r) : r <:+ cs := skipLoop_suffix k h

theorem peekTail_prefix (k : Classes) : ∀ {cs w : List Char}, peekTail k cs = .ok w → w <+: cs := by
  intro cs
  induction cs with
  | nil => intro w h; cases h; exact List.prefix_refl _
  | cons c cs ih =>
    intro w h
    rw [peekTail] at h
    split at h
    · cases h; exact List.nil_prefix
    · split at h
      · split at h
        · obtain ⟨x, hx, rfl⟩ := map_ok h
          obtain ⟨t, ht⟩ := ih hx
          exact ⟨t, by rw [← ht]; rfl⟩
        · cases h
      · cases h; exact List.nil_prefix

theorem peekIdentifier_prefix (k : Classes) {cs w : List Char} (h : peekIdentifier k cs = .ok (some w)) : w <+: cs := by
  cases cs with
  | nil => cases h
  | cons c cs =>
    rw [peekIdentifier] at h
    split at h
    · cases h
    · split at h
      · split at h
        · obtain ⟨x, hx, e⟩ := map_ok h
          cases e
          obtain ⟨t, ht⟩ := peekTail_prefix k hx
          exact ⟨t, by rw [← ht]; rfl⟩
        · cases h
      · cases h

theorem matchKeyword_some (k : Classes) {keyword cs r : List Char} (h : matchKeyword k keyword cs = .ok (some r)) : cs = keyword ++ r := by
  unfold matchKeyword at h
  obtain ⟨x, hx, h⟩ := map_ok h
  split at h
  · rename_i e
    cases h
    rw [e.1] at hx
    obtain ⟨t, ht⟩ := peekIdentifier_prefix k hx
    rw [← ht, List.drop_left' rfl]
  · cases h

theorem skipToken_suffix (k : Classes) {c : Char} {cs : List Char} : skipToken k (c :: cs) <:+ cs := by
  rw [skipToken.eq_def]
  split
  · rename_i e; cases e
  · rename_i e; cases e; exact readDouble_suffix _
  · rename_i e; cases e; exact readSingle_suffix _
  · rename_i e
    cases e
    split
    · exact List.dropWhile_suffix _
    · exact List.suffix_refl _

/-! ## Panics -/

/-- a text in ASCII -/
def Ascii (cs : List Char) : Prop := ∀ c ∈ cs, c.toNat < 128

theorem Ascii.suffix {a b : List Char} (h : Ascii b) (hs : a <:+ b) : Ascii a := fun c hc => h c (hs.subset hc)

theorem Ascii.tail {c : Char} {b : List Char} (h : Ascii (c :: b)) : Ascii b := h.suffix (List.suffix_cons _ _)

/-- no panic -/
def Calm {α : Type} (x : Except Stop α) : Prop := x ≠ .error .panicked

theorem Calm.ok {α : Type} {a : α} : Calm (.ok a : Except Stop α) := nofun
theorem Calm.failed {α : Type} : Calm (.error .failed : Except Stop α) := nofun

theorem Calm.bind {α β : Type} {x : Except Stop α} {f : α → Except Stop β} (hx : Calm x) (hf : ∀ a, x = .ok a → Calm (f a)) : Calm (x.bind f) := by
  cases x with
  | error e => exact fun h => hx (by cases h; rfl)
  | ok a => exact hf a rfl

theorem Calm.map {α β : Type} {x : Except Stop α} {f : α → β} (hx : Calm x) : Calm (x.map f) := by
  cases x with
  | error e => exact fun h => hx (by cases h; rfl)
  | ok a => exact Calm.ok

theorem lastWide_ascii {cs : List Char} (h : Ascii cs) : lastWide cs = false := by
  unfold lastWide
  split
  · have := h _ List.mem_cons_self
    simp only [decide_eq_false_iff_not]; omega
  · rfl

theorem skipSep_calm (k : Classes) : ∀ {m : Mode} {cs : List Char}, Ascii cs → Calm (skipSep k m cs) := by
  intro m cs
  fun_induction skipSep k m cs <;> intro h
  all_goals first
    | exact Calm.ok
    | (rename_i e; rw [lastWide_ascii h] at e; cases e; done)
    | (rename_i ih; exact ih h.tail)
    | (rename_i ih; exact ih h.tail.tail)

theorem peekTail_calm (k : Classes) : ∀ {cs : List Char}, Ascii cs → Calm (peekTail k cs) := by
  intro cs
  induction cs with
  | nil => intro _; exact Calm.ok
  | cons c cs ih =>
    intro h
    obtain ⟨b, e, _⟩ := utf8_ascii (h c List.mem_cons_self)
    simp only [peekTail, e]
    split
    · simp only [List.all_nil, if_true]; exact (ih h.tail).map
    · exact Calm.ok

theorem peekIdentifier_calm (k : Classes) {cs : List Char} (h : Ascii cs) : Calm (peekIdentifier k cs) := by
  cases cs with
  | nil => exact Calm.ok
  | cons c cs =>
    obtain ⟨b, e, _⟩ := utf8_ascii (h c List.mem_cons_self)
    simp only [peekIdentifier, e]
    split
    · simp only [List.all_nil, if_true]; exact (peekTail_calm k h.tail).map
    · exact Calm.ok

theorem matchKeyword_calm (k : Classes) {keyword cs : List Char} (h : Ascii cs) : Calm (matchKeyword k keyword cs) := (peekIdentifier_calm k h).map

theorem readParts_calm (k : Classes) : ∀ {n : Nat} {acc cs : List Char}, Ascii cs → Calm (readParts k n acc cs) := by
  intro n
  induction n with
  | zero => intro acc cs _; exact Calm.ok
  | succ n ih =>
    intro acc cs h
    rw [readParts]
    refine (skipSep_calm k h).bind fun x hx => ?_
    have hx := h.suffix (skipSep_suffix k hx)
    split
    · refine (skipSep_calm k hx.tail).bind fun y hy => ?_
      have hy := hx.tail.suffix (skipSep_suffix k hy)
      split
      · exact ih (hy.tail.suffix (readDouble_suffix _))
      · exact ih (hy.tail.suffix (readSingle_suffix _))
      · exact Calm.ok
    · exact Calm.ok

theorem readArg_calm (k : Classes) {cs : List Char} (h : Ascii cs) : Calm (readArg k cs) := by
  unfold readArg
  refine (skipSep_calm k h).bind fun x hx => ?_
  have hx := h.suffix (skipSep_suffix k hx)
  split
  · rename_i y _
    have h2 := hx.tail.suffix (readDouble_suffix y)
    split
    · rename_i e; rw [e] at h2; exact (readParts_calm k h2).map
    · exact Calm.ok
  · rename_i y _
    have h2 := hx.tail.suffix (readSingle_suffix y)
    split
    · rename_i e; rw [e] at h2; exact (readParts_calm k h2).map
    · exact Calm.ok
  · split
    · exact Calm.ok
    · exact Calm.ok

theorem needArg_calm (k : Classes) {cs : List Char} (h : Ascii cs) : Calm (needArg k cs) := by
  unfold needArg
  refine (skipSep_calm k h).bind fun x hx => (readArg_calm k (h.suffix (skipSep_suffix k hx))).bind fun y _ => ?_
  split
  · exact Calm.ok
  · exact Calm.failed

theorem expectChar_calm (k : Classes) {e : Char} {cs : List Char} (h : Ascii cs) : Calm (expectChar k e cs) := by
  unfold expectChar
  refine (skipSep_calm k h).bind fun x _ => ?_
  split
  · exact Calm.failed
  · split
    · exact Calm.ok
    · exact Calm.failed

theorem readValue_calm (k : Classes) {e : Char} {cs : List Char} (h : Ascii cs) : Calm (readValue k e cs) := by
  unfold readValue
  refine (needArg_calm k h).bind fun x hx => ?_
  have h1 := h.suffix (needArg_suffix k (v := x.1) (r := x.2) hx)
  exact (skipSep_calm k h1).bind fun y hy => (expectChar_calm k (h1.suffix (skipSep_suffix k hy))).map

theorem skipLoop_calm (k : Classes) : ∀ {n d : Nat} {q : Option (Char × Char)} {cs : List Char}, Ascii cs → Calm (skipLoop k n d q cs) := by
  intro n
  induction n with
  | zero => intro d q cs _; exact Calm.ok
  | succ n ih =>
    intro d q cs h
    cases cs with
    | nil => simp only [skipLoop]; exact Calm.ok
    | cons c cs =>
      cases q with
      | some q =>
        obtain ⟨q, b⟩ := q
        simp only [skipLoop]
        split
        · exact ih h.tail
        · exact ih h.tail
      | none =>
        simp only [skipLoop]
        refine (skipSep_calm k h).bind fun x hx => ?_
        have hx := h.suffix (skipSep_suffix k hx)
        split
        · exact Calm.ok
        · exact ih hx.tail
        · exact ih hx.tail
        · exact ih hx.tail
        · split
          · exact Calm.ok
          · exact Calm.ok
          · exact ih hx.tail
        · split
          · exact Calm.ok
          · exact ih hx.tail
        · exact ih hx.tail

theorem skipStatement_calm (k : Classes) {cs : List Char} (h : Ascii cs) : Calm (skipStatement k cs) := skipLoop_calm k h

theorem matchAny_calm (k : Classes) {ws : List (List Char)} {cs : List Char} (h : Ascii cs) : Calm (matchAny k ws cs) := by
  induction ws with
  | nil => exact Calm.ok
  | cons w ws ih =>
    rw [matchAny]
    refine (matchKeyword_calm k h).bind fun x _ => ?_
    split
    · exact Calm.ok
    · exact ih

theorem matchFirst_calm (k : Classes) {ws : List (List Char × Keyword)} {cs : List Char} (h : Ascii cs) : Calm (matchFirst k ws cs) := by
  induction ws with
  | nil => exact Calm.ok
  | cons w ws ih =>
    rw [matchFirst]
    refine (matchKeyword_calm k h).bind fun x _ => ?_
    split
    · exact Calm.ok
    · exact ih

theorem matchFirst_some (k : Classes) {ws : List (List Char × Keyword)} {cs r : List Char} {w : Keyword} (hn : ∀ x ∈ ws, x.1 ≠ []) (h : matchFirst k ws cs = .ok (some (w, r))) :
    r <:+ cs ∧ r.length < cs.length := by
  induction ws with
  | nil => cases h
  | cons x ws ih =>
    rw [matchFirst] at h
    obtain ⟨y, hy, h⟩ := bind_ok h
    split at h
    · cases h
      have := matchKeyword_some k hy
      subst this
      have := List.length_pos_iff.mpr (hn x List.mem_cons_self)
      exact ⟨List.suffix_append _ _, by simp only [List.length_append]; omega⟩
    · exact ih (fun z hz => hn z (List.mem_cons_of_mem _ hz)) h

theorem metaStep_calm (k : Classes) {m : Metadata} {cs : List Char} {w : Keyword} (h : Ascii cs) : Calm (metaStep k m cs w) := by
  cases w <;> simp only [metaStep]
  · exact (readValue_calm k h).map
  · exact (readValue_calm k h).map
  · exact (needArg_calm k h).bind fun x hx => (skipStatement_calm k (h.suffix (needArg_suffix k (v := x.1) (r := x.2) hx))).map
  · exact (readValue_calm k h).map
  · split
    · exact (readValue_calm k h).map
    · exact (skipStatement_calm k h).map
  · refine (skipSep_calm k h).bind fun x hx => ?_
    have hx := h.suffix (skipSep_suffix k hx)
    refine (readArg_calm k hx).bind fun y hy => ?_
    have hy := hx.suffix (readArg_suffix k (v := y.1) (r := y.2) hy)
    exact (skipSep_calm k hy).bind fun z hz => (expectChar_calm k (hy.suffix (skipSep_suffix k hz))).map
  · refine (needArg_calm k h).bind fun x hx => ?_
    have hx := h.suffix (needArg_suffix k (v := x.1) (r := x.2) hx)
    refine (skipSep_calm k hx).bind fun y hy => ?_
    have hy := hx.suffix (skipSep_suffix k hy)
    split
    · exact (skipStatement_calm k hy).map
    · exact (expectChar_calm k hy).map

theorem metaStep_suffix (k : Classes) {m m' : Metadata} {cs r : List Char} {w : Keyword} (h : metaStep k m cs w = .ok (m', r)) : r <:+ cs := by
  cases w <;> simp only [metaStep] at h
  · obtain ⟨x, hx, e⟩ := map_ok h; cases e; exact readValue_suffix k (v := x.1) (r := x.2) hx
  · obtain ⟨x, hx, e⟩ := map_ok h; cases e; exact readValue_suffix k (v := x.1) (r := x.2) hx
  · obtain ⟨x, hx, h⟩ := bind_ok h
    obtain ⟨y, hy, e⟩ := map_ok h
    cases e
    exact (skipStatement_suffix k hy).trans (needArg_suffix k (v := x.1) (r := x.2) hx)
  · obtain ⟨x, hx, e⟩ := map_ok h; cases e; exact readValue_suffix k (v := x.1) (r := x.2) hx
  · split at h
    · obtain ⟨x, hx, e⟩ := map_ok h; cases e; exact readValue_suffix k (v := x.1) (r := x.2) hx
    · obtain ⟨x, hx, e⟩ := map_ok h; cases e; exact skipStatement_suffix k hx
  · obtain ⟨x, hx, h⟩ := bind_ok h
    obtain ⟨y, hy, h⟩ := bind_ok h
    obtain ⟨z, hz, h⟩ := bind_ok h
    obtain ⟨u, hu, e⟩ := map_ok h
    cases e
    exact (((expectChar_suffix k hu).trans (skipSep_suffix k hz)).trans (readArg_suffix k (v := y.1) (r := y.2) hy)).trans (skipSep_suffix k hx)
  · obtain ⟨x, hx, h⟩ := bind_ok h
    obtain ⟨y, hy, h⟩ := bind_ok h
    have h1 := (skipSep_suffix k hy).trans (needArg_suffix k (v := x.1) (r := x.2) hx)
    split at h
    · obtain ⟨z, hz, e⟩ := map_ok h; cases e; exact (skipStatement_suffix k hz).trans h1
    · obtain ⟨z, hz, e⟩ := map_ok h; cases e; exact (expectChar_suffix k hz).trans h1

/-! ## Loops -/

/-- no panic, however many rounds -/
def Quiet {α : Type} (x : Loop α) : Prop := x ≠ some (.error .panicked)

theorem Quiet.none {α : Type} : Quiet (none : Loop α) := nofun
theorem Quiet.ok {α : Type} {a : α} : Quiet (some (.ok a) : Loop α) := nofun
theorem Quiet.failed {α : Type} : Quiet (some (.error .failed) : Loop α) := nofun

theorem Quiet.after {α β : Type} {x : Except Stop α} {f : α → Loop β} (hx : Calm x) (hf : ∀ a, x = .ok a → Quiet (f a)) : Quiet (Loop.after x f) := by
  cases x with
  | error e => exact fun h => hx (by cases h; rfl)
  | ok a => exact hf a rfl

theorem keyword_ascii (k : Classes) {keyword cs r : List Char} (h : Ascii cs) (hm : matchKeyword k keyword cs = .ok (some r)) : Ascii r := by
  have := matchKeyword_some k hm
  subst this
  exact h.suffix (List.suffix_append _ _)

theorem importBody_quiet (k : Classes) : ∀ {n : Nat} {p r : Option (List Char)} {cs : List Char}, Ascii cs →
    Quiet (importBody k n p r cs) ∧ ∀ x, importBody k n p r cs = some (.ok x) → x.2.2 <:+ cs := by
  intro n
  induction n with
  | zero => intro p r cs _; exact ⟨Quiet.none, nofun⟩
  | succ n ih =>
    intro p r cs h
    constructor
    · rw [importBody]
      refine Quiet.after (skipSep_calm k h) fun x hx => ?_
      have hx := h.suffix (skipSep_suffix k hx)
      split
      · exact Quiet.ok
      · refine Quiet.after (matchKeyword_calm k hx) fun y hy => ?_
        split
        · have hy := keyword_ascii k hx hy
          exact Quiet.after (readValue_calm k hy) fun z hz => (ih (hy.suffix (readValue_suffix k (v := z.1) (r := z.2) hz))).1
        · refine Quiet.after (matchKeyword_calm k hx) fun y hy => ?_
          split
          · have hy := keyword_ascii k hx hy
            exact Quiet.after (readValue_calm k hy) fun z hz => (ih (hy.suffix (readValue_suffix k (v := z.1) (r := z.2) hz))).1
          · exact Quiet.after (skipStatement_calm k hx) fun z hz => (ih (hx.suffix (skipStatement_suffix k hz))).1
    · intro x hr
      rw [importBody] at hr
      cases hs : skipSep k .code cs with
      | error e => rw [hs] at hr; cases hr
      | ok y =>
        rw [hs] at hr
        simp only [Loop.after] at hr
        have hsy := skipSep_suffix k hs
        have hy := h.suffix hsy
        split at hr
        · cases hr; exact (List.tail_suffix _).trans hsy
        · cases hm : matchKeyword k "prefix".toList y with
          | error e => rw [hm] at hr; cases hr
          | ok z =>
            rw [hm] at hr
            cases z with
            | some z =>
              simp only at hr
              have hz := keyword_ascii k hy hm
              have hzs : z <:+ y := by have := matchKeyword_some k hm; rw [this]; exact List.suffix_append _ _
              cases hv : readValue k ';' z with
              | error e => rw [hv] at hr; cases hr
              | ok v =>
                rw [hv] at hr
                have h1 := readValue_suffix k (v := v.1) (r := v.2) hv
                exact (((ih (hz.suffix h1)).2 x hr).trans h1).trans (hzs.trans hsy)
            | none =>
              simp only at hr
              cases hm : matchKeyword k "revision-date".toList y with
              | error e => rw [hm] at hr; cases hr
              | ok z =>
                rw [hm] at hr
                cases z with
                | some z =>
                  simp only at hr
                  have hz := keyword_ascii k hy hm
                  have hzs : z <:+ y := by have := matchKeyword_some k hm; rw [this]; exact List.suffix_append _ _
                  cases hv : readValue k ';' z with
                  | error e => rw [hv] at hr; cases hr
                  | ok v =>
                    rw [hv] at hr
                    have h1 := readValue_suffix k (v := v.1) (r := v.2) hv
                    exact (((ih (hz.suffix h1)).2 x hr).trans h1).trans (hzs.trans hsy)
                | none =>
                  simp only at hr
                  cases hv : skipStatement k y with
                  | error e => rw [hv] at hr; cases hr
                  | ok v =>
                    rw [hv] at hr
                    have h1 := skipStatement_suffix k hv
                    exact (((ih (hy.suffix h1)).2 x hr).trans h1).trans hsy

theorem includeBody_quiet (k : Classes) : ∀ {n : Nat} {r : Option (List Char)} {cs : List Char}, Ascii cs →
    Quiet (includeBody k n r cs) ∧ ∀ x, includeBody k n r cs = some (.ok x) → x.2 <:+ cs := by
  intro n
  induction n with
  | zero => intro r cs _; exact ⟨Quiet.none, nofun⟩
  | succ n ih =>
    intro r cs h
    constructor
    · rw [includeBody]
      refine Quiet.after (skipSep_calm k h) fun x hx => ?_
      have hx := h.suffix (skipSep_suffix k hx)
      split
      · exact Quiet.ok
      · refine Quiet.after (matchKeyword_calm k hx) fun y hy => ?_
        split
        · have hy := keyword_ascii k hx hy
          exact Quiet.after (readValue_calm k hy) fun z hz => (ih (hy.suffix (readValue_suffix k (v := z.1) (r := z.2) hz))).1
        · exact Quiet.after (skipStatement_calm k hx) fun z hz => (ih (hx.suffix (skipStatement_suffix k hz))).1
    · intro x hr
      rw [includeBody] at hr
      cases hs : skipSep k .code cs with
      | error e => rw [hs] at hr; cases hr
      | ok y =>
        rw [hs] at hr
        simp only [Loop.after] at hr
        have hsy := skipSep_suffix k hs
        have hy := h.suffix hsy
        split at hr
        · cases hr; exact (List.tail_suffix _).trans hsy
        · cases hm : matchKeyword k "revision-date".toList y with
          | error e => rw [hm] at hr; cases hr
          | ok z =>
            rw [hm] at hr
            cases z with
            | some z =>
              simp only at hr
              have hz := keyword_ascii k hy hm
              have hzs : z <:+ y := by have := matchKeyword_some k hm; rw [this]; exact List.suffix_append _ _
              cases hv : readValue k ';' z with
              | error e => rw [hv] at hr; cases hr
              | ok v =>
                rw [hv] at hr
                have h1 := readValue_suffix k (v := v.1) (r := v.2) hv
                exact (((ih (hz.suffix h1)).2 x hr).trans h1).trans (hzs.trans hsy)
            | none =>
              simp only at hr
              cases hv : skipStatement k y with
              | error e => rw [hv] at hr; cases hr
              | ok v =>
                rw [hv] at hr
                have h1 := skipStatement_suffix k hv
                exact (((ih (hy.suffix h1)).2 x hr).trans h1).trans hsy

theorem parseImport_quiet (k : Classes) {n : Nat} {cs : List Char} (h : Ascii cs) :
    Quiet (parseImport k n cs) ∧ ∀ x, parseImport k n cs = some (.ok x) → x.2 <:+ cs := by
  unfold parseImport
  cases hv : readValue k '{' cs with
  | error e => exact ⟨fun e' => readValue_calm k h (by cases e'; exact hv), nofun⟩
  | ok v =>
    have h1 := readValue_suffix k (v := v.1) (r := v.2) hv
    obtain ⟨hq, hsuf⟩ := importBody_quiet k (n := n) (p := none) (r := none) (h.suffix h1)
    simp only [Loop.after]
    split
    · exact ⟨Quiet.none, nofun⟩
    · rename_i e; exact ⟨fun x => hq (by rw [e]; cases x; rfl), nofun⟩
    · exact ⟨Quiet.failed, nofun⟩
    · rename_i e; exact ⟨Quiet.ok, fun x hx => by cases hx; exact (hsuf _ e).trans h1⟩

theorem parseInclude_quiet (k : Classes) {n : Nat} {cs : List Char} (h : Ascii cs) :
    Quiet (parseInclude k n cs) ∧ ∀ x, parseInclude k n cs = some (.ok x) → x.2 <:+ cs := by
  unfold parseInclude
  have hcalm : Calm ((needArg k cs).bind fun r => (skipSep k .code r.2).map fun cs => (r.1, cs)) :=
    (needArg_calm k h).bind fun x hx => (skipSep_calm k (h.suffix (needArg_suffix k (v := x.1) (r := x.2) hx))).map
  cases hv : (needArg k cs).bind fun r => (skipSep k .code r.2).map fun cs => (r.1, cs) with
  | error e => exact ⟨fun e' => hcalm (by cases e'; exact hv), nofun⟩
  | ok v =>
    have h1 : v.2 <:+ cs := by
      obtain ⟨x, hx, hv⟩ := bind_ok hv
      obtain ⟨y, hy, e⟩ := map_ok hv
      cases e
      exact (skipSep_suffix k hy).trans (needArg_suffix k (v := x.1) (r := x.2) hx)
    simp only [Loop.after]
    split
    · rename_i e
      exact ⟨Quiet.ok, fun x hx => by cases hx; exact ((List.suffix_cons _ _).trans (by rw [← e]; exact List.suffix_refl _)).trans h1⟩
    · rename_i c e
      have h2 : c <:+ cs := ((List.suffix_cons _ _).trans (by rw [← e]; exact List.suffix_refl _)).trans h1
      obtain ⟨hq, hsuf⟩ := includeBody_quiet k (n := n) (r := none) (h.suffix h2)
      split
      · exact ⟨Quiet.none, nofun⟩
      · rename_i e; exact ⟨fun x => hq (by rw [e]; cases x; rfl), nofun⟩
      · rename_i e; exact ⟨Quiet.ok, fun x hx => by cases hx; exact (hsuf _ e).trans h2⟩
    · exact ⟨Quiet.failed, nofun⟩

theorem parseLoop_quiet (k : Classes) : ∀ {n : Nat} {is : List Import} {us : List Include} {cs : List Char}, Ascii cs → Quiet (parseLoop k n is us cs) := by
  intro n
  induction n with
  | zero => intro is us cs _; exact Quiet.none
  | succ n ih =>
    intro is us cs h
    rw [parseLoop]
    refine Quiet.after (skipSep_calm k h) fun x hx => ?_
    have hx := h.suffix (skipSep_suffix k hx)
    split
    · exact Quiet.ok
    · refine Quiet.after (matchKeyword_calm k hx) fun y hy => ?_
      split
      · have hy := keyword_ascii k hx hy
        obtain ⟨hq, hsuf⟩ := parseImport_quiet k (n := n) hy
        split
        · exact Quiet.none
        · rename_i e; exact fun x => hq (by rw [e]; cases x; rfl)
        · rename_i e; exact ih (hy.suffix (hsuf _ e))
      · refine Quiet.after (matchKeyword_calm k hx) fun y hy => ?_
        split
        · have hy := keyword_ascii k hx hy
          obtain ⟨hq, hsuf⟩ := parseInclude_quiet k (n := n) hy
          split
          · exact Quiet.none
          · rename_i e; exact fun x => hq (by rw [e]; cases x; rfl)
          · rename_i e; exact ih (hy.suffix (hsuf _ e))
        · refine Quiet.after (matchAny_calm k hx) fun b _ => ?_
          split
          · exact Quiet.ok
          · cases x with
            | nil => exact ih hx
            | cons c x => exact ih (hx.tail.suffix (skipToken_suffix k))

theorem metaLoop_quiet (k : Classes) : ∀ {n : Nat} {m : Metadata} {cs : List Char}, Ascii cs → Quiet (metaLoop k n m cs) := by
  intro n
  induction n with
  | zero => intro m cs _; exact Quiet.none
  | succ n ih =>
    intro m cs h
    rw [metaLoop]
    refine Quiet.after (skipSep_calm k h) fun x hx => ?_
    have hx := h.suffix (skipSep_suffix k hx)
    split
    · exact Quiet.ok
    · refine Quiet.after (matchFirst_calm k hx) fun y hy => ?_
      split
      · have hy := hx.suffix (matchFirst_some k (by decide) hy).1
        exact Quiet.after (metaStep_calm k hy) fun z hz => ih (hy.suffix (metaStep_suffix k (m' := z.1) (r := z.2) hz))
      · refine Quiet.after (matchAny_calm k hx) fun b _ => ?_
        split
        · exact Quiet.ok
        · cases x with
          | nil => exact ih hx
          | cons c x => exact ih (hx.tail.suffix (skipToken_suffix k))

/-! ## Ends -/

/-- metadata is read in at most as many rounds as there are characters, and one more -/
theorem metaLoop_ends (k : Classes) : ∀ {n : Nat} {m : Metadata} {cs : List Char}, cs.length < n → metaLoop k n m cs ≠ none := by
  intro n
  induction n with
  | zero => intro m cs h; omega
  | succ n ih =>
    intro m cs h
    rw [metaLoop]
    cases hs : skipSep k .code cs with
    | error e => exact nofun
    | ok x =>
      have hx := (skipSep_suffix k hs).length_le
      simp only [Loop.after]
      split
      · exact nofun
      · rename_i hne
        cases hm : matchFirst k keywords x with
        | error e => exact nofun
        | ok y =>
          cases y with
          | some y =>
            have h1 := (matchFirst_some k (by decide) (w := y.1) (r := y.2) hm).2
            simp only
            cases hst : metaStep k m y.2 y.1 with
            | error e => exact nofun
            | ok z =>
              have h2 := (metaStep_suffix k (m' := z.1) (r := z.2) hst).length_le
              exact ih (by omega)
          | none =>
            simp only
            cases matchAny k dataKeywords x with
            | error e => exact nofun
            | ok b =>
              simp only
              split
              · exact nofun
              · cases x with
                | nil => exact absurd rfl hne
                | cons c x =>
                  have := (skipToken_suffix k (c := c) (cs := x)).length_le
                  simp only [List.length_cons] at hx
                  exact ih (by omega)

/-- dependencies are read to the end if there are none -/
theorem parseLoop_ends (k : Classes) : ∀ {n : Nat} {is : List Import} {us : List Include} {cs : List Char},
    ¬"import".toList <:+: cs → ¬"include".toList <:+: cs → cs.length < n → parseLoop k n is us cs ≠ none := by
  intro n
  induction n with
  | zero => intro is us cs _ _ h; omega
  | succ n ih =>
    intro is us cs h1 h2 h
    rw [parseLoop]
    cases hs : skipSep k .code cs with
    | error e => exact nofun
    | ok x =>
      have hsx := skipSep_suffix k hs
      have hx := hsx.length_le
      simp only [Loop.after]
      split
      · exact nofun
      · rename_i hne
        cases hm : matchKeyword k "import".toList x with
        | error e => exact nofun
        | ok y =>
          cases y with
          | some y =>
            exfalso
            apply h1
            have := matchKeyword_some k hm
            exact List.IsInfix.trans ⟨[], y, by rw [this]; rfl⟩ hsx.isInfix
          | none =>
            simp only
            cases hm : matchKeyword k "include".toList x with
            | error e => exact nofun
            | ok y =>
              cases y with
              | some y =>
                exfalso
                apply h2
                have := matchKeyword_some k hm
                exact List.IsInfix.trans ⟨[], y, by rw [this]; rfl⟩ hsx.isInfix
              | none =>
                simp only
                cases matchAny k metaKeywords x with
                | error e => exact nofun
                | ok b =>
                  simp only
                  split
                  · exact nofun
                  · cases x with
                    | nil => exact absurd rfl hne
                    | cons c x =>
                      have hsuf := skipToken_suffix k (c := c) (cs := x)
                      have := hsuf.length_le
                      have hin := (hsuf.trans ((List.suffix_cons c x).trans hsx)).isInfix
                      simp only [List.length_cons] at hx
                      exact ih (fun e => h1 (e.trans hin)) (fun e => h2 (e.trans hin)) (by omega)

end Verif.Yang
