import Verif.Yang.Reading
/-! # Statements that are skipped -/
namespace Verif.Yang

theorem skipSep_length (k : Classes) : ∀ {m : Mode} {cs r : List Char}, skipSep k m cs = .ok r → r.length ≤ cs.length := by
  intro m cs
  fun_induction skipSep k m cs <;> intro r h
  all_goals first
    | (cases h; done)
    | (cases h; simp)
    | (rename_i ih; have := ih h; simp only [List.length_cons]; omega)

theorem skipLoop_fuel (k : Classes) : ∀ {n m d : Nat} {q : Option (Char × Char)} {cs : List Char}, cs.length < n → cs.length < m → skipLoop k n d q cs = skipLoop k m d q cs := by
  intro n
  induction n with
  | zero => intro m d q cs h; omega
  | succ n ih =>
    intro m d q cs h1 h2
    obtain ⟨m, rfl⟩ : ∃ m', m = m' + 1 := ⟨m - 1, by omega⟩
    cases cs with
    | nil => simp [skipLoop]
    | cons c cs =>
      simp only [List.length_cons] at h1 h2
      cases q with
      | some q =>
        obtain ⟨q, b⟩ := q
        simp only [skipLoop]
        rw [ih (by omega) (m := m) (by omega) (d := d) (q := none), ih (by omega) (m := m) (by omega) (d := d) (q := some (q, c))]
      | none =>
        simp only [skipLoop]
        cases hs : skipSep k .code (c :: cs) with
        | error e => rfl
        | ok r =>
          have hr := skipSep_length k hs
          simp only [List.length_cons] at hr
          simp only [Except.bind]
          split <;> (try simp only [List.length_cons] at hr)
          · rfl
          · exact ih (by omega) (by omega)
          · exact ih (by omega) (by omega)
          · exact ih (by omega) (by omega)
          · split
            · rfl
            · rfl
            · exact ih (by omega) (by omega)
          · split
            · rfl
            · exact ih (by omega) (by omega)
          · exact ih (by omega) (by omega)

/-- the loop of `skip_statement` without a limit -/
def skipS (k : Classes) (d : Nat) (q : Option (Char × Char)) (cs : List Char) : Except Stop (List Char) := skipLoop k (cs.length + 1) d q cs

theorem skipS_string (k : Classes) {d : Nat} {q b c : Char} {cs : List Char} :
    skipS k d (some (q, b)) (c :: cs) = if c = q ∧ b ≠ '\\' then skipS k d none cs else skipS k d (some (q, c)) cs := by
  unfold skipS
  rw [List.length_cons, skipLoop]

/-- a round outside of strings -/
def skipStep (k : Classes) (d : Nat) : List Char → Except Stop (List Char)
  | [] => .ok []
  | '"' :: cs => skipS k d (some ('"', '"')) cs
  | '\'' :: cs => skipS k d (some ('\'', '\'')) cs
  | '{' :: cs => skipS k (d + 1) none cs
  | '}' :: cs =>
    match d with
    | 0 => .ok ('}' :: cs)
    | 1 => .ok cs
    | d + 2 => skipS k (d + 1) none cs
  | ';' :: cs => if d = 0 then .ok cs else skipS k d none cs
  | _ :: cs => skipS k d none cs

theorem skipS_code (k : Classes) {d : Nat} {cs r : List Char} (h : skipSep k .code cs = .ok r) : skipS k d none cs = skipStep k d r := by
  have hr := skipSep_length k h
  have fuel : ∀ {d q x}, x.length < cs.length → skipLoop k cs.length d q x = skipS k d q x := fun hx => skipLoop_fuel k hx (by omega)
  cases cs with
  | nil => cases h; rfl
  | cons c cs =>
    unfold skipS skipLoop
    rw [h]
    simp only [Except.bind]
    unfold skipStep
    split <;> (try simp only [List.length_cons] at hr)
    · rfl
    · exact fuel (by simp; omega)
    · exact fuel (by simp; omega)
    · exact fuel (by simp; omega)
    · split
      · rfl
      · rfl
      · exact fuel (by simp; omega)
    · split
      · rfl
      · exact fuel (by simp; omega)
    · rename_i c' r' _ _ _ _ _
      rw [fuel (x := r') (by simp only [List.length_cons]; omega)]
      split <;> simp_all

theorem skipS_congr (k : Classes) {d : Nat} {a b : List Char} (h : skipSep k .code a = skipSep k .code b) : skipS k d none a = skipS k d none b := by
  cases ha : skipSep k .code a with
  | ok r => rw [skipS_code k ha, skipS_code k (h ▸ ha)]
  | error e =>
    have hb := h ▸ ha
    have : ∀ x, skipSep k .code x = .error e → skipS k d none x = .error e := by
      intro x hx
      cases x with
      | nil => cases hx
      | cons c x => unfold skipS skipLoop; rw [hx]; rfl
    rw [this a ha, this b hb]

/-- any character that is nothing of its own -/
theorem skipS_char (k : Classes) {d : Nat} {c : Char} {t : List Char} (hs : Solid (c :: t)) (hc : c ∉ ['"', '\'', '{', '}', ';']) : skipS k d none (c :: t) = skipS k d none t := by
  rw [skipS_code k (skip_solid k hs)]
  simp only [List.mem_cons, List.not_mem_nil, or_false, not_or] at hc
  unfold skipStep
  split
  · rename_i e; cases e
  · rename_i e; cases e; exact absurd rfl hc.1
  · rename_i e; cases e; exact absurd rfl hc.2.1
  · rename_i e; cases e; exact absurd rfl hc.2.2.1
  · rename_i e; cases e; exact absurd rfl hc.2.2.2.1
  · rename_i e; cases e; exact absurd rfl hc.2.2.2.2
  · rename_i e; cases e; rfl

theorem skipS_double (k : Classes) {d : Nat} {v t r : List Char} (h : Double v t) :
    ∀ {b : Char}, (b = '\\' → t ≠ []) → t.getLast? ≠ some '\\' → skipS k d (some ('"', b)) (t ++ '"' :: r) = skipS k d none r := by
  have last : ∀ {c : Char} {t : List Char}, (c :: t).getLast? ≠ some '\\' → t.getLast? ≠ some '\\' := by
    intro c t hc e
    cases t with
    | nil => cases e
    | cons x t => rw [List.getLast?_cons_cons] at hc; exact hc e
  induction h with
  | nil =>
    intro b hb _
    rw [List.nil_append, skipS_string, if_pos ⟨rfl, fun e => hb e rfl⟩]
  | plain h1 h2 _ ih =>
    intro b _ hl
    rw [List.cons_append, skipS_string, if_neg (fun e => h1 e.1)]
    exact ih (fun e => absurd e h2) (last hl)
  | newline _ ih =>
    intro b _ hl
    rw [List.cons_append, List.cons_append, skipS_string, if_neg (by simp), skipS_string, if_neg (by simp)]
    exact ih (fun e => absurd e (by decide)) (last (last hl))
  | tab _ ih =>
    intro b _ hl
    rw [List.cons_append, List.cons_append, skipS_string, if_neg (by simp), skipS_string, if_neg (by simp)]
    exact ih (fun e => absurd e (by decide)) (last (last hl))
  | quote _ ih =>
    intro b _ hl
    rw [List.cons_append, List.cons_append, skipS_string, if_neg (by simp), skipS_string, if_neg (by simp)]
    exact ih (fun e => absurd e (by decide)) (last (last hl))
  | backslash h ih =>
    rename_i v t
    intro b _ hl
    rw [List.cons_append, List.cons_append, skipS_string, if_neg (by simp), skipS_string, if_neg (by simp)]
    refine ih (fun _ e => ?_) (last (last hl))
    subst e
    exact hl rfl

theorem skipS_single (k : Classes) {d : Nat} {v r : List Char} (h : '\'' ∉ v) :
    ∀ {b : Char}, (b = '\\' → v ≠ []) → v.getLast? ≠ some '\\' → skipS k d (some ('\'', b)) (v ++ '\'' :: r) = skipS k d none r := by
  induction v with
  | nil =>
    intro b hb _
    rw [List.nil_append, skipS_string, if_pos ⟨rfl, fun e => hb e rfl⟩]
  | cons c v ih =>
    intro b _ hl
    rw [List.cons_append, skipS_string, if_neg (fun e => h (by simp [e.1]))]
    refine ih (fun x => h (List.mem_cons_of_mem _ x)) (fun e1 e2 => ?_) ?_
    · subst e1; subst e2; exact hl rfl
    · intro e
      cases v with
      | nil => cases e
      | cons x t => rw [List.getLast?_cons_cons] at hl; exact hl e

theorem dropLast_cons {c e : Char} {t : List Char} : (c :: (t ++ [e])).dropLast = c :: t := by
  rw [show c :: (t ++ [e]) = (c :: t) ++ [e] from rfl, List.dropLast_concat]

theorem skipS_harmless (k : Classes) {d : Nat} {q r : List Char} (h : Harmless q) : skipS k d none (q ++ r) = skipS k d none r := by
  obtain ⟨v, hq, hl⟩ := h
  rw [skipS_code k (skip_solid k (hq.solid r))]
  cases hq with
  | double h =>
    rename_i t
    simp only [List.cons_append, List.append_assoc, List.nil_append, skipStep]
    refine skipS_double k h (fun e => absurd e (by decide)) ?_
    rw [dropLast_cons] at hl
    intro e
    cases t with
    | nil => cases e
    | cons x t => rw [List.getLast?_cons_cons] at hl; exact hl e
  | single h =>
    simp only [List.cons_append, List.append_assoc, List.nil_append, skipStep]
    refine skipS_single k h (fun e => absurd e (by decide)) ?_
    rw [dropLast_cons] at hl
    intro e
    cases v with
    | nil => cases e
    | cons x t => rw [List.getLast?_cons_cons] at hl; exact hl e

theorem brace_solid (r : List Char) : Solid ('}' :: r) := ⟨_, r, rfl, by decide, by decide, fun h => absurd h (by decide)⟩

/-- what may be inside of statements is skipped -/
theorem skipS_inside (k : Classes) {b : Bool} {t r : List Char} (h : Inside b t) : ∀ {d : Nat}, (b = true → d ≠ 0) → skipS k d none (t ++ r) = skipS k d none r := by
  induction h generalizing r with
  | nil => intro d _; rfl
  | sep hs _ ih => intro d hd; rw [List.append_assoc, skipS_congr k (skip_sep k hs), ih hd]
  | char h1 h2 h3 _ ih =>
    intro d hd
    rw [List.cons_append, skipS_char k ⟨_, _, rfl, h1, h2, ?_⟩, ih hd]
    · simp only [List.mem_cons, List.not_mem_nil, or_false, not_or] at h3 ⊢
      exact ⟨h3.1, h3.2.1, h3.2.2.1, h3.2.2.2.1, h3.2.2.2.2.1⟩
    · rintro rfl; simp at h3
  | slash hc _ ih =>
    intro d hd
    rw [List.cons_append, skipS_char k ⟨_, _, rfl, by decide, by decide, fun _ => ?_⟩ (by decide), ih hd]
    rw [wordChar_iff] at hc
    constructor
    · intro e; cases e; exact absurd hc (by decide)
    · intro e; cases e; exact absurd hc (by decide)
  | string hq _ ih => intro d hd; rw [List.append_assoc, skipS_harmless k hq, ih hd]
  | semicolon _ ih =>
    intro d hd
    rw [List.cons_append, skipS_code k (skip_solid k (Ender.solid (.inl rfl) _))]
    simp only [skipStep]
    rw [if_neg (hd rfl), ih hd]
  | braces _ _ ih1 ih2 =>
    rename_i s t _ _
    intro d hd
    rw [show '{' :: (s ++ '}' :: t) ++ r = '{' :: (s ++ '}' :: (t ++ r)) by simp, skipS_code k (skip_solid k (Ender.solid (.inr rfl) _))]
    simp only [skipStep]
    rw [ih1 (by simp), skipS_code k (skip_solid k (brace_solid _))]
    obtain ⟨d, rfl⟩ : ∃ x, d = x + 1 := ⟨d - 1, by have := hd rfl; omega⟩
    exact ih2 hd

theorem Word.inside {b : Bool} {w t : List Char} (h : ∀ c ∈ w, WordChar c) (ht : Inside b t) : Inside b (w ++ t) := by
  induction w with
  | nil => exact ht
  | cons c w ih =>
    have hc := h c List.mem_cons_self
    have ha := hc.ascii
    refine .char (by omega) (by omega) ?_ (ih fun x hx => h x (List.mem_cons_of_mem _ hx))
    rw [wordChar_iff] at hc
    intro hm
    simp only [List.mem_cons, List.not_mem_nil, or_false] at hm
    rcases hm with rfl | rfl | rfl | rfl | rfl | rfl <;> exact absurd hc (by decide)

/-- other statements are skipped up to their ends -/
theorem skip_other (k : Classes) {ws : List (List Char)} {t r : List Char} (h : Other ws t) : skipStatement k (t ++ r) = .ok r := by
  obtain ⟨w, a, e, hw, _, ha, _, rfl, he⟩ := h
  show skipS k 0 none (w ++ a ++ e ++ r) = _
  rw [List.append_assoc, skipS_inside k (Word.inside hw.2 ha) (by simp)]
  rcases he with rfl | ⟨s, hs, rfl⟩
  · show skipS k 0 none (';' :: r) = _
    rw [skipS_code k (skip_solid k (Ender.solid (.inl rfl) _))]
    rfl
  · rw [show '{' :: (s ++ ['}']) ++ r = '{' :: (s ++ '}' :: r) by simp, skipS_code k (skip_solid k (Ender.solid (.inr rfl) _))]
    simp only [skipStep]
    rw [skipS_inside k hs (by simp), skipS_code k (skip_solid k (brace_solid _))]
    rfl

end Verif.Yang
