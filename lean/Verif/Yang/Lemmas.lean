import Verif.Yang.Spec
/-! # What the parts of the reader do with what is well written -/
namespace Verif.Yang

/-! ## Characters -/

theorem Char.toNat_ne {c d : Char} (h : c.toNat ≠ d.toNat) : c ≠ d := fun e => h (by rw [e])

theorem Char.le_toNat {c d : Char} : c ≤ d ↔ c.toNat ≤ d.toNat := by
  show c.val ≤ d.val ↔ _
  rw [UInt32.le_iff_toNat_le]; rfl

theorem Char.eq_toNat {c d : Char} : c = d ↔ c.toNat = d.toNat := ⟨fun e => by rw [e], fun e => Char.ext (UInt32.toNat.inj e)⟩

theorem letter_iff {c : Char} : Letter c ↔ (97 ≤ c.toNat ∧ c.toNat ≤ 122) ∨ (65 ≤ c.toNat ∧ c.toNat ≤ 90) := by
  unfold Letter
  simp only [Char.le_toNat]
  exact Iff.rfl

theorem digit_iff {c : Char} : Digit c ↔ 48 ≤ c.toNat ∧ c.toNat ≤ 57 := by
  unfold Digit
  simp only [Char.le_toNat]
  exact Iff.rfl

theorem wordChar_iff {c : Char} :
    WordChar c ↔ (97 ≤ c.toNat ∧ c.toNat ≤ 122) ∨ (65 ≤ c.toNat ∧ c.toNat ≤ 90) ∨ (48 ≤ c.toNat ∧ c.toNat ≤ 57) ∨ c.toNat = 95 ∨ c.toNat = 45 ∨ c.toNat = 46 ∨ c.toNat = 58 := by
  unfold WordChar
  simp only [letter_iff, digit_iff, Char.eq_toNat]
  have e1 : '_'.toNat = 95 := rfl
  have e2 : '-'.toNat = 45 := rfl
  have e3 : '.'.toNat = 46 := rfl
  have e4 : ':'.toNat = 58 := rfl
  rw [e1, e2, e3, e4]
  omega

theorem space_white (k : Classes) {c : Char} (h : Space c) : k.isWhitespace c = true := by
  rcases h with rfl | rfl | rfl | rfl <;> rfl

theorem white_iff (k : Classes) {c : Char} (h : c.toNat < 128) : k.isWhitespace c = true ↔ (9 ≤ c.toNat ∧ c.toNat ≤ 13) ∨ c.toNat = 32 := by
  unfold Classes.isWhitespace
  rw [if_pos (by omega)]
  simp only [Bool.or_eq_true, Bool.and_eq_true, decide_eq_true_eq, beq_iff_eq]
  omega

theorem alpha_iff (k : Classes) {c : Char} (h : c.toNat < 128) : k.isAlphabetic c = true ↔ (65 ≤ c.toNat ∧ c.toNat ≤ 90) ∨ (97 ≤ c.toNat ∧ c.toNat ≤ 122) := by
  unfold Classes.isAlphabetic
  rw [if_pos (by omega)]
  simp only [Bool.or_eq_true, Bool.and_eq_true, decide_eq_true_eq, beq_iff_eq, bne_iff_ne]
  omega

theorem numeric_iff (k : Classes) {c : Char} (h : c.toNat < 128) : k.isNumeric c = true ↔ 48 ≤ c.toNat ∧ c.toNat ≤ 57 := by
  unfold Classes.isNumeric
  rw [if_pos (by omega)]
  simp only [Bool.or_eq_true, Bool.and_eq_true, decide_eq_true_eq, beq_iff_eq]
  omega

theorem goesOn_iff (k : Classes) {c : Char} (h : c.toNat < 128) : k.goesOn c = true ↔ WordChar c := by
  unfold Classes.goesOn Classes.isAlphanumeric
  simp only [Bool.or_eq_true, alpha_iff k h, numeric_iff k h, wordChar_iff, decide_eq_true_eq, Char.eq_toNat]
  have e1 : '_'.toNat = 95 := rfl
  have e2 : '-'.toNat = 45 := rfl
  have e3 : '.'.toNat = 46 := rfl
  have e4 : ':'.toNat = 58 := rfl
  rw [e1, e2, e3, e4]
  omega

theorem utf8_ascii {c : Char} (h : c.toNat < 128) : ∃ b : UInt8, String.utf8EncodeChar c = [b] ∧ b.toNat = c.toNat := by
  refine ⟨UInt8.ofNat c.toNat, ?_, ?_⟩
  · unfold String.utf8EncodeChar
    simp only
    rw [if_pos (by show c.toNat ≤ 127; omega)]
    rfl
  · rw [UInt8.toNat_ofNat']; omega

theorem ofNat_toNat (c : Char) : Char.ofNat c.toNat = c := by simp

/-- a byte of a character below 128 goes on an identifier if the character does, but for colons -/
theorem identByte_iff (k : Classes) {c : Char} (h : c.toNat < 128) {b : UInt8} (e : b.toNat = c.toNat) : k.identByte b = true ↔ WordChar c ∧ c ≠ ':' := by
  unfold Classes.identByte Classes.isAlphanumeric
  rw [e, ofNat_toNat]
  have eb : ∀ n : Nat, n < 256 → ((b == UInt8.ofNat n) = true ↔ c.toNat = n) := by
    intro n hn
    rw [beq_iff_eq, ← e]
    exact ⟨fun x => by rw [x, UInt8.toNat_ofNat']; omega, fun x => by rw [← x]; simp⟩
  have e1 := eb 95 (by omega)
  have e2 := eb 45 (by omega)
  have e3 := eb 46 (by omega)
  simp only [Bool.or_eq_true, alpha_iff k h, numeric_iff k h, wordChar_iff, ne_eq, Char.eq_toNat]
  have e4 : ':'.toNat = 58 := rfl
  rw [e4]
  have e5 : (b == 95) = true ↔ c.toNat = 95 := e1
  have e6 : (b == 45) = true ↔ c.toNat = 45 := e2
  have e7 : (b == 46) = true ↔ c.toNat = 46 := e3
  rw [e5, e6, e7]
  omega

theorem firstByte_iff (k : Classes) {c : Char} (h : c.toNat < 128) {b : UInt8} (e : b.toNat = c.toNat) :
    (k.isAlphabetic (Char.ofNat b.toNat) || b == 95) = true ↔ Letter c ∨ c = '_' := by
  rw [e, ofNat_toNat]
  simp only [Bool.or_eq_true, alpha_iff k h, letter_iff, Char.eq_toNat, beq_iff_eq]
  have e1 : '_'.toNat = 95 := rfl
  have e2 : b = 95 ↔ c.toNat = 95 := by
    rw [← e]
    exact ⟨fun x => by rw [x]; rfl, fun x => UInt8.toNat.inj x⟩
  rw [e1, e2]
  omega

/-! ## White space and comments -/

theorem lastWide_cons {c d : Char} {t : List Char} : lastWide (c :: d :: t) = false := rfl

theorem skip_white (k : Classes) {c : Char} {t : List Char} (h : k.isWhitespace c = true) : skipSep k .code (c :: t) = skipSep k .code t := by
  have : c ≠ '/' := by rintro rfl; cases h
  rw [skipSep.eq_def]
  split
  · rename_i e; cases e
  · rename_i e; cases e; exact absurd rfl this
  · rename_i e; cases e; exact absurd rfl this
  · rename_i e; cases e; rw [if_pos h]
  all_goals contradiction

theorem skip_line (k : Classes) {b t : List Char} (h : '\n' ∉ b) : skipSep k .line (b ++ '\n' :: t) = skipSep k .code t := by
  induction b with
  | nil => simp [skipSep]
  | cons c b ih =>
    rw [List.cons_append, skipSep, if_neg (fun e => h (by simp [e]))]
    exact ih (fun e => h (by simp [e]))

theorem Comment.two {b : List Char} (h : Comment b) : ∃ c d t, b = c :: d :: t := by
  cases h with
  | last => exact ⟨_, _, _, rfl⟩
  | cons _ h => cases h with
    | last => exact ⟨_, _, _, rfl⟩
    | cons _ h => exact ⟨_, _, _, rfl⟩

theorem skip_block (k : Classes) {b t : List Char} (h : Comment b) : skipSep k .block (b ++ t) = skipSep k .code t := by
  induction h with
  | last => simp [skipSep]
  | cons hc h ih =>
    rename_i c b
    obtain ⟨d, d', t', rfl⟩ := h.two
    rw [← ih]
    show skipSep k .block (c :: d :: d' :: (t' ++ t)) = _
    rw [skipSep.eq_def]
    split
    · rename_i e; cases e
    · rename_i e _; cases e
    · rename_i e _; cases e
    · rename_i e _; cases e
    · rename_i e _; cases e
    · rename_i e; cases e; exact absurd ⟨rfl, rfl⟩ hc
    · rename_i e; cases e; rw [lastWide_cons]; rfl

theorem skip_sep (k : Classes) {s t : List Char} (h : Sep s) : skipSep k .code (s ++ t) = skipSep k .code t := by
  induction h with
  | nil => rfl
  | space hc _ ih => rw [List.cons_append, skip_white k (space_white k hc), ih]
  | line hb _ ih => simp only [List.cons_append, List.append_assoc]; rw [skipSep, skip_line k hb, ih]
  | block hb _ ih => simp only [List.cons_append, List.append_assoc]; rw [skipSep, skip_block k hb, ih]

/-- what is neither white space nor a comment -/
def Solid (t : List Char) : Prop := ∃ c r, t = c :: r ∧ 33 ≤ c.toNat ∧ c.toNat < 127 ∧ (c = '/' → r.head? ≠ some '/' ∧ r.head? ≠ some '*')

theorem skip_solid (k : Classes) {t : List Char} (h : Solid t) : skipSep k .code t = .ok t := by
  obtain ⟨c, r, rfl, h1, h2, h3⟩ := h
  have hw : ¬k.isWhitespace c = true := by rw [white_iff k (by omega)]; omega
  have hl : lastWide (c :: r) = false := by
    cases r with
    | nil => simp only [lastWide, decide_eq_false_iff_not]; omega
    | cons => rfl
  rw [skipSep.eq_def]
  split
  · rename_i e; cases e
  · rename_i e; cases e; exact absurd rfl (h3 rfl).1
  · rename_i e; cases e; exact absurd rfl (h3 rfl).2
  · rename_i e; cases e; rw [if_neg hw, hl]; rfl
  all_goals contradiction

theorem skip_nil (k : Classes) : skipSep k .code [] = .ok [] := rfl

theorem skip_to (k : Classes) {s t : List Char} (hs : Sep s) (ht : Solid t) : skipSep k .code (s ++ t) = .ok t := by rw [skip_sep k hs, skip_solid k ht]

end Verif.Yang
