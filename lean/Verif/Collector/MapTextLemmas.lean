import Verif.Collector.FilesSpec
import Verif.Collector.Lemmas
/-!
# Lemmas about texts
-/
namespace Verif.Collector
open MapFile
open Flow (Field Value Ie)
open Announce (iana Way)

theorem isSpace_iff (c : Char) : isSpace c = true ↔ Space c := by
  simp only [isSpace, Space, Bool.or_eq_true, Bool.and_eq_true, decide_eq_true_eq, beq_iff_eq, List.mem_cons, List.not_mem_nil, or_false]
  omega

theorem isSpace_false (c : Char) : isSpace c = false ↔ ¬ Space c := by rw [← isSpace_iff]; simp

theorem splitAt_ne (p : Char → Bool) (t : Text) : splitAt p t ≠ [] := by
  cases t with
  | nil => simp [splitAt]
  | cons c cs =>
    simp only [splitAt]
    split
    · simp
    · split <;> simp

/-- a piece and then the rest -/
theorem splitAt_append (p : Char → Bool) {x : Text} (hx : ∀ c ∈ x, p c = false) {c : Char} (hc : p c = true) (y : Text) :
    splitAt p (x ++ c :: y) = x :: splitAt p y := by
  induction x with
  | nil => simp [splitAt, hc]
  | cons d x ih => simp [splitAt, hx d (by simp), ih fun c h => hx c (by simp [h])]

theorem splitAt_single (p : Char → Bool) {x : Text} (hx : ∀ c ∈ x, p c = false) : splitAt p x = [x] := by
  induction x with
  | nil => rfl
  | cons d x ih => simp [splitAt, hx d (by simp), ih fun c h => hx c (by simp [h])]

/-- a text is a piece, or a piece, a separator and the rest -/
theorem piece_cases (p : Char → Bool) (t : Text) : (∀ c ∈ t, p c = false) ∨ ∃ x c y, t = x ++ c :: y ∧ p c = true ∧ ∀ d ∈ x, p d = false := by
  induction t with
  | nil => left; simp
  | cons a t ih =>
    cases ha : p a with
    | true => exact .inr ⟨[], a, t, rfl, ha, by simp⟩
    | false =>
      rcases ih with h | ⟨x, c, y, rfl, hc, hx⟩
      · left
        intro c hc
        rcases List.mem_cons.mp hc with rfl | hc
        · exact ha
        · exact h c hc
      · refine .inr ⟨a :: x, c, y, rfl, hc, fun d hd => ?_⟩
        rcases List.mem_cons.mp hd with rfl | hd
        · exact ha
        · exact hx d hd

theorem splitAt_pieces (p : Char → Bool) (t : Text) : ∀ x ∈ splitAt p t, ∀ c ∈ x, p c = false := by
  induction h : t.length using Nat.strongRecOn generalizing t with
  | ind n ih =>
    rcases piece_cases p t with ht | ⟨x, c, y, rfl, hc, hx⟩
    · rw [splitAt_single p ht]
      intro x hx
      rw [List.mem_singleton.mp hx]
      exact ht
    · rw [splitAt_append p hx hc]
      intro z hz
      rcases List.mem_cons.mp hz with rfl | hz
      · exact hx
      · exact ih y.length (by rw [← h]; simp; omega) y rfl z hz

/-- the text from its pieces, for one separator -/
theorem splitAt_join (s : Char) (t : Text) : List.intercalate [s] (splitAt (· == s) t) = t := by
  induction h : t.length using Nat.strongRecOn generalizing t with
  | ind n ih =>
    rcases piece_cases (· == s) t with ht | ⟨x, c, y, rfl, hc, hx⟩
    · rw [splitAt_single _ ht]; simp [List.intercalate]
    · rw [splitAt_append _ hx hc]
      have e := ih y.length (by rw [← h]; simp; omega) y rfl
      have hne := splitAt_ne (· == s) y
      rw [beq_iff_eq.mp hc]
      cases hs : splitAt (· == s) y with
      | nil => exact absurd hs hne
      | cons a l =>
        rw [hs] at e
        rw [← e]
        simp [List.intercalate]

/-! ## Numbers -/

theorem isDigit_iff (c : Char) : c.isDigit = true ↔ '0' ≤ c ∧ c ≤ '9' := by
  simp only [Char.isDigit, ge_iff_le, Bool.and_eq_true, decide_eq_true_eq]
  rfl

theorem digits_iff (bound : Nat) (t : Text) : ∀ (acc n : Nat), acc < bound →
    (digits bound acc t = some n ↔ (∀ c ∈ t, '0' ≤ c ∧ c ≤ '9') ∧ n = acc * 10 ^ t.length + worth t ∧ n < bound) := by
  induction t with
  | nil => intro acc n h; simp [digits, worth]; constructor
           · rintro rfl; exact ⟨rfl, h⟩
           · rintro ⟨rfl, -⟩; rfl
  | cons c cs ih =>
    intro acc n h
    simp only [digits, digit]
    cases hd : c.isDigit with
    | false =>
      simp only [Bool.false_eq_true, if_false]
      refine ⟨fun h => by simp at h, fun ⟨h1, _⟩ => ?_⟩
      have := (isDigit_iff c).mpr (h1 c (by simp))
      simp [hd] at this
    | true =>
      simp only [if_true]
      have hc := (isDigit_iff c).mp hd
      have e48 : '0'.toNat = 48 := rfl
      have ex : (acc * 10 + (c.toNat - 48)) * 10 ^ cs.length + worth cs = acc * 10 ^ (c :: cs).length + worth (c :: cs) := by
        rw [worth, e48, List.length_cons, Nat.pow_succ, Nat.add_mul, Nat.mul_assoc acc, Nat.mul_comm 10, Nat.add_assoc]
      split
      · next hlt =>
        rw [ih _ _ hlt, ex]
        constructor
        · rintro ⟨h1, h2, h3⟩
          exact ⟨fun d hd => (List.mem_cons.mp hd).elim (fun e => e ▸ hc) (h1 d), h2, h3⟩
        · rintro ⟨h1, h2, h3⟩
          exact ⟨fun d hd => h1 d (by simp [hd]), h2, h3⟩
      · next hlt =>
        refine ⟨fun h => by simp at h, fun ⟨_, h2, h3⟩ => ?_⟩
        rw [← ex] at h2
        have : acc * 10 + (c.toNat - 48) ≤ (acc * 10 + (c.toNat - 48)) * 10 ^ cs.length := Nat.le_mul_of_pos_right _ (Nat.pow_pos (by omega))
        omega

theorem plus_no_digit {ds : Text} (h : ∀ c ∈ '+' :: ds, '0' ≤ c ∧ c ≤ '9') : False := absurd (h '+' (by simp)).1 (by decide)

theorem parseNat_iff (bound : Nat) (hb : 0 < bound) (t : Text) (n : Nat) : parseNat bound t = some n ↔ Decimal t n ∧ n < bound := by
  unfold parseNat
  split
  · refine ⟨fun h => by simp at h, ?_⟩
    rintro ⟨⟨ds, h1, -, h | h, -⟩, -⟩
    · exact absurd h.symm h1
    · simp at h
  · refine ⟨fun h => by simp at h, ?_⟩
    rintro ⟨⟨ds, h1, h2, h | h, -⟩, -⟩
    · subst h; exact (plus_no_digit h2).elim
    · exact absurd (by simpa using h : [] = ds).symm h1
  · next cs hne =>
    rw [digits_iff bound cs 0 n hb]
    constructor
    · rintro ⟨h1, h2, h3⟩
      refine ⟨⟨cs, fun e => hne (by rw [e]), h1, .inr rfl, by simpa using h2⟩, h3⟩
    · rintro ⟨⟨ds, h1, h2, h | h, h4⟩, h5⟩
      · subst h; exact (plus_no_digit h2).elim
      · obtain rfl : cs = ds := by simpa using h
        exact ⟨h2, by simpa using h4, h5⟩
  · next cs h0 h1' h2' =>
    rw [digits_iff bound t 0 n hb]
    constructor
    · rintro ⟨h1, h2, h3⟩
      exact ⟨⟨t, h0, h1, .inl rfl, by simpa using h2⟩, h3⟩
    · rintro ⟨⟨ds, h1, h2, h | h, h4⟩, h5⟩
      · subst h; exact ⟨h2, by simpa using h4, h5⟩
      · exact absurd h (h2' ds)

theorem worth_append (a b : Text) : worth (a ++ b) = worth a * 10 ^ b.length + worth b := by
  induction a with
  | nil => simp [worth]
  | cons c a ih => simp only [List.cons_append, worth, ih, List.length_append, Nat.pow_add, Nat.add_mul, Nat.mul_assoc, Nat.add_assoc]

theorem digitChar_of {c : Char} (h : '0' ≤ c ∧ c ≤ '9') : c.toNat - 48 < 10 ∧ (c.toNat - 48).digitChar = c := by
  obtain ⟨h1, h2⟩ := h
  have e1 : 48 ≤ c.toNat := by simpa using UInt32.le_iff_toNat_le.mp h1
  have e2 : c.toNat ≤ 57 := by simpa using UInt32.le_iff_toNat_le.mp h2
  refine ⟨by omega, ?_⟩
  have : ∀ n, 48 ≤ n → n ≤ 57 → (n - 48).digitChar = Char.ofNat n := by
    intro n hn hm
    have : ∀ k, k < 10 → k.digitChar = Char.ofNat (k + 48) := by decide
    rw [this (n - 48) (by omega), show n - 48 + 48 = n by omega]
  rw [this c.toNat e1 e2, Char.ofNat_toNat]

/-- digits without a leading zero are those of their number -/
theorem toDigits_worth (ds : Text) (h : ∀ c ∈ ds, '0' ≤ c ∧ c ≤ '9') (hne : ds ≠ []) (hz : ds.head? ≠ some '0') : Nat.toDigits 10 (worth ds) = ds ∧ 0 < worth ds := by
  induction ds using snoc_induction with
  | nil => exact absurd rfl hne
  | append_singleton ds c ih =>
    obtain ⟨hc, hcc⟩ := digitChar_of (h c (by simp))
    have hw : worth (ds ++ [c]) = 10 * worth ds + (c.toNat - 48) := by
      rw [worth_append]
      simp [worth, Nat.mul_comm, show '0'.toNat = 48 from rfl]
    rw [hw]
    cases ds with
    | nil =>
      have hc0 : c ≠ '0' := by simpa using hz
      simp only [worth, Nat.mul_zero, Nat.zero_add, List.nil_append]
      refine ⟨by rw [Nat.toDigits_of_lt_base hc, hcc], ?_⟩
      refine Nat.pos_of_ne_zero fun e => hc0 ?_
      rw [← hcc, e]
      rfl
    | cons d ds =>
      obtain ⟨i1, i2⟩ := ih (fun x hx => h x (List.mem_append_left _ hx)) (by simp) (by simpa using hz)
      refine ⟨?_, by omega⟩
      rw [← Nat.toDigits_append_toDigits (by omega) i2 hc, i1, Nat.toDigits_of_lt_base hc, hcc]

theorem parseOctet_digits : ∀ n, n < 256 → parseOctet (Nat.toDigits 10 n) = some (UInt8.ofNat n) := by decide +kernel

theorem parseOctet_iff (t : Text) (b : UInt8) : parseOctet t = some b ↔ t = Nat.toDigits 10 b.toNat := by
  constructor
  · intro h
    unfold parseOctet at h
    split at h
    · simp at h
    · simp at h
    · next h1 h2 =>
      split at h
      · obtain ⟨n, hn, rfl⟩ := Option.map_eq_some_iff.mp h
        obtain ⟨g1, g2, g3⟩ := (digits_iff 256 t 0 n (by omega)).mp hn
        simp only [Nat.zero_mul, Nat.zero_add] at g2
        have e : (UInt8.ofNat n).toNat = n := by simp [UInt8.toNat_ofNat, Nat.mod_eq_of_lt g3]
        rw [e, g2]
        match t, h1, h2, g1 with
        | [c], _, _, g1 =>
          obtain ⟨hc, hcc⟩ := digitChar_of (g1 c (by simp))
          simp only [worth, show '0'.toNat = 48 from rfl, List.length_nil, Nat.pow_zero, Nat.mul_one, Nat.add_zero]
          rw [Nat.toDigits_of_lt_base hc, hcc]
        | c :: d :: cs, _, h2, g1 =>
          refine (toDigits_worth _ g1 (by simp) ?_).1.symm
          simp only [List.head?_cons, ne_eq, Option.some.injEq]
          rintro rfl
          exact h2 _ _ rfl
      · simp at h
  · rintro rfl
    have := parseOctet_digits b.toNat (UInt8.toNat_lt b)
    simpa using this

theorem digits_mem {n : Nat} {c : Char} (h : c ∈ Nat.toDigits 10 n) : '0' ≤ c ∧ c ≤ '9' := (isDigit_iff c).mp (Nat.isDigit_of_mem_toDigits (by omega) (by omega) h)

theorem parseIpv4_iff (t : Text) (v : List UInt8) : parseIpv4 t = some v ↔ Quad t v := by
  have hp : ∀ (n : Nat), ∀ c ∈ Nat.toDigits 10 n, (c == '.') = false := by
    intro n c hc
    have := digits_mem hc
    simp only [beq_eq_false_iff_ne, ne_eq]
    rintro rfl
    exact absurd this.1 (by decide)
  constructor
  · intro h
    have hj := splitAt_join '.' t
    unfold parseIpv4 at h
    split at h
    · next a b c d he =>
      rw [he] at hj
      simp only [Option.bind_eq_bind, Option.bind_eq_some_iff, pure, Option.some.injEq] at h
      obtain ⟨a', ha, b', hb, c', hc, d', hd, rfl⟩ := h
      refine ⟨a', b', c', d', rfl, ?_⟩
      rw [← (parseOctet_iff _ _).mp ha, ← (parseOctet_iff _ _).mp hb, ← (parseOctet_iff _ _).mp hc, ← (parseOctet_iff _ _).mp hd, ← hj]
      simp [List.intercalate]
    · simp at h
  · rintro ⟨a, b, c, d, rfl, rfl⟩
    unfold parseIpv4
    rw [splitAt_append _ (hp _) (by rfl), splitAt_append _ (hp _) (by rfl), splitAt_append _ (hp _) (by rfl), splitAt_single _ (hp _)]
    simp [(parseOctet_iff _ _).mpr rfl]

theorem decimal_no {s : Char} (hs : s < '0' ∨ '9' < s) (hp : s ≠ '+') {t : Text} {n : Nat} (h : Decimal t n) : ∀ c ∈ t, (c == s) = false := by
  obtain ⟨ds, -, h2, h3, -⟩ := h
  intro c hc
  simp only [beq_eq_false_iff_ne, ne_eq]
  rintro rfl
  have hd : c ∉ ds := fun hm => by
    obtain ⟨g1, g2⟩ := h2 c hm
    rcases hs with hs | hs
    · exact absurd g1 (Char.not_le.mpr hs)
    · exact absurd g2 (Char.not_le.mpr hs)
  rcases h3 with rfl | rfl
  · exact hd hc
  · rcases List.mem_cons.mp hc with e | e
    · exact hp e
    · exact hd e

theorem quad_no {t : Text} {v : List UInt8} (h : Quad t v) : ∀ c ∈ t, (c == ':') = false := by
  obtain ⟨a, b, c, d, -, rfl⟩ := h
  have hp : ∀ (n : Nat), ':' ∉ Nat.toDigits 10 n := fun n hc => absurd (digits_mem hc).2 (by decide)
  intro x hx
  simp only [beq_eq_false_iff_ne, ne_eq]
  rintro rfl
  simp [hp] at hx

theorem octets_two (n : Nat) : octets 2 n = be16 n := by simp [octets, be16]

theorem octets_four (n : Nat) : octets 4 n = be32 n := by simp [octets, be32, Nat.div_div_eq_div_mul]

theorem parseRd_iff (t : Text) (v : List UInt8) : parseRd t = some v ↔ Rd t v := by
  constructor
  · intro h
    have hj := splitAt_join ':' t
    unfold parseRd at h
    split at h
    · next k a n he =>
      rw [he] at hj
      have hj : t = k ++ ':' :: (a ++ ':' :: n) := by rw [← hj]; simp [List.intercalate]
      subst hj
      simp only [Option.bind_eq_bind, Option.bind_eq_some_iff] at h
      obtain ⟨x, hx, h⟩ := h
      obtain ⟨hx, -⟩ := (parseNat_iff _ (by omega) _ _).mp hx
      split at h
      · next e =>
        subst e
        simp only [Option.bind_eq_some_iff, pure, Option.some.injEq] at h
        obtain ⟨y, hy, z, hz, rfl⟩ := h
        obtain ⟨hy, hy'⟩ := (parseNat_iff _ (by omega) _ _).mp hy
        obtain ⟨hz, hz'⟩ := (parseNat_iff _ (by omega) _ _).mp hz
        rw [← octets_two, ← octets_two, ← octets_four]
        exact .asn hx hy hy' hz hz'
      · split at h
        · next e =>
          subst e
          simp only [Option.bind_eq_some_iff, pure, Option.some.injEq] at h
          obtain ⟨y, hy, z, hz, rfl⟩ := h
          obtain ⟨hz, hz'⟩ := (parseNat_iff _ (by omega) _ _).mp hz
          rw [← octets_two, ← octets_two]
          exact .ip hx ((parseIpv4_iff _ _).mp hy) hz hz'
        · split at h
          · next e =>
            subst e
            simp only [Option.bind_eq_some_iff, pure, Option.some.injEq] at h
            obtain ⟨y, hy, z, hz, rfl⟩ := h
            obtain ⟨hy, hy'⟩ := (parseNat_iff _ (by omega) _ _).mp hy
            obtain ⟨hz, hz'⟩ := (parseNat_iff _ (by omega) _ _).mp hz
            rw [← octets_two, ← octets_two, ← octets_four]
            exact .asn4 hx hy hy' hz hz'
          · simp at h
    · simp at h
  · intro h
    unfold parseRd
    cases h with
    | asn h1 h2 h3 h4 h5 =>
      rw [splitAt_append _ (decimal_no (.inr (by decide)) (by decide) h1) (by rfl), splitAt_append _ (decimal_no (.inr (by decide)) (by decide) h2) (by rfl),
        splitAt_single _ (decimal_no (.inr (by decide)) (by decide) h4)]
      simp [(parseNat_iff 65536 (by omega) _ _).mpr ⟨h1, by omega⟩, (parseNat_iff 65536 (by omega) _ _).mpr ⟨h2, h3⟩,
        (parseNat_iff 4294967296 (by omega) _ _).mpr ⟨h4, h5⟩, octets_two, octets_four]
    | ip h1 h2 h4 h5 =>
      rw [splitAt_append _ (decimal_no (.inr (by decide)) (by decide) h1) (by rfl), splitAt_append _ (quad_no h2) (by rfl),
        splitAt_single _ (decimal_no (.inr (by decide)) (by decide) h4)]
      simp [(parseNat_iff 65536 (by omega) _ _).mpr ⟨h1, by omega⟩, (parseIpv4_iff _ _).mpr h2,
        (parseNat_iff 65536 (by omega) _ _).mpr ⟨h4, h5⟩, octets_two]
    | asn4 h1 h2 h3 h4 h5 =>
      rw [splitAt_append _ (decimal_no (.inr (by decide)) (by decide) h1) (by rfl), splitAt_append _ (decimal_no (.inr (by decide)) (by decide) h2) (by rfl),
        splitAt_single _ (decimal_no (.inr (by decide)) (by decide) h4)]
      simp [(parseNat_iff 65536 (by omega) _ _).mpr ⟨h1, by omega⟩, (parseNat_iff 4294967296 (by omega) _ _).mpr ⟨h2, h3⟩,
        (parseNat_iff 65536 (by omega) _ _).mpr ⟨h4, h5⟩, octets_two, octets_four]

end Verif.Collector
