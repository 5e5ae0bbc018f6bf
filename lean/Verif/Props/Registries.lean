import Verif.Flow.Registry
import Verif.Props.NetconfLibrary
/-!
# Registries of elements, and the enumerations that are generated for them (C285–C287)
-/
namespace Verif.Props
open Verif.Registry
open Verif.Collector (Text trim trimStart isSpace splitAt textLines parseNat)

/-! ## C285: numbers and variants -/

/-- entries of different names -/
def NamesApart (l : List Entry) : Prop := l.Pairwise fun a b => a.name ≠ b.name

theorem find_by {α β : Type} [DecidableEq β] (f : α → β) {l : List α} (h : l.Pairwise fun a b => f a ≠ f b) {e : α} (he : e ∈ l) : l.find? (fun x => f x = f e) = some e := by
  induction l with
  | nil => cases he
  | cons x l ih =>
    obtain ⟨h1, h2⟩ := List.pairwise_cons.mp h
    rcases List.mem_cons.mp he with rfl | he
    · simp
    · have := h1 e he
      rw [List.find?_cons_of_neg (by simpa using this)]
      exact ih h2 he

/-- C285: a number that is put into an enumeration is got back from it. -/
theorem c285_numbers {l : List Entry} (h : NamesApart l) (v : Nat) : (Variant.of l v).number l = some v := by
  unfold Variant.of
  cases hf : l.find? (fun e => e.value = v) with
  | none => rfl
  | some e =>
    have hv : e.value = v := by simpa using List.find?_some hf
    simp only [Variant.number]
    rw [find_by (fun y : Entry => y.name) h (List.mem_of_find?_eq_some hf)]
    simp [hv]

/-- C285: the number of an entry becomes the variant of its name, and numbers of no entry stay what they are. -/
theorem c285_variants {l : List Entry} (h : l.Pairwise fun a b => a.value ≠ b.value) :
    (∀ e ∈ l, Variant.of l e.value = .named e.name) ∧ ∀ v, (∀ e ∈ l, e.value ≠ v) → Variant.of l v = .unassigned v := by
  refine ⟨fun e he => ?_, fun v hv => ?_⟩
  · unfold Variant.of; rw [find_by (fun y : Entry => y.value) h he]
  · unfold Variant.of
    rw [List.find?_eq_none.mpr (by simpa using hv)]

/-- C285: the bits of two values are put together. -/
theorem c285_or {l : List Entry} (h : NamesApart l) (v w : Nat) : Variant.or l (Variant.of l v) (Variant.of l w) = some (Variant.of l (v ||| w)) := by
  simp [Variant.or, c285_numbers h]

theorem nested_from (i : Nat) (l : List Nested) (v : Nat) : NestedVariant.from i l v = .unassigned v ∨ ∃ e ∈ l, NestedVariant.from i l v = .named e.entry.name (Variant.of e.reasons v) := by
  induction l generalizing i with
  | nil => exact .inl rfl
  | cons e l ih =>
    unfold NestedVariant.from
    split
    · exact .inr ⟨e, List.mem_cons_self, rfl⟩
    · rcases ih (i + 1) with h | ⟨x, hx, h⟩
      · exact .inl h
      · exact .inr ⟨x, List.mem_cons_of_mem _ hx, h⟩

/-- C285: a number that is put into an enumeration with reasons is got back from it. -/
theorem c285_nested_numbers {l : List Nested} (h : l.Pairwise fun a b => a.entry.name ≠ b.entry.name) (hr : ∀ e ∈ l, NamesApart e.reasons) (v : Nat) : (NestedVariant.of l v).number l = some v := by
  unfold NestedVariant.of
  rcases nested_from 0 l v with e | ⟨x, hx, e⟩
  · rw [e]; rfl
  · rw [e]
    simp only [NestedVariant.number]
    rw [find_by (fun y : Nested => y.entry.name) h hx]
    exact c285_numbers (hr x hx) v

theorem from_at {l : List Nested} (i v : Nat) : NestedVariant.from i l v = if v < 64 * i then .unassigned v else match l[v / 64 - i]? with | some e => .named e.entry.name (Variant.of e.reasons v) | none => .unassigned v := by
  induction l generalizing i with
  | nil => simp [NestedVariant.from]
  | cons e l ih =>
    unfold NestedVariant.from
    by_cases h : 64 * i ≤ v ∧ v ≤ 64 * (i + 1) - 1
    · rw [if_pos h, if_neg (by omega)]
      have : v / 64 - i = 0 := by omega
      rw [this]; rfl
    · rw [if_neg h, ih]
      by_cases h' : v < 64 * i
      · rw [if_pos h', if_pos (by omega)]
      · rw [if_neg h', if_neg (by omega)]
        have : v / 64 - i = (v / 64 - (i + 1)) + 1 := by omega
        rw [this, List.getElem?_cons_succ]

/-- C285, in part: if the entries for the first two bits are all there up to the last, in order, then an octet becomes the variant for its first two bits, with the reason for all of it. -/
theorem c285_status_partial {l : List Nested} (h : ∀ i e, l[i]? = some e → e.entry.value = 64 * i) (v : Nat) :
    (∀ e ∈ l, v / 64 * 64 = e.entry.value → NestedVariant.of l v = .named e.entry.name (Variant.of e.reasons v)) ∧
    ((∀ e ∈ l, v / 64 * 64 ≠ e.entry.value) → NestedVariant.of l v = .unassigned v) := by
  unfold NestedVariant.of
  rw [from_at, if_neg (by omega)]
  refine ⟨fun e he hv => ?_, fun hn => ?_⟩
  · obtain ⟨i, hi⟩ := List.getElem?_of_mem he
    have := h i e hi
    have hi' : v / 64 - 0 = i := by omega
    rw [hi', hi]
  · cases hx : l[v / 64 - 0]? with
    | none => rfl
    | some e => exact absurd (by rw [h _ _ hx]; omega) (hn e (List.mem_of_getElem? hx))

/-- an entry of a name and a number -/
def plainEntry (v : Nat) (n : String) : Entry := ⟨v, n.toList, n.toList, n.toList, none, none, []⟩

def statuses : List Nested := [⟨plainEntry 0 "Unknown", []⟩, ⟨plainEntry 64 "Forwarded", [plainEntry 64 "Unknown", plainEntry 65 "Fragmented"]⟩, ⟨plainEntry 128 "Dropped", [plainEntry 128 "Unknown", plainEntry 130 "Adjacency"]⟩]

example : statuses.Pairwise (fun a b => a.entry.name ≠ b.entry.name) ∧ (∀ e ∈ statuses, NamesApart e.reasons) ∧ (∀ i e, statuses[i]? = some e → e.entry.value = 64 * i) ∧
    NestedVariant.of statuses 130 = .named "Dropped".toList (.named "Adjacency".toList) ∧ NestedVariant.of statuses 131 = .named "Dropped".toList (.unassigned 131) := by
  refine ⟨by decide, by unfold NamesApart; decide, fun i e hi => ?_, by decide, by decide⟩
  match i, hi with
  | 0, hi => cases hi; rfl
  | 1, hi => cases hi; rfl
  | 2, hi => cases hi; rfl
  | n + 3, hi => cases hi

/-- C285 is false: variants go by the places of the entries, and not by their values. If the entries do not begin with zero, then an octet becomes a variant of other bits. -/
theorem c285_status_disproved {e : Nested} (l : List Nested) (h : e.entry.value = 64) (hn : ∀ x ∈ l.head?, x.entry.name ≠ e.entry.name) :
    (∀ v, v < 64 → NestedVariant.of (e :: l) v = .named e.entry.name (Variant.of e.reasons v)) ∧ ∀ v, v / 64 * 64 = e.entry.value → ∀ r, NestedVariant.of (e :: l) v ≠ .named e.entry.name r := by
  unfold NestedVariant.of
  refine ⟨fun v hv => ?_, fun v hv r => ?_⟩
  · rw [from_at, if_neg (by omega)]
    have : v / 64 - 0 = 0 := by omega
    rw [this]; rfl
  · rw [from_at, if_neg (by omega)]
    have : v / 64 - 0 = 1 := by omega
    rw [this, List.getElem?_cons_succ]
    cases l with
    | nil => simp
    | cons x l =>
      simp only [List.getElem?_cons_zero]
      intro he
      injection he with he
      exact hn x rfl he

example : (plainEntry 64 "Forwarded").value = 64 ∧ ∀ x ∈ ([⟨plainEntry 128 "Dropped", []⟩] : List Nested).head?, x.entry.name ≠ (plainEntry 64 "Forwarded").name := by
  refine ⟨rfl, fun x hx => ?_⟩
  cases hx
  decide

/-! ## C286: numbers in registries -/

/-- a digit of a base -/
def DigitOf (base : Nat) (c : Char) (v : Nat) : Prop := v < base ∧ v < 16 ∧ ("0123456789abcdef".toList[v]? = some c ∨ "0123456789ABCDEF".toList[v]? = some c)

/-- digits that stand for a number in a base -/
inductive Stands (base : Nat) : Text → Nat → Prop
  | one {c : Char} {v : Nat} : DigitOf base c v → Stands base [c] v
  | more {t : Text} {n : Nat} {c : Char} {v : Nat} : Stands base t n → DigitOf base c v → Stands base (t ++ [c]) (n * base + v)

theorem digit_raw : ∀ v : Fin 16, ∀ c, ("0123456789abcdef".toList[v.val]? = some c ∨ "0123456789ABCDEF".toList[v.val]? = some c) → digitIn 16 c = some v.val ∧ c ≠ '+' ∧ c ≠ 'x' ∧ (v.val < 10 → c ≠ 'b' ∧ Verif.Collector.digit c = some v.val) := by
  have h1 : ∀ v : Fin 16, ("0123456789abcdef".toList[v.val]?).all (fun c => decide (digitIn 16 c = some v.val ∧ c ≠ '+' ∧ c ≠ 'x' ∧ (v.val < 10 → c ≠ 'b' ∧ Verif.Collector.digit c = some v.val))) = true := by decide +kernel
  have h2 : ∀ v : Fin 16, ("0123456789ABCDEF".toList[v.val]?).all (fun c => decide (digitIn 16 c = some v.val ∧ c ≠ '+' ∧ c ≠ 'x' ∧ (v.val < 10 → c ≠ 'b' ∧ Verif.Collector.digit c = some v.val))) = true := by decide +kernel
  intro v c hc
  rcases hc with hc | hc
  · have := h1 v; rw [hc] at this; exact of_decide_eq_true this
  · have := h2 v; rw [hc] at this; exact of_decide_eq_true this

theorem digit_in {base : Nat} {c : Char} {v : Nat} (h : DigitOf base c v) : digitIn base c = some v ∧ c ≠ '+' ∧ c ≠ 'x' ∧ (v < 10 → c ≠ 'b' ∧ Verif.Collector.digit c = some v) := by
  obtain ⟨h1, h2, h3⟩ := h
  obtain ⟨h4, h5⟩ := digit_raw ⟨v, h2⟩ c h3
  refine ⟨?_, h5⟩
  unfold digitIn at h4 ⊢
  simp only [Option.filter_eq_some_iff, decide_eq_true_eq] at h4 ⊢
  exact ⟨h4.1, h1⟩

theorem digitsIn_append (base b : Nat) (t u : Text) (a : Nat) : digitsIn base b a (t ++ u) = (digitsIn base b a t).bind fun x => digitsIn base b x u := by
  induction t generalizing a with
  | nil => rfl
  | cons c t ih =>
    rw [List.cons_append]
    simp only [digitsIn]
    cases digitIn base c with
    | none => rfl
    | some v =>
      simp only
      split
      · exact ih _
      · rfl

theorem digits_append (b : Nat) (t u : Text) (a : Nat) : Verif.Collector.digits b a (t ++ u) = (Verif.Collector.digits b a t).bind fun x => Verif.Collector.digits b x u := by
  induction t generalizing a with
  | nil => rfl
  | cons c t ih =>
    rw [List.cons_append]
    simp only [Verif.Collector.digits]
    cases Verif.Collector.digit c with
    | none => rfl
    | some v =>
      simp only
      split
      · exact ih _
      · rfl

theorem stands_in {base : Nat} (hb : 0 < base) {t : Text} {n : Nat} (h : Stands base t n) (hn : n < 256) : digitsIn base 256 0 t = some n := by
  induction h with
  | one hd => simp [digitsIn, (digit_in hd).1, hn]
  | @more t n c v ht hd ih =>
    have : n ≤ n * base := Nat.le_mul_of_pos_right _ hb
    rw [digitsIn_append, ih (by omega)]
    simp [digitsIn, (digit_in hd).1, hn]

theorem stands_ten {t : Text} {n : Nat} (h : Stands 10 t n) (hn : n < 256) : Verif.Collector.digits 256 0 t = some n := by
  induction h with
  | one hd => simp [Verif.Collector.digits, ((digit_in hd).2.2.2 hd.1).2, hn]
  | @more t n c v ht hd ih =>
    rw [digits_append, ih (by omega)]
    simp [Verif.Collector.digits, ((digit_in hd).2.2.2 hd.1).2, hn]

theorem stands_mem {base : Nat} {t : Text} {n : Nat} (h : Stands base t n) : ∀ c ∈ t, ∃ v, DigitOf base c v := by
  induction h with
  | one hd => intro c hc; simp at hc; subst hc; exact ⟨_, hd⟩
  | more _ hd ih =>
    intro c hc
    rcases List.mem_append.mp hc with hc | hc
    · exact ih c hc
    · simp at hc; subst hc; exact ⟨_, hd⟩

theorem stands_ne {base : Nat} {t : Text} {n : Nat} (h : Stands base t n) : t ≠ [] := by
  cases h <;> simp

theorem parseIn_stands {base : Nat} (hb : 0 < base) {t : Text} {n : Nat} (h : Stands base t n) (hn : n < 256) : parseIn base 256 t = some n := by
  have hd := stands_in hb h hn
  have hm := stands_mem h
  have hne := stands_ne h
  unfold parseIn
  split
  · exact absurd rfl hne
  · obtain ⟨v, hv⟩ := hm '+' (by simp); exact absurd rfl (digit_in hv).2.1
  · obtain ⟨v, hv⟩ := hm '+' (by simp); exact absurd rfl (digit_in hv).2.1
  · exact hd

theorem parseNat_stands {t : Text} {n : Nat} (h : Stands 10 t n) (hn : n < 256) : parseNat 256 t = some n := by
  have hd := stands_ten h hn
  have hm := stands_mem h
  have hne := stands_ne h
  unfold parseNat
  split
  · exact absurd rfl hne
  · obtain ⟨v, hv⟩ := hm '+' (by simp); exact absurd rfl (digit_in hv).2.1
  · obtain ⟨v, hv⟩ := hm '+' (by simp); exact absurd rfl (digit_in hv).2.1
  · exact hd

theorem small_not_b {base : Nat} (hb : base ≤ 10) {c : Char} {v : Nat} (h : DigitOf base c v) : c ≠ 'b' := ((digit_in h).2.2.2 (Nat.lt_of_lt_of_le h.1 hb)).1

/-- C286: numbers of octets are read in decimal digits, in hexadecimal ones behind `0x`, and in binary ones behind `0b`. -/
theorem c286_numbers {t : Text} {n : Nat} (hn : n < 256) : (Stands 10 t n → entryValue t = some n) ∧ (Stands 16 t n → entryValue ('0' :: 'x' :: t) = some n) ∧ (Stands 2 t n → entryValue ('0' :: 'b' :: t) = some n) := by
  refine ⟨fun h => ?_, fun h => parseIn_stands (by decide) h hn, fun h => parseIn_stands (by decide) h hn⟩
  have hm := stands_mem h
  unfold entryValue
  split
  · obtain ⟨v, hv⟩ := hm 'x' (by simp); exact absurd rfl (digit_in hv).2.2.1
  · obtain ⟨v, hv⟩ := hm 'b' (by simp); exact absurd rfl (small_not_b (by decide) hv)
  · have : stripLast 'b' t = none := by
      unfold stripLast
      rw [if_neg]
      intro hl
      obtain ⟨v, hv⟩ := hm 'b' (List.mem_of_getLast? hl)
      exact absurd rfl (small_not_b (by decide) hv)
    rw [this]
    exact parseNat_stands h hn

/-- C286, in part: binary digits are read before a `b`, unless they are a single zero. -/
theorem c286_binary_partial {t : Text} {n : Nat} (hn : n < 256) (h : Stands 2 t n) (h0 : t ≠ ['0']) : entryValue (t ++ ['b']) = some n := by
  have hm := stands_mem h
  have hl : stripLast 'b' (t ++ ['b']) = some t := by simp [stripLast]
  generalize hu : t ++ ['b'] = u at hl
  unfold entryValue
  split
  · have hx : 'x' ∈ t ++ ['b'] := by rw [hu]; simp
    rcases List.mem_append.mp hx with hx | hx
    · obtain ⟨v, hv⟩ := hm 'x' hx; exact absurd rfl (digit_in hv).2.2.1
    · simp at hx
  · rename_i r
    exfalso
    match t, hu with
    | [], hu => simp at hu
    | [c], hu => simp at hu; exact h0 (by rw [hu.1])
    | c :: d :: t, hu =>
      simp only [List.cons_append, List.cons.injEq] at hu
      obtain ⟨v, hv⟩ := hm 'b' (by rw [hu.2.1]; simp)
      exact absurd rfl (small_not_b (by decide) hv)
  · rw [hl]
    exact parseIn_stands (by decide) h hn

/-- C286 is false: a zero before a `b` is not read. -/
theorem c286_zero_disproved : Stands 2 ['0'] 0 ∧ entryValue (['0'] ++ ['b']) = none := ⟨.one ⟨by decide, by decide, .inl rfl⟩, by decide⟩

example : Stands 10 "17".toList 17 ∧ Stands 16 "fE".toList 254 ∧ Stands 2 "10".toList 2 ∧ "10".toList ≠ ['0'] := by
  refine ⟨?_, ?_, ?_, by decide⟩
  · exact .more (t := ['1']) (n := 1) (v := 7) (.one ⟨by decide, by decide, .inl rfl⟩) ⟨by decide, by decide, .inl rfl⟩
  · exact .more (t := ['f']) (n := 15) (v := 14) (.one ⟨by decide, by decide, .inl rfl⟩) ⟨by decide, by decide, .inr rfl⟩
  · exact .more (t := ['1']) (n := 1) (v := 0) (.one ⟨by decide, by decide, .inl rfl⟩) ⟨by decide, by decide, .inl rfl⟩

/-! ## C287: names of entries -/

/-- characters that are not white space -/
def inked (c : Char) : Bool := !isSpace c

theorem inked_drop (t : Text) : (t.dropWhile isSpace).filter inked = t.filter inked := by
  induction t with
  | nil => rfl
  | cons c t ih =>
    by_cases h : isSpace c
    · rw [List.dropWhile_cons_of_pos h, ih, List.filter_cons_of_neg (by simp [inked, h])]
    · rw [List.dropWhile_cons_of_neg h]

theorem inked_trim (t : Text) : (trim t).filter inked = t.filter inked := by
  unfold trim trimStart
  rw [List.filter_reverse, inked_drop, List.filter_reverse, List.reverse_reverse, inked_drop]

theorem inked_join (ws : List Text) : (joinWords ws).filter inked = ws.flatMap (·.filter inked) := by
  induction ws with
  | nil => rfl
  | cons w ws ih =>
    cases ws with
    | nil => simp [joinWords]
    | cons x xs =>
      rw [joinWords, List.filter_append, List.filter_cons_of_neg (by decide), ih]
      · rfl
      · simp

theorem inked_split {p : Char → Bool} (hp : ∀ c, p c → isSpace c) (t : Text) : (splitAt p t).flatMap (·.filter inked) = t.filter inked := by
  induction t with
  | nil => rfl
  | cons c t ih =>
    rw [splitAt]
    by_cases h : p c
    · rw [if_pos h, List.flatMap_cons, ih, List.filter_cons_of_neg (by simp [inked, hp c h])]
      rfl
    · rw [if_neg h]
      cases e : splitAt p t with
      | nil => rw [e] at ih; simp only [List.flatMap_nil] at ih; simp [List.filter_cons, ← ih]
      | cons x xs =>
        rw [e] at ih
        simp only [List.flatMap_cons] at ih ⊢
        by_cases hc : inked c
        · rw [List.filter_cons_of_pos hc, List.filter_cons_of_pos hc, List.cons_append, ih]
        · rw [List.filter_cons_of_neg hc, List.filter_cons_of_neg hc, ih]

theorem inked_line (l : Text) : (if l.getLast? = some '\r' then l.dropLast else l).filter inked = l.filter inked := by
  split
  · rename_i h
    obtain ⟨m, rfl⟩ := List.getLast?_eq_some_iff.mp h
    rw [List.dropLast_concat, List.filter_append, List.filter_cons_of_neg (by decide)]
    simp
  · rfl

theorem inked_lines (t : Text) : (textLines t).flatMap (·.filter inked) = t.filter inked := by
  have hs := inked_split (p := (· == '\n')) (fun c h => by
    have e : c = '\n' := by simpa using h
    subst e
    decide) t
  unfold textLines
  cases e : (splitAt (· == '\n') t).reverse with
  | nil =>
    have : splitAt (· == '\n') t = [] := by simpa using e
    rw [this] at hs
    exact hs
  | cons last rest =>
    have : splitAt (· == '\n') t = rest.reverse ++ [last] := by rw [← List.reverse_reverse (splitAt _ t), e]; simp
    rw [this] at hs
    rw [← hs]
    simp only [List.flatMap_append, List.flatMap_map, inked_line, List.flatMap_cons, List.flatMap_nil, List.append_nil]
    congr 1
    cases last <;> simp

theorem inked_before (t : Text) : (t.takeWhile (· ≠ ':')).filter inked = (t.filter inked).takeWhile (· ≠ ':') := by
  induction t with
  | nil => rfl
  | cons c t ih =>
    by_cases h : c = ':'
    · subst h; rfl
    · rw [List.takeWhile_cons_of_pos (by simpa using h)]
      by_cases hc : inked c
      · rw [List.filter_cons_of_pos hc, List.filter_cons_of_pos hc, List.takeWhile_cons_of_pos (by simpa using h), ih]
      · rw [List.filter_cons_of_neg hc, List.filter_cons_of_neg hc, ih]

theorem inked_name (t : Text) : (beforeColon t).filter inked = (t.takeWhile (· ≠ ':')).filter inked := by
  unfold beforeColon
  rw [inked_trim, inked_before, inked_join, List.flatMap_map]
  simp only [inked_trim]
  rw [inked_lines, inked_before]

theorem enum_name (t : Text) : (enumName t).2 = spellFirst ((t.takeWhile (· ≠ ':')).filter fun c => !isSpace c && !isPunct c) := by
  have h : ∀ u : Text, (u.filter fun c => !isSpace c && !isPunct c) = (u.filter inked).filter fun c => !isPunct c := by
    intro u; rw [List.filter_filter]; congr 1; funext c; unfold inked; rw [Bool.and_comm]
  unfold enumName
  simp only
  rw [h, inked_name, ← h]

/-- characters of ASCII that are printed, or white space -/
def PlainChar (c : Char) : Prop := c.toNat < 127 ∧ (32 ≤ c.toNat ∨ 9 ≤ c.toNat ∧ c.toNat ≤ 13)

theorem plain_kept {c : Char} (h : PlainChar c) : (!isSpace c && !isPunct c) = c.isAlphanum := by
  have hd : ∀ n : Fin 127, (32 ≤ n.val ∨ 9 ≤ n.val ∧ n.val ≤ 13) → (!isSpace (Char.ofNat n.val) && !isPunct (Char.ofNat n.val)) = (Char.ofNat n.val).isAlphanum := by decide +kernel
  have := hd ⟨c.toNat, h.1⟩ h.2
  rwa [Char.ofNat_toNat] at this

/-- the letters and digits of a name before its first colon -/
def essence (t : Text) : Text := (t.takeWhile (· ≠ ':')).filter Char.isAlphanum

/-- the words for digits -/
def digitWord (c : Char) : Text := ((["Zero", "One", "Two", "Three", "Four", "Five", "Six", "Seven", "Eight", "Nine"] : List String)[c.toNat - 48]?.getD "").toList

theorem spell_digit {c : Char} (h : c.isDigit) (r : Text) : spellFirst (c :: r) = digitWord c ++ r := by
  have hc : c.toNat - 48 < 10 ∧ 48 ≤ c.toNat := by
    unfold Char.isDigit at h
    simp only [ge_iff_le, Bool.and_eq_true, decide_eq_true_eq] at h
    have h1 : 48 ≤ c.val.toNat := UInt32.le_iff_toNat_le.mp h.1
    have h2 : c.val.toNat ≤ 57 := UInt32.le_iff_toNat_le.mp h.2
    unfold Char.toNat
    omega
  have : c = Char.ofNat (48 + (c.toNat - 48)) := by rw [Nat.add_sub_cancel' hc.2, Char.ofNat_toNat]
  generalize c.toNat - 48 = n at hc this
  subst this
  obtain ⟨hn, -⟩ := hc
  match n, hn with
  | 0, _ | 1, _ | 2, _ | 3, _ | 4, _ | 5, _ | 6, _ | 7, _ | 8, _ | 9, _ => rfl
  | n + 10, hn => omega

theorem spell_other {c : Char} (h : c.isDigit = false) (r : Text) : spellFirst (c :: r) = c :: r := by
  unfold spellFirst
  split <;> first | rfl | (rename_i e; injection e with e1 e2; subst e1; exact absurd h (by decide))

theorem plain_essence {t : Text} (h : ∀ c ∈ t, PlainChar c) : (enumName t).2 = spellFirst (essence t) := by
  rw [enum_name, essence]
  congr 1
  refine List.filter_congr fun c hc => plain_kept (h c ?_)
  exact (List.takeWhile_sublist _).subset hc

/-- C287: the name of a variant is made of the letters and digits of the name in the registry before its first colon, in their order, on however many lines they are; a digit in front is written as a word. -/
theorem c287_names {t : Text} (h : ∀ c ∈ t, PlainChar c) :
    (∀ c r, essence t = c :: r → c.isDigit = false → (enumName t).2 = c :: r) ∧ (∀ c r, essence t = c :: r → c.isDigit = true → (enumName t).2 = digitWord c ++ r) := by
  rw [plain_essence h]
  exact ⟨fun c r e hd => by rw [e, spell_other hd], fun c r e hd => by rw [e, spell_digit hd]⟩

theorem digit_word {c : Char} (h : c.isDigit) : ∃ a w, digitWord c = a :: w ∧ a.isAlpha ∧ ∀ x ∈ a :: w, x.isAlphanum := by
  have hd : ∀ n : Fin 127, (Char.ofNat n.val).isDigit → (digitWord (Char.ofNat n.val)).head?.any Char.isAlpha = true ∧ ∀ x ∈ digitWord (Char.ofNat n.val), x.isAlphanum := by decide +kernel
  have hc : c.toNat < 127 := by
    unfold Char.isDigit at h
    simp only [ge_iff_le, Bool.and_eq_true, decide_eq_true_eq] at h
    have h2 : c.val.toNat ≤ 57 := UInt32.le_iff_toNat_le.mp h.2
    unfold Char.toNat
    omega
  have := hd ⟨c.toNat, hc⟩
  simp only [Char.ofNat_toNat] at this
  obtain ⟨h1, h2⟩ := this h
  cases e : digitWord c with
  | nil => rw [e] at h1; cases h1
  | cons a w => rw [e] at h1 h2; exact ⟨a, w, rfl, by simpa using h1, h2⟩

/-- C287, in part: if there is a letter or a digit in front of the first colon, then the name of the variant begins with a letter, and is made of letters and digits. -/
theorem c287_identifier_partial {t : Text} (h : ∀ c ∈ t, PlainChar c) (hn : essence t ≠ []) : ∃ a w, (enumName t).2 = a :: w ∧ a.isAlpha ∧ ∀ x ∈ a :: w, x.isAlphanum := by
  have ha : ∀ x ∈ essence t, x.isAlphanum := fun x hx => (List.mem_filter.mp hx).2
  obtain ⟨h1, h2⟩ := c287_names h
  cases e : essence t with
  | nil => exact absurd e hn
  | cons c r =>
    rw [e] at ha
    cases hd : c.isDigit with
    | false =>
      refine ⟨c, r, h1 c r e hd, ?_, ha⟩
      have := ha c (by simp)
      simpa [Char.isAlphanum, hd] using this
    | true =>
      obtain ⟨a, w, e1, e2, e3⟩ := digit_word hd
      refine ⟨a, w ++ r, by rw [h2 c r e hd, e1]; rfl, e2, fun x hx => ?_⟩
      rw [← List.cons_append] at hx
      rcases List.mem_append.mp hx with hx | hx
      · exact e3 x hx
      · exact ha x (by simp [hx])

example : (∀ c ∈ "6to4 (Sum-\n Pairs): see RFC".toList, PlainChar c) ∧ essence "6to4 (Sum-\n Pairs): see RFC".toList = "6to4SumPairs".toList ∧ (enumName "6to4 (Sum-\n Pairs): see RFC".toList).2 = "Sixto4SumPairs".toList := by
  refine ⟨by unfold PlainChar; decide, by decide, by decide⟩

/-- C287 is false: names without letters and digits in front of a colon become empty. -/
theorem c287_empty_disproved {t : Text} (h : ∀ c ∈ t, PlainChar c) (hn : essence t = []) : (enumName t).2 = [] := by
  rw [plain_essence h, hn]; rfl

example : (∀ c ∈ "*: any".toList, PlainChar c) ∧ essence "*: any".toList = [] := ⟨by unfold PlainChar; decide, by decide⟩

/-- C287 is false: different names that differ by punctuation or white space become the same one. -/
theorem c287_same_disproved {t u : Text} (ht : ∀ c ∈ t, PlainChar c) (hu : ∀ c ∈ u, PlainChar c) (h : essence t = essence u) : (enumName t).2 = (enumName u).2 := by
  rw [plain_essence ht, plain_essence hu, h]

example : (∀ c ∈ "CRC-32".toList, PlainChar c) ∧ (∀ c ∈ "CRC 32".toList, PlainChar c) ∧ "CRC-32".toList ≠ "CRC 32".toList ∧ essence "CRC-32".toList = essence "CRC 32".toList :=
  ⟨by unfold PlainChar; decide, by unfold PlainChar; decide, by decide, by decide⟩

/-! ## C288: what is read of records -/

/-- an element with a text -/
def leaf (tag : String) (t : Text) : Node := .elem (some tag) [] [.text t]

/-- a record with a number, a name, and maybe a description -/
def recordNode (v n : Text) (d : Option Text) : Node := .elem (some "record") [] ([leaf "value" v, leaf "name" n] ++ (d.map (leaf "description")).toList)

/-- texts that are not passed over -/
def Taken (t : Text) : Prop := t ≠ "Unassigned".toList ∧ ∀ a b, t ≠ a ++ "experimentation".toList ++ b

theorem hasText_iff (n t : Text) : hasText n t = true ↔ ∃ a b, t = a ++ n ++ b := by
  induction t with
  | nil =>
    simp only [hasText, List.isEmpty_iff]
    constructor
    · rintro rfl; exact ⟨[], [], rfl⟩
    · rintro ⟨a, b, h⟩
      have := List.append_eq_nil_iff.mp h.symm
      exact (List.append_eq_nil_iff.mp this.1).2
  | cons c t ih =>
    simp only [hasText, Bool.or_eq_true, List.isPrefixOf_iff_prefix, ih]
    constructor
    · rintro (⟨b, h⟩ | ⟨a, b, h⟩)
      · exact ⟨[], b, h.symm⟩
      · exact ⟨c :: a, b, by rw [h]; rfl⟩
    · rintro ⟨a, b, h⟩
      cases a with
      | nil => exact .inl ⟨b, h.symm⟩
      | cons x a => injection h with h1 h2; exact .inr ⟨a, b, h2⟩

theorem passed_iff (t : Text) : passed (some t) = false ↔ Taken t := by
  have := hasText_iff "experimentation".toList t
  unfold passed Taken
  simp only [Option.any_some, Bool.or_eq_false_iff, decide_eq_false_iff_not, ne_eq]
  refine and_congr_right fun _ => ?_
  rw [← Bool.not_eq_true, this]
  simp

theorem record_fields (links : Text → Text) (v n : Text) (d : Option Text) :
    stringChild (recordNode v n d) "value" = some (trim v) ∧ stringChild (recordNode v n d) "name" = some (trim n) ∧ simpleDescription links (recordNode v n d) = d.map (fun x => links (trim x)) ∧
    stringChild (recordNode v n d) "comments" = none ∧ stringChild (recordNode v n d) "parameters" = none ∧ xrefs (recordNode v n d) = [] := by
  cases d with
  | none => simp [recordNode, leaf, stringChild, Node.children, Node.tag, Node.body, simpleDescription, xrefs, Node.named]
  | some x => simp [recordNode, leaf, stringChild, Node.children, Node.tag, Node.body, simpleDescription, xrefs, Node.named]

/-- C288: a record with a number below 255 and a name is an entry with the number, the name that is made of its name, its name to show, and its description; if it has none then with the name for it. -/
theorem c288_record (links : Text → Text) {v n : Text} {d : Option Text} {k : Nat} (hv : entryValue (trim v) = some k) (hk : k < 255) (hn : Taken (trim n)) (hd : ∀ x ∈ d, Taken (links (trim x)))
    (hr : (enumName (trim n)).2 ≠ "Reserved".toList) (hp : (enumName (trim n)).2 ≠ "Private".toList) :
    readEntry links (recordNode v n d) = some ⟨k, (enumName (trim n)).2, trim n, (d.map fun x => links (trim x)).getD (trim n), none, none, []⟩ := by
  obtain ⟨f1, f2, f3, f4, f5, f6⟩ := record_fields links v n d
  have h1 := (passed_iff _).mpr hn
  have h2 : passed (d.map fun x => links (trim x)) = false := by
    cases d with
    | none => rfl
    | some x => exact (passed_iff _).mpr (hd x rfl)
  have h3 : apart k (enumName (trim n)).2 = (enumName (trim n)).2 := if_neg (by simp only [not_or]; exact ⟨hr, hp⟩)
  unfold readEntry
  rw [f1, f2, f3, f4, f5, f6]
  simp only [h1, h2, hv, Bool.false_eq_true, if_false, if_neg (show ¬ k = 255 by omega), entryNames, h3]

/-- C288: names that are reserved or private are told apart by the numbers. -/
theorem c288_reserved (links : Text → Text) {v n : Text} {d : Option Text} {k : Nat} (hv : entryValue (trim v) = some k) (hk : k < 255) (hn : Taken (trim n)) (hd : ∀ x ∈ d, Taken (links (trim x)))
    (hr : (enumName (trim n)).2 = "Reserved".toList ∨ (enumName (trim n)).2 = "Private".toList) :
    (readEntry links (recordNode v n d)).map (fun e => (e.value, e.name, e.display)) = some (k, (enumName (trim n)).2 ++ (toString k).toList, trim n) := by
  obtain ⟨f1, f2, f3, f4, f5, f6⟩ := record_fields links v n d
  have h1 := (passed_iff _).mpr hn
  have h2 : passed (d.map fun x => links (trim x)) = false := by
    cases d with
    | none => rfl
    | some x => exact (passed_iff _).mpr (hd x rfl)
  have h3 : apart k (enumName (trim n)).2 = (enumName (trim n)).2 ++ (toString k).toList := if_pos hr
  unfold readEntry
  rw [f1, f2, f3, f4, f5, f6]
  simp only [h1, h2, hv, Bool.false_eq_true, if_false, if_neg (show ¬ k = 255 by omega), entryNames, h3, Option.map_some]

/-- C288: a record is passed over if its number is 255 or no octet, if it is unassigned, or if it is for experimentation by its name or its description. -/
theorem c288_passed (links : Text → Text) {v n : Text} {d : Option Text} (h : (∀ k, entryValue (trim v) = some k → k = 255) ∨ ¬ Taken (trim n) ∨ ∃ x ∈ d, ¬ Taken (links (trim x))) :
    readEntry links (recordNode v n d) = none := by
  obtain ⟨f1, f2, f3, f4, f5, f6⟩ := record_fields links v n d
  unfold readEntry
  rw [f1, f2, f3]
  have hp : ∀ t, ¬ Taken t → passed (some t) = true := fun t ht => by
    cases e : passed (some t) with
    | true => rfl
    | false => exact absurd ((passed_iff t).mp e) ht
  simp only
  split
  · rfl
  · split
    · rfl
    · rename_i g1 g2
      rcases h with h | h | ⟨x, hx, h⟩
      · cases e : entryValue (trim v) with
        | none => rfl
        | some k => simp only [if_pos (h k e)]
      · exact absurd (hp _ h) g1
      · have : d = some x := hx
        rw [this] at g2
        exact absurd (hp _ h) g2

/-- a record with a number, and a description only -/
def describedNode (v d : Text) : Node := .elem (some "record") [] [leaf "value" v, leaf "description" d]

/-- the words of a description before its first colon -/
def wordsBefore (t : Text) : List Text := Verif.Collector.splitWhitespace (beforeColon t)

theorem apart_value (k : Nat) : apart k ("Value".toList ++ numberText k) = "Value".toList ++ numberText k := by
  refine if_neg ?_
  rintro (h | h)
  · have h' : 'V' :: ("alue".toList ++ numberText k) = 'R' :: "eserved".toList := h
    injection h' with h'
    exact absurd h' (by decide)
  · have h' : 'V' :: ("alue".toList ++ numberText k) = 'P' :: "rivate".toList := h
    injection h' with h'
    exact absurd h' (by decide)

/-- C288: a record without a name is named by its description if that has less than ten words before its first colon, and by its number otherwise; what is shown is the description if it is shorter than fifty bytes, and the name otherwise. -/
theorem c288_described (links : Text → Text) {v d : Text} {k : Nat} (hv : entryValue (trim v) = some k) (hk : k < 255) (hd : Taken (links (trim d))) :
    (readEntry links (describedNode v d)).map (fun e => (e.value, e.name, e.description)) = some (k, (if (wordsBefore (links (trim d))).length < 10 then apart k (enumName (links (trim d))).2 else "Value".toList ++ (toString k).toList), links (trim d)) ∧
    ∀ e, readEntry links (describedNode v d) = some e → e.display = if ((links (trim d)).map Char.utf8Size).sum < 50 then links (trim d) else if (wordsBefore (links (trim d))).length < 10 then (enumName (links (trim d))).2 else e.name := by
  have f : stringChild (describedNode v d) "value" = some (trim v) ∧ stringChild (describedNode v d) "name" = none ∧ simpleDescription links (describedNode v d) = some (links (trim d)) := by
    simp [describedNode, leaf, stringChild, Node.children, Node.tag, Node.body, simpleDescription]
  obtain ⟨f1, f2, f3⟩ := f
  have h1 := (passed_iff _).mpr hd
  have e : readEntry links (describedNode v d) = some ⟨k, apart k (if (enumName (links (trim d))).1 < 10 then (enumName (links (trim d))).2 else "Value".toList ++ numberText k), (if byteLength (links (trim d)) < 50 then links (trim d) else if (enumName (links (trim d))).1 < 10 then (enumName (links (trim d))).2 else "Value".toList ++ numberText k), links (trim d), stringChild (describedNode v d) "comments", stringChild (describedNode v d) "parameters", xrefs (describedNode v d)⟩ := by
    unfold readEntry
    rw [f1, f2, f3]
    simp only [show passed none = false from rfl, h1, hv, Bool.false_eq_true, if_false, if_neg (show ¬ k = 255 by omega), entryNames]
  have hw : (enumName (links (trim d))).1 = (wordsBefore (links (trim d))).length := rfl
  rw [e, hw]
  refine ⟨?_, fun x hx => ?_⟩
  · simp only [Option.map_some]
    split
    · rfl
    · rw [apart_value]; rfl
  · injection hx with hx
    subst hx
    show (if byteLength (links (trim d)) < 50 then _ else _) = if byteLength (links (trim d)) < 50 then _ else _
    by_cases hb : byteLength (links (trim d)) < 50
    · rw [if_pos hb, if_pos hb]
    · rw [if_neg hb, if_neg hb]
      by_cases hl : (wordsBefore (links (trim d))).length < 10
      · rw [if_pos hl, if_pos hl]
      · rw [if_neg hl, if_neg hl, apart_value]

example : entryValue (trim "7".toList) = some 7 ∧ Taken (trim "BGP: Any label".toList) ∧ (wordsBefore (trim "BGP: Any label".toList)).length = 1 ∧ (enumName (trim "BGP: Any label".toList)).2 = "BGP".toList :=
  ⟨by decide, (passed_iff _).mp (by decide), by decide, by decide⟩

/-- C288: the entries of a registry are those of its records, in their order, whatever else is between them. -/
theorem c288_entries (links : Text → Text) (tag : Option String) (as : List (String × Text)) (a b : List Node) (n : Node) :
    readEntries links (.elem tag as (a ++ n :: b)) = readEntries links (.elem tag as a) ++ (if n.tag = some "record" then (readEntry links n).toList else []) ++ readEntries links (.elem tag as b) := by
  unfold readEntries Node.named
  simp only [Node.children, List.filter_append, List.filterMap_append, List.append_assoc]
  congr 1
  by_cases h : n.tag = some "record"
  · rw [List.filter_cons_of_pos (by simpa using h), if_pos h, List.filterMap_cons]
    cases readEntry links n <;> rfl
  · rw [List.filter_cons_of_neg (by simpa using h), if_neg h]
    rfl

example : entryValue (trim " 01b ".toList) = some 1 ∧ Taken (trim "MPLS-TE".toList) ∧ (enumName (trim "MPLS-TE".toList)).2 = "MPLSTE".toList ∧ ¬ Taken (trim "Unassigned".toList) ∧ (enumName (trim "Reserved".toList)).2 = "Reserved".toList ∧ Taken (trim "Reserved".toList) := by
  refine ⟨by decide, (passed_iff _).mp (by decide), by decide, fun h => ?_, by decide, (passed_iff _).mp (by decide)⟩
  exact absurd ((passed_iff _).mpr h) (by decide)

end Verif.Props
