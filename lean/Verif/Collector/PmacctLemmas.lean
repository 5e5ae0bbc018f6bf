import Verif.Collector.Pmacct
import Verif.Collector.MapTextLemmas
import Verif.NetconfXml.CapLemmas
import Verif.NetconfXml.RoundTripReply
/-!
# Facts about the text of messages of pmacct
-/
namespace Verif.Pmacct
open Verif Verif.Bgp Verif.Bmp
open Verif.Collector (Text)
open Verif.Collector.MapFile (worth)
open Verif.Xml (joined)

/-! ## Text -/

/-- a text that is empty or begins with a character that is not of `P` -/
def Stops (P : Char → Prop) (r : Text) : Prop := r = [] ∨ ∃ c t, r = c :: t ∧ ¬ P c

theorem stops_nil (P : Char → Prop) : Stops P [] := .inl rfl
theorem stops_cons {P : Char → Prop} {c : Char} {t : Text} (h : ¬ P c) : Stops P (c :: t) := .inr ⟨c, t, rfl, h⟩

/-- what comes before the first other character is determined -/
theorem cut {P : Char → Prop} {x y r s : Text} (hx : ∀ c ∈ x, P c) (hy : ∀ c ∈ y, P c) (hr : Stops P r) (hs : Stops P s) (h : x ++ r = y ++ s) : x = y ∧ r = s := by
  induction x generalizing y with
  | nil =>
    cases y with
    | nil => exact ⟨rfl, h⟩
    | cons c y =>
      rcases hr with hr | ⟨d, t, hr, hd⟩
      · subst hr; cases h
      · subst hr; injection h with h1 _; subst h1; exact absurd (hy _ (by simp)) hd
  | cons c x ih =>
    cases y with
    | nil =>
      rcases hs with hs | ⟨d, t, hs, hd⟩
      · subst hs; cases h
      · subst hs; injection h with h1 _; subst h1; exact absurd (hx _ (by simp)) hd
    | cons d y =>
      injection h with h1 h2
      obtain ⟨e1, e2⟩ := ih (fun c hc => hx c (List.mem_cons_of_mem _ hc)) (fun c hc => hy c (List.mem_cons_of_mem _ hc)) h2
      exact ⟨by rw [h1, e1], e2⟩

/-- a decimal digit -/
def Dig (c : Char) : Prop := '0' ≤ c ∧ c ≤ '9'

theorem num_dig (n : Nat) : ∀ c ∈ num n, Dig c := fun _ hc => Collector.digits_mem hc
theorem num_ne (n : Nat) : num n ≠ [] := Xml.toDigits_ne n
theorem num_worth (n : Nat) : worth (num n) = n := Xml.worth_toDigits n
theorem num_inj {n m : Nat} (h : num n = num m) : n = m := by rw [← num_worth n, h, num_worth]
theorem num_no {c : Char} (n : Nat) (h : ¬ Dig c) : c ∉ num n := fun hc => h (num_dig n c hc)
theorem num_head (n : Nat) : ∃ c t, num n = c :: t ∧ Dig c := by
  cases h : num n with
  | nil => exact absurd h (num_ne n)
  | cons c t => exact ⟨c, t, rfl, num_dig n c (by rw [h]; simp)⟩

/-- two numbers before other characters are the same -/
theorem num_cut {n m : Nat} {r s : Text} (hr : Stops Dig r) (hs : Stops Dig s) (h : num n ++ r = num m ++ s) : n = m ∧ r = s := by
  obtain ⟨e1, e2⟩ := cut (num_dig n) (num_dig m) hr hs h
  exact ⟨num_inj e1, e2⟩

theorem joined_nil (s : Text) : joined s [] = [] := rfl
theorem joined_one (s t : Text) : joined s [t] = t := by simp [joined, List.intercalate]
theorem joined_cons (s t u : Text) (l : List Text) : joined s (t :: u :: l) = t ++ (s ++ joined s (u :: l)) := by
  simp [joined, List.intercalate]

/-- the text of a list, as its first part and the others -/
theorem joined_step (s t : Text) (l : List Text) : joined s (t :: l) = t ++ (if l = [] then [] else s ++ joined s l) := by
  cases l with
  | nil => simp [joined_one]
  | cons u l => simp [joined_cons]

theorem joined_ne {s : Text} {l : List Text} (h : l ≠ []) (hn : ∀ t ∈ l, t ≠ []) : joined s l ≠ [] := by
  cases l with
  | nil => exact absurd rfl h
  | cons t l =>
    rw [joined_step]
    intro e
    exact hn t (by simp) (List.append_eq_nil_iff.1 e).1

theorem joined_append (s : Text) (a b : List Text) (ha : a ≠ []) (hb : b ≠ []) : joined s (a ++ b) = joined s a ++ (s ++ joined s b) := by
  induction a with
  | nil => exact absurd rfl ha
  | cons t a ih =>
    cases a with
    | nil =>
      cases b with
      | nil => exact absurd rfl hb
      | cons u b => simp [joined_cons, joined_one]
    | cons v a =>
      have := ih (by simp)
      rw [List.cons_append, List.cons_append, joined_cons, ← List.cons_append, this, joined_cons]
      simp

/-- parts that are joined already are joined again -/
theorem joined_flatten (s : Text) (ls : List (List Text)) (h : ∀ l ∈ ls, ∀ t ∈ l, t ≠ []) :
    joined s ((ls.map (joined s)).filter (· != [])) = joined s ls.flatten := by
  induction ls with
  | nil => rfl
  | cons l ls ih =>
    have ih := ih fun l hl => h l (List.mem_cons_of_mem _ hl)
    by_cases hl : l = []
    · subst hl
      simpa [joined_nil] using ih
    · have hne : joined s l ≠ [] := joined_ne hl (h l (by simp))
      rw [List.map_cons, List.filter_cons, if_pos (by simpa using hne), List.flatten_cons]
      by_cases hr : ls.flatten = []
      · have e : (ls.map (joined s)).filter (· != []) = [] := by
          rw [List.filter_eq_nil_iff]
          intro t ht
          obtain ⟨l', hl', rfl⟩ := List.mem_map.1 ht
          have : l' = [] := by
            have := List.flatten_eq_nil_iff.1 hr
            exact this l' hl'
          subst this; simp [joined_nil]
        rw [e, hr, List.append_nil, joined_one]
      · rw [joined_append s l _ hl hr, ← ih]
        cases hc : (ls.map (joined s)).filter (· != []) with
        | nil =>
          rw [hc, joined_nil] at ih
          exact absurd ih.symm (joined_ne hr fun t ht => by
            obtain ⟨l', hl', ht'⟩ := List.mem_flatten.1 ht
            exact h l' (List.mem_cons_of_mem _ hl') t ht')
        | cons u us => rw [joined_cons]

/-- lists of texts without the separator that are joined alike are the same -/
theorem joined_inj {s : Char} {a b : List Text} (ha : ∀ t ∈ a, s ∉ t ∧ t ≠ []) (hb : ∀ t ∈ b, s ∉ t ∧ t ≠ []) (h : joined [s] a = joined [s] b) : a = b := by
  by_cases hA : a = []
  · subst hA
    by_cases hB : b = []
    · exact hB.symm
    · rw [joined_nil] at h
      exact absurd h.symm (joined_ne hB fun t ht => (hb t ht).2)
  · by_cases hB : b = []
    · subst hB
      rw [joined_nil] at h
      exact absurd h (joined_ne hA fun t ht => (ha t ht).2)
    · have e1 := Xml.split_joined hA fun t ht => (ha t ht).1
      have e2 := Xml.split_joined hB fun t ht => (hb t ht).1
      rw [h] at e1
      exact e1.symm.trans e2

theorem map_inj {α : Type} {f : α → Text} (hf : ∀ a b, f a = f b → a = b) {l r : List α} (h : l.map f = r.map f) : l = r := by
  induction l generalizing r with
  | nil => cases r with | nil => rfl | cons _ _ => cases h
  | cons a l ih =>
    cases r with
    | nil => cases h
    | cons b r =>
      rw [List.map_cons, List.map_cons] at h
      injection h with h1 h2
      rw [hf a b h1, ih h2]

/-! ## Numbers and addresses -/

theorem ip4_inj {a b : UInt32} (r s : Text) (hr : Stops Dig r) (hs : Stops Dig s) (h : ip4Text a ++ r = ip4Text b ++ s) : a = b ∧ r = s := by
  have dot : ∀ t, Stops Dig ('.' :: t) := fun t => stops_cons (by unfold Dig; decide)
  unfold ip4Text at h
  simp only [List.append_assoc, List.cons_append] at h
  obtain ⟨e1, h⟩ := num_cut (dot _) (dot _) h
  injection h with _ h
  obtain ⟨e2, h⟩ := num_cut (dot _) (dot _) h
  injection h with _ h
  obtain ⟨e3, h⟩ := num_cut (dot _) (dot _) h
  injection h with _ h
  obtain ⟨e4, h⟩ := num_cut hr hs h
  refine ⟨UInt32.toNat_inj.1 ?_, h⟩
  omega

theorem ip4_no {c : Char} (a : UInt32) (h : ¬ Dig c) (hd : c ≠ '.') : c ∉ ip4Text a := by
  unfold ip4Text
  simp only [List.mem_append, List.mem_cons, not_or]
  exact ⟨num_no _ h, hd, num_no _ h, hd, num_no _ h, hd, num_no _ h⟩

theorem ip4_ne (a : UInt32) : ip4Text a ≠ [] := by
  unfold ip4Text
  intro h
  exact num_ne _ (List.append_eq_nil_iff.1 h).1

theorem colon_stops (t : Text) : Stops Dig (':' :: t) := stops_cons (by unfold Dig; decide)

theorem pair_inj {a b c d : Nat} (h : num a ++ ':' :: num b = num c ++ ':' :: num d) : a = c ∧ b = d := by
  obtain ⟨e1, h⟩ := num_cut (colon_stops _) (colon_stops _) h
  exact ⟨e1, num_inj (List.cons.inj h).2⟩

theorem ipPair_inj {a c : UInt32} {b d : Nat} (h : ip4Text a ++ ':' :: num b = ip4Text c ++ ':' :: num d) : a = c ∧ b = d := by
  obtain ⟨e1, h⟩ := ip4_inj _ _ (colon_stops _) (colon_stops _) h
  exact ⟨e1, num_inj (List.cons.inj h).2⟩

/-- the first character of a route distinguisher is its type -/
def rdMark : Rd → Char
  | .as2 .. => '0' | .ipv4 .. => '1' | .as4 .. => '2' | .leafAd => '3'

/-- what comes after the type -/
def rdRest : Rd → Text
  | .as2 a n => num a.toNat ++ ':' :: num n.toNat
  | .ipv4 a n => ip4Text a ++ ':' :: num n.toNat
  | .as4 a n => num a.toNat ++ ':' :: num n.toNat
  | .leafAd => "leaf-A-D-route".toList

theorem rdText_split (a : Rd) : rdTextOf a = rdMark a :: ':' :: rdRest a := by
  cases a <;> first | rfl | (show "3:leaf-A-D-route".toList = '3' :: ':' :: "leaf-A-D-route".toList; decide)

/-- the text of route distinguishers tells them apart -/
theorem rdText_inj {a b : Rd} (h : rdTextOf a = rdTextOf b) : a = b := by
  rw [rdText_split, rdText_split] at h
  have hm : rdMark a = rdMark b := (List.cons.inj h).1
  have hr : rdRest a = rdRest b := (List.cons.inj (List.cons.inj h).2).2
  clear h
  cases a with
  | as2 x n =>
    cases b with
    | as2 y m =>
      obtain ⟨e1, e2⟩ := pair_inj hr
      have e1 := UInt16.toNat_inj.1 e1
      have e2 := UInt32.toNat_inj.1 e2
      subst e1 e2; rfl
    | ipv4 y m => exact absurd hm (show ¬ '0' = '1' by decide)
    | as4 y m => exact absurd hm (show ¬ '0' = '2' by decide)
    | leafAd => exact absurd hm (show ¬ '0' = '3' by decide)
  | ipv4 x n =>
    cases b with
    | ipv4 y m =>
      obtain ⟨e1, e2⟩ := ipPair_inj hr
      have e2 := UInt16.toNat_inj.1 e2
      subst e1 e2; rfl
    | as2 y m => exact absurd hm (show ¬ '1' = '0' by decide)
    | as4 y m => exact absurd hm (show ¬ '1' = '2' by decide)
    | leafAd => exact absurd hm (show ¬ '1' = '3' by decide)
  | as4 x n =>
    cases b with
    | as4 y m =>
      obtain ⟨e1, e2⟩ := pair_inj hr
      have e1 := UInt32.toNat_inj.1 e1
      have e2 := UInt16.toNat_inj.1 e2
      subst e1 e2; rfl
    | ipv4 y m => exact absurd hm (show ¬ '2' = '1' by decide)
    | as2 y m => exact absurd hm (show ¬ '2' = '0' by decide)
    | leafAd => exact absurd hm (show ¬ '2' = '3' by decide)
  | leafAd =>
    cases b with
    | leafAd => rfl
    | as2 y m => exact absurd hm (show ¬ '3' = '0' by decide)
    | ipv4 y m => exact absurd hm (show ¬ '3' = '1' by decide)
    | as4 y m => exact absurd hm (show ¬ '3' = '2' by decide)

/-! ## Communities -/

theorem lookup_mem {l : List (UInt32 × Text)} {c : UInt32} {t : Text} (h : l.lookup c = some t) : (c, t) ∈ l := by
  induction l with
  | nil => cases h
  | cons x l ih =>
    obtain ⟨k, v⟩ := x
    rw [List.lookup_cons] at h
    by_cases e : c = k
    · subst e; rw [beq_self_eq_true] at h
      injection h with h
      rw [← h]; simp
    · rw [show (c == k) = false from by simpa using e] at h
      exact List.mem_cons_of_mem _ (ih h)

theorem wellKnown_facts : ∀ x ∈ wellKnown, ' ' ∉ x.2 ∧ x.2 ≠ [] ∧ ':' ∉ x.2 ∧ ∀ y ∈ wellKnown, x.2 = y.2 → x.1 = y.1 := by decide +kernel

theorem commText_facts (c : UInt32) : ' ' ∉ commText c ∧ commText c ≠ [] := by
  unfold commText
  cases h : wellKnown.lookup c with
  | some t => exact ⟨(wellKnown_facts _ (lookup_mem h)).1, (wellKnown_facts _ (lookup_mem h)).2.1⟩
  | none =>
    refine ⟨?_, ?_⟩
    · simp only [List.mem_append, List.mem_cons, not_or]
      exact ⟨num_no _ (by unfold Dig; decide), by decide, num_no _ (by unfold Dig; decide)⟩
    · intro e; exact num_ne _ (List.append_eq_nil_iff.1 e).1

theorem commText_inj (a b : UInt32) (h : commText a = commText b) : a = b := by
  unfold commText at h
  cases ha : wellKnown.lookup a with
  | some t =>
    rw [ha] at h
    cases hb : wellKnown.lookup b with
    | some u =>
      rw [hb] at h
      exact (wellKnown_facts _ (lookup_mem ha)).2.2.2 _ (lookup_mem hb) h
    | none =>
      rw [hb] at h
      have h : t = num (b.toNat / 65536) ++ ':' :: num (b.toNat % 65536) := h
      exact absurd (by rw [h]; simp) (wellKnown_facts _ (lookup_mem ha)).2.2.1
  | none =>
    rw [ha] at h
    cases hb : wellKnown.lookup b with
    | some u =>
      rw [hb] at h
      have h : num (a.toNat / 65536) ++ ':' :: num (a.toNat % 65536) = u := h
      exact absurd (by rw [← h]; simp) (wellKnown_facts _ (lookup_mem hb)).2.2.1
    | none =>
      rw [hb] at h
      obtain ⟨e1, h⟩ := num_cut (colon_stops _) (colon_stops _) h
      injection h with _ h
      have e2 := num_inj h
      exact UInt32.toNat_inj.1 (by omega)

theorem largeText_facts (c : LargeComm) : ' ' ∉ largeText c ∧ largeText c ≠ [] := by
  unfold largeText
  refine ⟨?_, ?_⟩
  · simp only [List.mem_append, List.mem_cons, not_or]
    exact ⟨num_no _ (by unfold Dig; decide), by decide, num_no _ (by unfold Dig; decide), by decide, num_no _ (by unfold Dig; decide)⟩
  · intro e; exact num_ne _ (List.append_eq_nil_iff.1 e).1

theorem largeText_inj (a b : LargeComm) (h : largeText a = largeText b) : a = b := by
  unfold largeText at h
  obtain ⟨e1, h⟩ := num_cut (colon_stops _) (colon_stops _) h
  injection h with _ h
  obtain ⟨e2, h⟩ := num_cut (colon_stops _) (colon_stops _) h
  injection h with _ h
  cases a; cases b
  simp only [LargeComm.mk.injEq]
  exact ⟨UInt32.toNat_inj.1 e1, UInt32.toNat_inj.1 e2, UInt32.toNat_inj.1 (num_inj h)⟩

end Verif.Pmacct
