import Verif.Props.SubscriptionChildren
/-!
# C280: prefixes of paths
-/
namespace Verif.Props
open Verif.Xml
open Verif.Collector (Text trim trimStart isSpace parseNat)

/-- an identifier of RFC 7950, section 6.2 -/
def IsIdentifier (t : Text) : Prop := ∃ c cs, t = c :: cs ∧ (c.isAlpha = true ∨ c = '_') ∧ ∀ x ∈ cs, x.isAlphanum = true ∨ x = '_' ∨ x = '-' ∨ x = '.'

/-- a name in a path: with a prefix or without -/
structure PathName where
  pfx : Option Text
  name : Text
  deriving DecidableEq, Repr

def PathName.text (n : PathName) : Text := match n.pfx with | some p => p ++ ':' :: n.name | none => n.name

def PathName.Plain (n : PathName) : Prop := (∀ p ∈ n.pfx, IsIdentifier p) ∧ IsIdentifier n.name

/-- a part of a path: a step with an axis or without, a comparison of a name with a literal in quotes of one kind or the other, or one with a number of a position -/
inductive PathPart where
  | step (axis : Option Text) (n : PathName)
  | single (n : PathName) (literal : Text)
  | double (n : PathName) (literal : Text)
  | wildcard
  | position (i : Nat)

def PathPart.text : PathPart → Text
  | .step none n => '/' :: n.text
  | .step (some a) n => '/' :: (a ++ ':' :: ':' :: n.text)
  | .single n l => '[' :: (n.text ++ '=' :: '\'' :: (l ++ "']".toList))
  | .double n l => '[' :: (n.text ++ '=' :: '"' :: (l ++ "\"]".toList))
  | .wildcard => "/*".toList
  | .position i => '[' :: (decimal i ++ [']'])

def PathPart.Plain : PathPart → Prop
  | .step a n => (∀ x ∈ a, IsIdentifier x) ∧ n.Plain
  | .single n l => n.Plain ∧ '\'' ∉ l
  | .double n l => n.Plain ∧ '"' ∉ l
  | _ => True

/-- the prefixes of a part -/
def PathPart.prefixes : PathPart → List Text
  | .step _ n => n.pfx.toList
  | .single n _ => n.pfx.toList
  | .double n _ => n.pfx.toList
  | _ => []

def stepsText (l : List PathPart) : Text := (l.map PathPart.text).flatten
def pathPrefixes (l : List PathPart) : List Text := (l.map PathPart.prefixes).flatten

/-- outside of literals -/
def Scan.free : Scan → Prop
  | .out => True
  | .name _ => True
  | _ => False

theorem nameChar_of {x : Char} (h : x.isAlphanum = true ∨ x = '_' ∨ x = '-' ∨ x = '.') : nameChar x = true := by
  rcases h with h | h | h | h
  · simp [nameChar, h]
  · subst h; decide
  · subst h; decide
  · subst h; decide

theorem scan_more {acc cs : Text} (h : ∀ x ∈ cs, x.isAlphanum = true ∨ x = '_' ∨ x = '-' ∨ x = '.') (rest : Text) : xpathPrefixes (.name acc) (cs ++ rest) = xpathPrefixes (.name (acc ++ cs)) rest := by
  induction cs generalizing acc with
  | nil => simp
  | cons x cs ih =>
    show xpathPrefixes (.name acc) (x :: (cs ++ rest)) = _
    rw [xpathPrefixes, if_pos (nameChar_of (h x List.mem_cons_self)), ih fun y hy => h y (List.mem_cons_of_mem _ hy)]
    simp

theorem scan_identifier {t : Text} (h : IsIdentifier t) (rest : Text) : xpathPrefixes .out (t ++ rest) = xpathPrefixes (.name t) rest := by
  obtain ⟨c, cs, rfl, hc, hcs⟩ := h
  have hs : scanFrom c = .name [c] := by
    have h1 : c ≠ '\'' := by rintro rfl; rcases hc with hc | hc <;> revert hc <;> decide
    have h2 : c ≠ '"' := by rintro rfl; rcases hc with hc | hc <;> revert hc <;> decide
    unfold scanFrom
    rw [if_neg h1, if_neg h2, if_pos (by rcases hc with hc | hc <;> simp [hc])]
  show xpathPrefixes .out (c :: (cs ++ rest)) = _
  rw [xpathPrefixes, hs, scan_more hcs]
  rfl

theorem identifier_head {t : Text} (h : IsIdentifier t) (rest : Text) : (t ++ rest).head? ≠ some ':' := by
  obtain ⟨c, cs, rfl, hc, hcs⟩ := h
  simp only [List.cons_append, List.head?_cons, ne_eq, Option.some.injEq]
  rintro rfl
  rcases hc with hc | hc <;> revert hc <;> decide

/-- a character that is part of no name and is no colon -/
theorem scan_break {st : Scan} (hst : Scan.free st) {c : Char} (hn : nameChar c = false) (hc : c ≠ ':') (cs : Text) : xpathPrefixes st (c :: cs) = xpathPrefixes (scanFrom c) cs := by
  cases st with
  | out => rw [xpathPrefixes]
  | name acc => rw [xpathPrefixes, if_neg (by rw [hn]; simp), if_neg (fun h => hc h.1)]
  | single => exact hst.elim
  | double => exact hst.elim

theorem scan_pathName {n : PathName} (h : n.Plain) (rest : Text) : xpathPrefixes .out (n.text ++ rest) = n.pfx.toList ++ xpathPrefixes (.name n.name) rest := by
  obtain ⟨p, m⟩ := n
  cases p with
  | none => exact scan_identifier h.2 rest
  | some p =>
    show xpathPrefixes .out ((p ++ ':' :: m) ++ rest) = p :: xpathPrefixes (.name m) rest
    rw [List.append_assoc, scan_identifier (h.1 p rfl)]
    show xpathPrefixes (.name p) (':' :: (m ++ rest)) = _
    rw [xpathPrefixes, if_neg (by decide), if_pos ⟨rfl, identifier_head h.2 rest⟩, scan_identifier h.2]

theorem scan_literal {l : Text} (h : '\'' ∉ l) (rest : Text) : xpathPrefixes .single (l ++ '\'' :: rest) = xpathPrefixes .out rest := by
  induction l with
  | nil => show xpathPrefixes .single ('\'' :: rest) = _; rw [xpathPrefixes, if_pos rfl]
  | cons c l ih =>
    show xpathPrefixes .single (c :: (l ++ '\'' :: rest)) = _
    rw [xpathPrefixes, if_neg (fun e => h (by rw [e]; exact List.mem_cons_self))]
    exact ih fun e => h (List.mem_cons_of_mem _ e)

theorem scan_literal2 {l : Text} (h : '"' ∉ l) (rest : Text) : xpathPrefixes .double (l ++ '"' :: rest) = xpathPrefixes .out rest := by
  induction l with
  | nil => show xpathPrefixes .double ('"' :: rest) = _; rw [xpathPrefixes, if_pos rfl]
  | cons c l ih =>
    show xpathPrefixes .double (c :: (l ++ '"' :: rest)) = _
    rw [xpathPrefixes, if_neg (fun e => h (by rw [e]; exact List.mem_cons_self))]
    exact ih fun e => h (List.mem_cons_of_mem _ e)

theorem scan_digits {l : Text} (h : ∀ c ∈ l, c.isDigit = true) (rest : Text) : xpathPrefixes .out (l ++ rest) = xpathPrefixes .out rest := by
  induction l with
  | nil => rfl
  | cons c l ih =>
    have hc := h c List.mem_cons_self
    have hs : scanFrom c = .out := by
      have hv : 48 ≤ c.val.toNat ∧ c.val.toNat ≤ 57 := by
        simp only [Char.isDigit, Bool.and_eq_true, decide_eq_true_eq] at hc
        exact ⟨hc.1, hc.2⟩
      have hne : ∀ d : Char, (d.val.toNat < 48 ∨ 57 < d.val.toNat) → c ≠ d := by rintro d hd rfl; omega
      unfold scanFrom
      rw [if_neg (hne _ (by decide)), if_neg (hne _ (by decide)), if_neg]
      have h3 := hne '_' (by decide)
      have ha : c.isAlpha = false := by
        simp only [Char.isAlpha, Char.isUpper, Char.isLower, Bool.or_eq_false_iff, decide_eq_false_iff_not]
        constructor
        · rintro ⟨h', _⟩; have : 65 ≤ c.val.toNat := h'; omega
        · rw [Bool.and_eq_false_iff]; left; rw [decide_eq_false_iff_not]; intro h'; have : 97 ≤ c.val.toNat := h'; omega
      simp [ha, h3]
    show xpathPrefixes .out (c :: (l ++ rest)) = _
    rw [xpathPrefixes, hs]
    exact ih fun x hx => h x (List.mem_cons_of_mem _ hx)

theorem all_digits (i : Nat) : ∀ c ∈ decimal i, c.isDigit = true := by
  rw [decimal_digits]
  exact fun c hc => Nat.isDigit_of_mem_toDigits (by decide) (by decide) hc

theorem scan_part {p : PathPart} (h : p.Plain) {st : Scan} (hst : Scan.free st) (rest : Text) : ∃ st', Scan.free st' ∧ xpathPrefixes st (p.text ++ rest) = p.prefixes ++ xpathPrefixes st' rest := by
  cases p with
  | step a n =>
    refine ⟨.name n.name, trivial, ?_⟩
    cases a with
    | none =>
      show xpathPrefixes st ('/' :: (n.text ++ rest)) = _
      rw [scan_break hst (by decide) (by decide)]
      exact scan_pathName h.2 rest
    | some a =>
      show xpathPrefixes st ('/' :: ((a ++ ':' :: ':' :: n.text) ++ rest)) = _
      rw [scan_break hst (by decide) (by decide), List.append_assoc]
      show xpathPrefixes .out (a ++ (':' :: ':' :: (n.text ++ rest))) = _
      rw [scan_identifier (h.1 a rfl), xpathPrefixes, if_neg (by decide), if_neg (by simp)]
      show xpathPrefixes .out (':' :: (n.text ++ rest)) = _
      rw [xpathPrefixes]
      exact scan_pathName h.2 rest
  | single n l =>
    refine ⟨.out, trivial, ?_⟩
    show xpathPrefixes st ('[' :: ((n.text ++ '=' :: '\'' :: (l ++ "']".toList)) ++ rest)) = _
    rw [scan_break hst (by decide) (by decide)]
    show xpathPrefixes .out _ = _
    rw [List.append_assoc, scan_pathName h.1]
    show _ ++ xpathPrefixes (.name n.name) ('=' :: '\'' :: ((l ++ "']".toList) ++ rest)) = _
    rw [scan_break (st := .name n.name) trivial (by decide) (by decide)]
    show _ ++ xpathPrefixes .out ('\'' :: ((l ++ "']".toList) ++ rest)) = _
    rw [xpathPrefixes, List.append_assoc]
    show _ ++ xpathPrefixes .single (l ++ '\'' :: (']' :: rest)) = _
    rw [scan_literal h.2, xpathPrefixes]
    rfl
  | double n l =>
    refine ⟨.out, trivial, ?_⟩
    show xpathPrefixes st ('[' :: ((n.text ++ '=' :: '"' :: (l ++ "\"]".toList)) ++ rest)) = _
    rw [scan_break hst (by decide) (by decide)]
    show xpathPrefixes .out _ = _
    rw [List.append_assoc, scan_pathName h.1]
    show _ ++ xpathPrefixes (.name n.name) ('=' :: '"' :: ((l ++ "\"]".toList) ++ rest)) = _
    rw [scan_break (st := .name n.name) trivial (by decide) (by decide)]
    show _ ++ xpathPrefixes .out ('"' :: ((l ++ "\"]".toList) ++ rest)) = _
    rw [xpathPrefixes, List.append_assoc]
    show _ ++ xpathPrefixes .double (l ++ '"' :: (']' :: rest)) = _
    rw [scan_literal2 h.2, xpathPrefixes]
    rfl
  | wildcard =>
    refine ⟨.out, trivial, ?_⟩
    show xpathPrefixes st ('/' :: '*' :: rest) = _
    rw [scan_break hst (by decide) (by decide)]
    show xpathPrefixes .out _ = _
    rw [xpathPrefixes]
    rfl
  | position i =>
    refine ⟨.out, trivial, ?_⟩
    show xpathPrefixes st ('[' :: ((decimal i ++ [']']) ++ rest)) = _
    rw [scan_break hst (by decide) (by decide), List.append_assoc]
    show xpathPrefixes .out _ = _
    rw [scan_digits (all_digits i)]
    show xpathPrefixes .out (']' :: rest) = _
    rw [xpathPrefixes]
    rfl

theorem scan_parts {l : List PathPart} (h : ∀ p ∈ l, p.Plain) {st : Scan} (hst : Scan.free st) : xpathPrefixes st (stepsText l) = pathPrefixes l := by
  induction l generalizing st with
  | nil => cases st <;> rfl
  | cons p l ih =>
    show xpathPrefixes st (p.text ++ stepsText l) = p.prefixes ++ pathPrefixes l
    obtain ⟨st', h1, h2⟩ := scan_part (h p List.mem_cons_self) hst (stepsText l)
    rw [h2, ih (fun q hq => h q (List.mem_cons_of_mem _ hq)) h1]

/-- the element of a filter by a path, with prefixes that are declared at it -/
def pathElem (namespaces : List (String × Text)) (path : Text) : List Raw :=
  .start ⟨none, "datastore-xpath-filter"⟩ (⟨⟨none, "xmlns"⟩, some nsPush⟩ :: namespaces.map fun b => ⟨⟨some "xmlns", b.1⟩, some b.2⟩) :: (written path ++ [.close ⟨none, "datastore-xpath-filter"⟩])

theorem declared_prefixes (l : List (String × Text)) : declared (l.map fun b => (⟨⟨some "xmlns", b.1⟩, some b.2⟩ : Attr)) = l.reverse := by
  induction l with
  | nil => rfl
  | cons b l ih => rw [List.map_cons, declared, ih, List.reverse_cons]

theorem bindings_snoc (l : List (String × Text)) (h : (l.map Prod.fst).Pairwise (· ≠ ·)) : Scope.bindings l = l.reverse := by
  induction l with
  | nil => rfl
  | cons b l ih =>
    obtain ⟨p, n⟩ := b
    rw [List.map_cons, List.pairwise_cons] at h
    rw [Scope.bindings, ih h.2, List.reverse_cons, List.filter_eq_self.mpr]
    intro x hx
    have := h.1 x.1 (List.mem_map_of_mem (List.mem_reverse.mp hx))
    simpa using fun e => this e.symm

theorem space_small {c : Char} (h : 33 ≤ c.toNat ∧ c.toNat ≤ 126) : isSpace c = false := by
  unfold isSpace
  simp only [Bool.or_eq_false_iff, Bool.and_eq_false_iff, decide_eq_false_iff_not, beq_eq_false_iff_ne]
  omega

theorem alphanum_small {c : Char} (h : c.isAlphanum = true) : 33 ≤ c.toNat ∧ c.toNat ≤ 126 := by
  simp only [Char.isAlphanum, Char.isAlpha, Char.isUpper, Char.isLower, Char.isDigit, Bool.or_eq_true, Bool.and_eq_true, decide_eq_true_eq] at h
  show 33 ≤ c.val.toNat ∧ c.val.toNat ≤ 126
  rcases h with (h | h) | h
  · have h1 : 65 ≤ c.val.toNat := h.1
    have h2 : c.val.toNat ≤ 90 := h.2
    omega
  · have h1 : 97 ≤ c.val.toNat := h.1
    have h2 : c.val.toNat ≤ 122 := h.2
    omega
  · have h1 : 48 ≤ c.val.toNat := h.1
    have h2 : c.val.toNat ≤ 57 := h.2
    omega

theorem identifier_last {t : Text} (h : IsIdentifier t) : ∃ c, t.getLast? = some c ∧ isSpace c = false := by
  have hx : ∀ x ∈ t, isSpace x = false := by
    obtain ⟨c, cs, rfl, hc, hcs⟩ := h
    intro x hx
    rcases List.mem_cons.mp hx with rfl | hx
    · rcases hc with hc | rfl
      · exact space_small (alphanum_small (by simp [Char.isAlphanum, hc]))
      · decide
    · rcases hcs x hx with h | rfl | rfl | rfl
      · exact space_small (alphanum_small h)
      · decide
      · decide
      · decide
  obtain ⟨c, cs, rfl, _, _⟩ := h
  exact ⟨_, List.getLast?_eq_some_getLast (by simp), hx _ (List.getLast_mem _)⟩

theorem last_append {a b : Text} {c : Char} (h : b.getLast? = some c) : (a ++ b).getLast? = some c := by rw [List.getLast?_append, h]; rfl

theorem part_last {p : PathPart} (h : p.Plain) : ∃ c, p.text.getLast? = some c ∧ isSpace c = false := by
  have hname : ∀ n : PathName, n.Plain → ∃ c, n.text.getLast? = some c ∧ isSpace c = false := by
    rintro ⟨p, m⟩ hn
    obtain ⟨c, h1, h2⟩ := identifier_last hn.2
    cases p with
    | none => exact ⟨c, h1, h2⟩
    | some p => exact ⟨c, last_append (a := p) (b := ':' :: m) (last_append (a := [':']) h1), h2⟩
  cases p with
  | step a n =>
    obtain ⟨c, h1, h2⟩ := hname n h.2
    cases a with
    | none => exact ⟨c, last_append (a := ['/']) h1, h2⟩
    | some a => exact ⟨c, last_append (a := ['/']) (last_append (a := a) (last_append (a := [':', ':']) h1)), h2⟩
  | single n l => exact ⟨']', last_append (a := ['[']) (last_append (a := n.text) (last_append (a := ['=', '\'']) (last_append (a := l) rfl))), by decide⟩
  | double n l => exact ⟨']', last_append (a := ['[']) (last_append (a := n.text) (last_append (a := ['=', '"']) (last_append (a := l) rfl))), by decide⟩
  | wildcard => exact ⟨'*', rfl, by decide⟩
  | position i => exact ⟨']', last_append (a := ['[']) (last_append (a := decimal i) rfl), by decide⟩

theorem path_tight {l : List PathPart} (h : ∀ p ∈ l, p.Plain) : Tight (stepsText l) := by
  intro c hc
  rcases hc with hc | hc
  · cases l with
    | nil => cases hc
    | cons p l =>
      have : c = '/' ∨ c = '[' := by
        cases p with
        | step a n => cases a <;> (simp [stepsText, PathPart.text] at hc; exact .inl hc.symm)
        | single n l => simp [stepsText, PathPart.text] at hc; exact .inr hc.symm
        | double n l => simp [stepsText, PathPart.text] at hc; exact .inr hc.symm
        | wildcard => simp [stepsText, PathPart.text] at hc; exact .inl hc.symm
        | position i => simp [stepsText, PathPart.text] at hc; exact .inr hc.symm
      rcases this with rfl | rfl <;> decide
  · have : ∀ l : List PathPart, (∀ p ∈ l, p.Plain) → ∀ c, (stepsText l).getLast? = some c → isSpace c = false := by
      intro l
      induction l with
      | nil => intro _ c e; cases e
      | cons p l ih =>
        intro h c e
        have e' : (p.text ++ stepsText l).getLast? = some c := e
        cases hl : (stepsText l).getLast? with
        | some x =>
          rw [last_append hl] at e'
          injection e' with e'
          subst e'
          exact ih (fun q hq => h q (List.mem_cons_of_mem _ hq)) _ hl
        | none =>
          have hn : stepsText l = [] := by simpa using hl
          rw [hn, List.append_nil] at e'
          obtain ⟨x, h1, h2⟩ := part_last (h p List.mem_cons_self)
          rw [h1] at e'
          injection e' with e'
          subst e'
          exact h2
    exact this l h c hc

theorem prefixes_identifier {l : List PathPart} (h : ∀ p ∈ l, p.Plain) : ∀ t ∈ pathPrefixes l, IsIdentifier t := by
  intro t ht
  obtain ⟨m, hm, ht⟩ := List.mem_flatten.mp ht
  obtain ⟨p, hp, rfl⟩ := List.mem_map.mp hm
  have := h p hp
  cases p with
  | step a n => exact this.2.1 t (by simpa [PathPart.prefixes] using ht)
  | single n l => exact this.1.1 t (by simpa [PathPart.prefixes] using ht)
  | double n l => exact this.1.1 t (by simpa [PathPart.prefixes] using ht)
  | wildcard => cases ht
  | position i => cases ht

theorem identifier_ne {t : Text} (h : IsIdentifier t) : t ≠ [] := by obtain ⟨c, cs, rfl, _⟩ := h; simp

/-- C280, in part: of all prefixes that are declared for a filter, those that its path uses are kept with their namespaces, and no others. Colons in literals and behind axes do not count. -/
theorem c280_prefixes_partial {l : List PathPart} (h : ∀ p ∈ l, p.Plain) {ns : List (String × Text)} (hd : (ns.map Prod.fst).Pairwise (· ≠ ·)) (hn : ∀ b ∈ ns, b.1 ≠ "") :
    run (readXPath nsPush "datastore-xpath-filter") (annotate [] (pathElem ns (stepsText l))) = .ok ⟨ns.filter fun b => decide (b.1.toList ∈ pathPrefixes l), stepsText l⟩ := by
  have hdec : declared ((⟨⟨none, "xmlns"⟩, some nsPush⟩ : Attr) :: ns.map fun b => ⟨⟨some "xmlns", b.1⟩, some b.2⟩) ++ Stack.scope [] = ns.reverse ++ [("", nsPush)] := by
    rw [declared, declared_prefixes]
    show (ns.reverse ++ [("", nsPush)]) ++ [] = _
    rw [List.append_nil]
  have hb : Scope.bindings (ns.reverse ++ [("", nsPush)]) = ("", nsPush) :: ns := by
    rw [bindings_snoc]
    · simp
    · rw [List.map_append, List.map_reverse, List.pairwise_append]
      refine ⟨?_, List.pairwise_singleton _ _, ?_⟩
      · rw [List.pairwise_reverse]; exact hd.imp fun e x => e x.symm
      · intro a ha b hb
        simp only [List.map_cons, List.map_nil, List.mem_singleton] at hb
        subst hb
        obtain ⟨x, hx, rfl⟩ := List.mem_map.mp (List.mem_reverse.mp ha)
        exact hn x hx
  have hf : Scope.find (ns.reverse ++ [("", nsPush)]) "" = some nsPush := by
    have hn' : ∀ b ∈ ns.reverse, b.1 ≠ "" := fun b hb => hn b (List.mem_reverse.mp hb)
    generalize ns.reverse = m at hn' ⊢
    induction m with
    | nil => rfl
    | cons b m ih =>
      show Scope.find (b :: (m ++ _)) "" = _
      rw [Scope.find, if_neg (hn' b List.mem_cons_self)]
      exact ih fun x hx => hn' x (List.mem_cons_of_mem _ hx)
  have hr : (declared ((⟨⟨none, "xmlns"⟩, some nsPush⟩ : Attr) :: ns.map fun b => ⟨⟨some "xmlns", b.1⟩, some b.2⟩) ++ Stack.scope []).resolve ⟨none, "datastore-xpath-filter"⟩ = .bound nsPush := by
    rw [hdec]
    unfold Scope.resolve
    simp only [hf]
    rfl
  have := run_of_reads (reads_xpath hr (flat_written (stepsText l))) rfl
  rw [plain_written, tight_trim (path_tight h), hdec] at this
  have hk : keptBy (stepsText l) (ns.reverse ++ [("", nsPush)]) = ns.filter fun b => decide (b.1.toList ∈ pathPrefixes l) := by
    unfold keptBy
    rw [hb, scan_parts h (st := .out) trivial, List.filter_cons_of_neg]
    simp only [decide_eq_true_eq]
    exact fun e => identifier_ne (prefixes_identifier h _ e) rfl
  rw [hk] at this
  exact this

theorem plain_path {l : List PathPart} (h : ∀ p ∈ l, p.Plain) {ns : List (String × Text)} (hp : ns.Pairwise fun a b => a.1 ≠ b.1) (hu : ns.Pairwise fun a b => a.2 ≠ b.2)
    (hused : ∀ p : String, p.toList ∈ pathPrefixes l ↔ ∃ n, (p, n) ∈ ns) (hn : ∀ b ∈ ns, b.1 ≠ "xml" ∧ b.2 ≠ []) : PlainPath ⟨ns, stepsText l⟩ := by
  refine ⟨path_tight h, hp, hu, fun p => ?_, fun b hb => ⟨?_, hn b hb⟩⟩
  · rw [scan_parts h (st := .out) trivial]; exact hused p
  · rintro e
    have := prefixes_identifier h _ ((hused b.1).mpr ⟨b.2, hb⟩)
    rw [e] at this
    exact identifier_ne this rfl

/-- C280, in part: a subscription whose filter is a path with exactly the prefixes it uses, each of another namespace, is written and read back. -/
theorem c280_read_back_partial {c : Clock} {s : Subscription} {d : YStoreName} {l : List PathPart} {ns : List (String × Text)} (ht : s.target = .datastore d (.inline (.xpath ⟨ns, stepsText l⟩))) (hw : WholeSub s)
    (hs : PlainSub c { s with target := .datastore d (.byReference []) }) (h : ∀ p ∈ l, p.Plain) (hp : ns.Pairwise fun a b => a.1 ≠ b.1) (hu : ns.Pairwise fun a b => a.2 ≠ b.2)
    (hused : ∀ p : String, p.toList ∈ pathPrefixes l ↔ ∃ n, (p, n) ∈ ns) (hn : ∀ b ∈ ns, b.1 ≠ "xml" ∧ b.2 ≠ []) {bs : List (List (Text × String))} (hb : NoneOf bs) (b : Bool) :
    ∃ rs, output (writeSubscription c s) ⟨[], bs, b⟩ = some rs ∧ run (readSubscription c) (annotate [] rs) = .ok s := by
  refine c272_read_back_partial (s := s) ⟨hs.id, ?_, hs.stop, hs.dscp, hs.weighting, hs.dependency, hs.purpose, hs.publishers, hs.periodic, hs.onChange, hs.versions, hs.contentId⟩ hw hb b
  rw [ht]
  exact ⟨hs.target.1, plain_path h hp hu hused hn⟩

/-- a path with an axis, two modules and a literal with a colon -/
def pathParts : List PathPart := [.step none ⟨some "if".toList, "interfaces".toList⟩, .step (some "child".toList) ⟨none, "interface".toList⟩, .single ⟨none, "name".toList⟩ "x:y".toList, .position 2, .wildcard, .step none ⟨some "ip".toList, "ipv4".toList⟩]

theorem identifier_of {t : Text} (h : (match t with | [] => false | c :: cs => (c.isAlpha || c == '_') && cs.all fun x => x.isAlphanum || x == '_' || x == '-' || x == '.') = true) : IsIdentifier t := by
  cases t with
  | nil => cases h
  | cons c cs =>
    simp only [Bool.and_eq_true, Bool.or_eq_true, List.all_eq_true, beq_iff_eq] at h
    exact ⟨c, cs, rfl, h.1, fun x hx => by rcases h.2 x hx with ((h | h) | h) | h <;> simp [h]⟩

example : (∀ p ∈ pathParts, p.Plain) ∧ stepsText pathParts = "/if:interfaces/child::interface[name='x:y'][2]/*/ip:ipv4".toList ∧ pathPrefixes pathParts = ["if".toList, "ip".toList] := by
  refine ⟨?_, by decide +kernel, rfl⟩
  intro p hp
  simp only [pathParts, List.mem_cons, List.not_mem_nil, or_false] at hp
  rcases hp with rfl | rfl | rfl | rfl | rfl | rfl
  · exact ⟨by simp, by intro p e; cases e; exact identifier_of (by decide +kernel), identifier_of (by decide +kernel)⟩
  · exact ⟨by intro p e; cases e; exact identifier_of (by decide +kernel), by simp, identifier_of (by decide +kernel)⟩
  · exact ⟨⟨by simp, identifier_of (by decide +kernel)⟩, by decide⟩
  · trivial
  · trivial
  · exact ⟨by simp, by intro p e; cases e; exact identifier_of (by decide +kernel), identifier_of (by decide +kernel)⟩

/-- C280 is false: a prefix with a letter that is not of ASCII is not found, and its namespace is lost. -/
theorem c280_letters_disproved :
    run (readXPath nsPush "datastore-xpath-filter") (annotate [] (pathElem [("é", "urn:x".toList)] "/é:a".toList)) = .ok ⟨[], "/é:a".toList⟩ := by decide +kernel

/-- a path with two prefixes of one namespace -/
def oneModuleTwice : XPathFilter := ⟨[("a", "urn:x".toList), ("b", "urn:x".toList)], "/a:x/b:y".toList⟩

/-- C280 is false: of two prefixes of one namespace one is not written, and the path is read back with a prefix that has no namespace. -/
theorem c280_twice_disproved : ∃ rs, output (writeSubscription tick { someSub with target := .datastore .operational (.inline (.xpath oneModuleTwice)) }) ⟨[], [], false⟩ = some rs ∧
    run (readSubscription tick) (annotate [] rs) = .ok { someSub with target := .datastore .operational (.inline (.xpath ⟨[("b", "urn:x".toList)], oneModuleTwice.path⟩)) } := by
  refine ⟨(output (writeSubscription tick { someSub with target := .datastore .operational (.inline (.xpath oneModuleTwice)) }) ⟨[], [], false⟩).getD [], by decide +kernel, by decide +kernel⟩

end Verif.Props
