import Verif.Yang.MetaRead
import Verif.Yang.Suffixes
/-! # Reading of YANG schemas: C143 to C146 -/
namespace Verif.Props
open Verif.Yang

/-- what is said of characters from 256 on does not matter in examples -/
def asciiOnly : Classes := ⟨fun _ => false, fun _ => false, fun _ => false⟩

/-! ## C143: reading ends -/

/-- C143: metadata is read to an end for all schemas -/
theorem c143_metadata_ends (k : Classes) (text : List Char) : ∃ n r, metadata k n text = some r := by
  refine ⟨text.length + 1, ?_⟩
  have := metaLoop_ends k (m := ⟨none, none, none, none, none⟩) (cs := text) (Nat.lt_succ_self _)
  unfold metadata
  split
  · split <;> exact ⟨_, rfl⟩
  · rename_i h
    exact Option.ne_none_iff_exists'.mp this

example : metadata asciiOnly 20 "module a { prefix".toList = some (.error .failed) := by decide +kernel

/-- C143: schemas in which there is neither of the keywords `import` and `include` are read to an end for their dependencies; that of others is missing, but for those of C145 -/
theorem c143_dependencies_partial (k : Classes) {text : List Char} (h1 : ¬"import".toList <:+: text) (h2 : ¬"include".toList <:+: text) :
    ∃ n r, dependencies k n text = some r := by
  have := parseLoop_ends k (n := text.length + 1) (is := []) (us := []) h1 h2 (Nat.lt_succ_self _)
  exact ⟨_, Option.ne_none_iff_exists'.mp this⟩

example : dependencies asciiOnly 20 "module a { prefix 'b; leaf".toList = some (.ok ([], [])) ∧
    ¬"import".toList <:+: "module a { prefix 'b; leaf".toList ∧ ¬"include".toList <:+: "module a { prefix 'b; leaf".toList := by decide +kernel

theorem importBody_stuck (k : Classes) : ∀ (n : Nat) (p r : Option (List Char)), importBody k n p r [] = none := by
  intro n
  induction n with
  | zero => intro p r; rfl
  | succ n ih => intro p r; exact ih p r

theorem includeBody_stuck (k : Classes) : ∀ (n : Nat) (r : Option (List Char)), includeBody k n r [] = none := by
  intro n
  induction n with
  | zero => intro r; rfl
  | succ n ih => intro r; exact ih r

theorem stuck_import (k : Classes) {n : Nat} {is : List Import} {us : List Include} {text cs r v rest : List Char} (h1 : skipSep k .code text = .ok cs) (h2 : cs ≠ [])
    (h3 : matchKeyword k "import".toList cs = .ok (some r)) (h4 : readValue k '{' r = .ok (v, rest)) (h5 : importBody k n none none rest = none) :
    parseLoop k (n + 1) is us text = none := by
  rw [parseLoop, h1]
  simp only [Loop.after]
  rw [if_neg h2, h3]
  simp only [parseImport, h4, Loop.after, h5]

theorem stuck_include (k : Classes) {n : Nat} {is : List Import} {us : List Include} {text cs r v rest : List Char} (h1 : skipSep k .code text = .ok cs) (h2 : cs ≠ [])
    (h3 : matchKeyword k "import".toList cs = .ok none) (h4 : matchKeyword k "include".toList cs = .ok (some r))
    (h5 : ((needArg k r).bind fun r => (skipSep k .code r.2).map fun cs => (r.1, cs)) = .ok (v, '{' :: rest)) (h6 : includeBody k n none rest = none) :
    parseLoop k (n + 1) is us text = none := by
  rw [parseLoop, h1]
  simp only [Loop.after]
  rw [if_neg h2, h3]
  simp only
  rw [h4]
  simp only [parseInclude, h5, Loop.after, h6]

/-- C143: a schema that ends within an import is read for ever, as is one that ends within an include -/
theorem c143_cut_disproved (k : Classes) : ∀ n, dependencies k n "module a { import b {".toList = none ∧ dependencies k n "module a { include b {".toList = none
  | 0 | 1 | 2 | 3 => ⟨rfl, rfl⟩
  | n + 4 => by
    constructor
    · show parseLoop k (n + 1) [] [] " import b {".toList = none
      exact stuck_import k (cs := "import b {".toList) (r := " b {".toList) (v := "b".toList) (rest := []) rfl (by decide) rfl rfl (importBody_stuck k _ _ _)
    · show parseLoop k (n + 1) [] [] " include b {".toList = none
      exact stuck_include k (cs := "include b {".toList) (r := " b {".toList) (v := "b".toList) (rest := []) rfl (by decide) rfl rfl rfl (includeBody_stuck k _ _)

/-- C143: a schema with an import in which a string ends with a backslash, as RFC 7950 allows, is read for ever -/
theorem c143_backslash_disproved (k : Classes) : ∀ n, dependencies k n "module a { import b { prefix c; reference 'd\\'; } }".toList = none
  | 0 | 1 | 2 | 3 | 4 | 5 => rfl
  | n + 6 => by
    show parseLoop k (n + 3) [] [] " import b { prefix c; reference 'd\\'; } }".toList = none
    refine stuck_import k (cs := "import b { prefix c; reference 'd\\'; } }".toList) (r := " b { prefix c; reference 'd\\'; } }".toList) (v := "b".toList)
      (rest := " prefix c; reference 'd\\'; } }".toList) rfl (by decide) rfl rfl ?_
    show importBody k n (some "c".toList) none [] = none
    exact importBody_stuck k _ _ _

/-! ## C144: reading does not panic -/

/-- C144: schemas in ASCII are read without panics; that of others is missing, but for those of C145 and C146 -/
theorem c144_ascii_partial (k : Classes) {text : List Char} (h : ∀ c ∈ text, c.toNat < 128) (n : Nat) :
    dependencies k n text ≠ some (.error .panicked) ∧ metadata k n text ≠ some (.error .panicked) := by
  refine ⟨parseLoop_quiet k h, ?_⟩
  have := metaLoop_quiet k (n := n) (m := ⟨none, none, none, none, none⟩) h
  unfold metadata
  split
  · split <;> exact nofun
  · exact this

example : (∀ c ∈ "module a { /* import; */ \"import".toList, c.toNat < 128) ∧ dependencies asciiOnly 30 "module a { /* import; */ \"import".toList = some (.ok ([], [])) := by decide +kernel

/-- C144: a schema that begins with a byte order mark panics -/
theorem c144_mark_disproved (k : Classes) (h : k.whitespace '\ufeff' = false) (rest : List Char) (n : Nat) :
    dependencies k (n + 1) ('\ufeff' :: 'm' :: rest) = some (.error .panicked) ∧ metadata k (n + 1) ('\ufeff' :: 'm' :: rest) = some (.error .panicked) := by
  have hs : skipSep k .code ('\ufeff' :: 'm' :: rest) = .ok ('\ufeff' :: 'm' :: rest) := by
    have : k.isWhitespace '\ufeff' = false := h
    rw [skipSep]
    · rw [this]; rfl
    · nofun
    · nofun
  have hp : peekIdentifier k ('\ufeff' :: 'm' :: rest) = .error .panicked := rfl
  constructor
  · unfold dependencies parseLoop
    rw [hs]
    simp only [Loop.after]
    rw [if_neg (by simp), matchKeyword, hp]
    rfl
  · unfold metadata metaLoop
    rw [hs]
    simp only [Loop.after]
    rw [if_neg (by simp), keywords, matchFirst, matchKeyword, hp]
    rfl

/-- C144: a schema that ends within a comment, after a character of several bytes, panics -/
theorem c144_comment_disproved (k : Classes) (n : Nat) : dependencies k (n + 1) "/* é".toList = some (.error .panicked) ∧ metadata k (n + 1) "/* é".toList = some (.error .panicked) :=
  ⟨rfl, rfl⟩

/-- C144: a schema in which there is a no-break space after a word panics -/
theorem c144_space_disproved (k : Classes) (n : Nat) : dependencies k (n + 1) "module\u00a0a {}".toList = some (.error .panicked) :=
  rfl

/-! ## C145: imports and includes are read as they are written -/

/-- C145: for schemas as in `Schema` the imports and includes are read, all and in their order, with names, prefixes and revisions. What is missing: schemas with
keywords as arguments that are not in quotes, with strings in imports and includes that end with backslashes in statements other than prefixes and revisions,
and with characters that are not in ASCII outside of strings and comments -/
theorem c145_dependencies_partial (k : Classes) {imports : List Import} {includes : List Include} {text : List Char} (h : Schema imports includes text) :
    ∃ rounds, ∀ n, rounds ≤ n → dependencies k n text = some (.ok (imports, includes)) :=
  ⟨text.length + 1, fun n hn => by have := schema_read k h (n := n) (is₀ := []) (us₀ := []) (by omega); exact this⟩

/-- a word, in ASCII -/
theorem word_of {w : List Char} (h : ((match w with | c :: _ => decide (Letter c ∨ c = '_') | [] => false) && w.all fun c => decide (WordChar c)) = true) : Word w := by
  simp only [Bool.and_eq_true, List.all_eq_true, decide_eq_true_eq] at h
  refine ⟨?_, h.2⟩
  cases w with
  | nil => exact absurd h.1 (by simp)
  | cons c t => exact ⟨c, rfl, of_decide_eq_true h.1⟩

theorem name_of {w : List Char} (h : Word w) : Name w := ⟨h.1.elim fun c hc => ⟨c, hc.1, hc.2.elim .inl fun h => .inr (.inl h)⟩, h.2⟩

theorem blank : Sep [' '] := .space (.inl rfl) .nil

theorem blank_gap : Gap [' '] := ⟨' ', [], rfl, .inl rfl, .nil⟩

theorem castSchema {is : List Import} {us : List Include} {t t' : List Char} (e : t = t') (h : Schema is us t') : Schema is us t := e ▸ h

theorem castImport {p r : Option (List Char)} {t t' : List Char} (e : t = t') (h : ImportBody p r t') : ImportBody p r t := e ▸ h

theorem castDescribed {b : Bool} {m : Metadata} {t t' : List Char} (e : t = t') (h : Described b m t') : Described b m t := e ▸ h

/-- a module with an import, an include, a list and a description -/
example : Schema [⟨"b".toList, "c".toList, some "2020-01-01".toList⟩] [⟨"d".toList, none⟩]
    "module a { import 'b' { prefix c; revision-date 2020-01-01; } include d; description \"import e;\"; }".toList := by
  refine castSchema (by decide +kernel) (.word (s := []) (w := "module".toList) (t := " a { import 'b' { prefix c; revision-date 2020-01-01; } include d; description \"import e;\"; }".toList)
    .nil (word_of (by decide +kernel)) (by decide +kernel) (by decide +kernel) ?_)
  refine castSchema (by decide +kernel) (.word (s := [' ']) (w := "a".toList) (t := " { import 'b' { prefix c; revision-date 2020-01-01; } include d; description \"import e;\"; }".toList)
    blank (word_of (by decide +kernel)) (by decide +kernel) (by decide +kernel) ?_)
  refine castSchema (by decide +kernel) (.sign (s := [' ']) (c := '{') (t := " import 'b' { prefix c; revision-date 2020-01-01; } include d; description \"import e;\"; }".toList) blank (by simp) ?_)
  refine castSchema (by decide +kernel) (.import (s := [' ']) (t := "import 'b' { prefix c; revision-date 2020-01-01; }".toList) (r := " include d; description \"import e;\"; }".toList) blank ?_ ?_)
  · refine ⟨[' '], "'b'".toList, [' '], " prefix c; revision-date 2020-01-01; ".toList, blank_gap, .strings (.one (.single (v := ['b']) (by decide))), blank, ?_, by decide +kernel⟩
    refine castImport (by decide +kernel) (.pre (s := [' ']) (t := "prefix c;".toList) (b := " revision-date 2020-01-01; ".toList) blank
      ⟨[' '], ['c'], [], blank_gap, .name (name_of (word_of (by decide +kernel))), .nil, by decide +kernel⟩ ?_)
    exact castImport (by decide +kernel) (.revision (s := [' ']) (t := "revision-date 2020-01-01;".toList) (b := [' ']) blank
      ⟨[' '], "2020-01-01".toList, [], blank_gap, .name ⟨⟨'2', rfl, .inr (.inr (by decide +kernel))⟩, by decide +kernel⟩, .nil, by decide +kernel⟩ (.nil blank))
  · refine castSchema (by decide +kernel) (.include (s := [' ']) (t := "include d;".toList) (r := " description \"import e;\"; }".toList) blank
      (.inl ⟨rfl, [' '], ['d'], [], blank_gap, .name (name_of (word_of (by decide +kernel))), .nil, by decide +kernel⟩) ?_)
    exact castSchema (by decide +kernel) (.description (s := [' ']) (w := "description".toList) (g := [' ']) (rest := "\"import e;\"; }".toList) blank (by decide) blank_gap)

/-- C145: the prefix of a module that is `import` makes reading fail, and one that is `reference` hides its imports -/
theorem c145_keyword_disproved (k : Classes) (n : Nat) :
    dependencies k (n + 10) "module a { prefix import; }".toList = some (.error .failed) ∧
      dependencies k (n + 10) "module a { prefix reference; import b { prefix c; } }".toList = some (.ok ([], [])) :=
  ⟨rfl, rfl⟩

/-! ## C146: metadata is read as it is written -/

/-- C146: for schemas as in `Described` the metadata is read. What is missing, besides what is for C145, are submodules with imports -/
theorem c146_metadata_partial (k : Classes) {m : Metadata} {text : List Char} (h : Described false m text) (hn : m.name ≠ none) :
    ∃ rounds, ∀ n, rounds ≤ n → metadata k n text = some (.ok m) := by
  refine ⟨text.length + 1, fun n hle => ?_⟩
  unfold metadata
  rw [described_read k h (m₀ := ⟨none, none, none, none, none⟩) rfl (by omega)]
  have : Metadata.with ⟨none, none, none, none, none⟩ m = m := by
    obtain ⟨a, b, c, d, e⟩ := m
    simp [Metadata.with]
  rw [this]
  exact if_neg hn

/-- a module with a namespace, a prefix, an import, two revisions and a list -/
example : Described false ⟨some "a".toList, some "u".toList, some "p".toList, some "2020-01-01".toList, none⟩
    "module a { namespace \"u\"; prefix p; import b { prefix c; } revision 2020-01-01; revision 2019-01-01; list prefix; }".toList := by
  refine castDescribed (by decide +kernel) (.start (m := ⟨none, some "u".toList, some "p".toList, some "2020-01-01".toList, none⟩) (s := []) (w := "module".toList) (g := [' ']) (a := ['a']) (s₂ := [' '])
    (t := " namespace \"u\"; prefix p; import b { prefix c; } revision 2020-01-01; revision 2019-01-01; list prefix; }".toList)
    .nil (by simp) blank_gap (.name (name_of (word_of (by decide +kernel)))) blank rfl ?_)
  refine castDescribed (by decide +kernel) (.uri (m := ⟨none, none, some "p".toList, some "2020-01-01".toList, none⟩) (s := [' ']) (x := "namespace \"u\";".toList)
    (t := " prefix p; import b { prefix c; } revision 2020-01-01; revision 2019-01-01; list prefix; }".toList)
    blank ⟨[' '], "\"u\"".toList, [], blank_gap, .strings (.one (.double (t := ['u']) (.plain (by decide) (by decide) .nil))), .nil, by decide +kernel⟩ rfl ?_)
  refine castDescribed (by decide +kernel) (.pre (m := ⟨none, none, none, some "2020-01-01".toList, none⟩) (s := [' ']) (x := "prefix p;".toList)
    (t := " import b { prefix c; } revision 2020-01-01; revision 2019-01-01; list prefix; }".toList)
    blank ⟨[' '], ['p'], [], blank_gap, .name (name_of (word_of (by decide +kernel))), .nil, by decide +kernel⟩ rfl ?_)
  refine castDescribed (by decide +kernel) (.word (s := [' ']) (w := "import".toList) (t := " b { prefix c; } revision 2020-01-01; revision 2019-01-01; list prefix; }".toList)
    blank (word_of (by decide +kernel)) (by decide +kernel) (by decide +kernel) ?_)
  refine castDescribed (by decide +kernel) (.word (s := [' ']) (w := "b".toList) (t := " { prefix c; } revision 2020-01-01; revision 2019-01-01; list prefix; }".toList)
    blank (word_of (by decide +kernel)) (by decide +kernel) (by decide +kernel) ?_)
  refine castDescribed (by decide +kernel) (.sign (s := [' ']) (c := '{') (t := " prefix c; } revision 2020-01-01; revision 2019-01-01; list prefix; }".toList) blank (by simp) ?_)
  refine castDescribed (by decide +kernel) (.imported (s := [' ']) (g := [' ']) (a := ['c']) (t := " } revision 2020-01-01; revision 2019-01-01; list prefix; }".toList) blank blank_gap
    (.char (by decide) (by decide) (by decide) .nil) ?_)
  refine castDescribed (by decide +kernel) (.sign (s := [' ']) (c := '}') (t := " revision 2020-01-01; revision 2019-01-01; list prefix; }".toList) blank (by simp) ?_)
  refine castDescribed (by decide +kernel) (.revision (m := ⟨none, none, none, some "2019-01-01".toList, none⟩) (s := [' ']) (x := "revision 2020-01-01;".toList) (t := " revision 2019-01-01; list prefix; }".toList)
    blank (.inl ⟨[' '], "2020-01-01".toList, [], blank_gap, .name ⟨⟨'2', rfl, .inr (.inr (by decide +kernel))⟩, by decide +kernel⟩, .nil, by decide +kernel⟩) ?_)
  refine castDescribed (by decide +kernel) (.revision (m := ⟨none, none, none, none, none⟩) (s := [' ']) (x := "revision 2019-01-01;".toList) (t := " list prefix; }".toList)
    blank (.inl ⟨[' '], "2019-01-01".toList, [], blank_gap, .name ⟨⟨'2', rfl, .inr (.inr (by decide +kernel))⟩, by decide +kernel⟩, .nil, by decide +kernel⟩) ?_)
  exact castDescribed (by decide +kernel) (.data (s := [' ']) (w := "list".toList) (g := [' ']) (rest := "prefix; }".toList) blank (by decide) blank_gap)

/-- C146: for a submodule the prefix of its first import is taken for its own -/
theorem c146_submodule_disproved (k : Classes) (n : Nat) :
    metadata k (n + 20) "submodule a { belongs-to b { prefix c; } import d { prefix e; } }".toList =
      some (.ok ⟨some "a".toList, none, some "e".toList, none, some "b".toList⟩) :=
  rfl

end Verif.Props
