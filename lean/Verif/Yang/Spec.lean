import Verif.Yang.Parser
/-!
# How imports and includes are written in YANG modules

After RFC 7950, sections 6.1, 6.3 and 7.1.5 to 7.1.6. Nothing of the model is used but what a schema is read to.
-/
namespace Verif.Yang

/-- white space -/
def Space (c : Char) : Prop := c = ' ' ∨ c = '\t' ∨ c = '\n' ∨ c = '\r'

def Letter (c : Char) : Prop := ('a' ≤ c ∧ c ≤ 'z') ∨ ('A' ≤ c ∧ c ≤ 'Z')

def Digit (c : Char) : Prop := '0' ≤ c ∧ c ≤ '9'

/-- a character of identifiers, with or without prefix, and dates -/
def WordChar (c : Char) : Prop := Letter c ∨ Digit c ∨ c = '_' ∨ c = '-' ∨ c = '.' ∨ c = ':'

/-- an identifier with or without prefix -/
def Word (w : List Char) : Prop := (∃ c, w.head? = some c ∧ (Letter c ∨ c = '_')) ∧ ∀ c ∈ w, WordChar c

/-- an identifier or a date -/
def Name (w : List Char) : Prop := (∃ c, w.head? = some c ∧ (Letter c ∨ c = '_' ∨ Digit c)) ∧ ∀ c ∈ w, WordChar c

/-- the rest of a comment, up to its end -/
inductive Comment : List Char → Prop where
  | last : Comment ['*', '/']
  | cons {c : Char} {t : List Char} : ¬(c = '*' ∧ t.head? = some '/') → Comment t → Comment (c :: t)

/-- white space and comments -/
inductive Sep : List Char → Prop where
  | nil : Sep []
  | space {c : Char} {t : List Char} : Space c → Sep t → Sep (c :: t)
  | line {b t : List Char} : '\n' ∉ b → Sep t → Sep ('/' :: '/' :: (b ++ '\n' :: t))
  | block {b t : List Char} : Comment b → Sep t → Sep ('/' :: '*' :: (b ++ t))

/-- what parts a keyword from its argument: white space and, after it, comments -/
def Gap (s : List Char) : Prop := ∃ c t, s = c :: t ∧ Space c ∧ Sep t

/-- what is in double quotes, and what it stands for -/
inductive Double : List Char → List Char → Prop where
  | nil : Double [] []
  | plain {c : Char} {v t : List Char} : c ≠ '"' → c ≠ '\\' → Double v t → Double (c :: v) (c :: t)
  | newline {v t : List Char} : Double v t → Double ('\n' :: v) ('\\' :: 'n' :: t)
  | tab {v t : List Char} : Double v t → Double ('\t' :: v) ('\\' :: 't' :: t)
  | quote {v t : List Char} : Double v t → Double ('"' :: v) ('\\' :: '"' :: t)
  | backslash {v t : List Char} : Double v t → Double ('\\' :: v) ('\\' :: '\\' :: t)

/-- a string in quotes, and what it stands for -/
inductive Quoted : List Char → List Char → Prop where
  | double {v t : List Char} : Double v t → Quoted v ('"' :: (t ++ ['"']))
  | single {v : List Char} : '\'' ∉ v → Quoted v ('\'' :: (v ++ ['\'']))

/-- strings in quotes, and what they stand for together -/
inductive Strings : List Char → List Char → Prop where
  | one {v t : List Char} : Quoted v t → Strings v t
  | more {v t s₁ s₂ v' t' : List Char} : Quoted v t → Sep s₁ → Sep s₂ → Strings v' t' → Strings (v ++ v') (t ++ s₁ ++ '+' :: s₂ ++ t')

/-- an argument, and what it stands for -/
inductive Arg : List Char → List Char → Prop where
  | name {w : List Char} : Name w → Arg w w
  | strings {v t : List Char} : Strings v t → Arg v t

/-- a statement with an argument and nothing in braces: its argument, and how it is written -/
def Simple (keyword : List Char) (v t : List Char) : Prop :=
  ∃ s₁ a s₂, Gap s₁ ∧ Arg v a ∧ Sep s₂ ∧ t = keyword ++ s₁ ++ a ++ s₂ ++ [';']

/-- strings whose last character is not a backslash, in quotes -/
def Harmless (t : List Char) : Prop := ∃ v, Quoted v t ∧ t.dropLast.getLast? ≠ some '\\'

/-- what may be between a keyword and the semicolon or brace of a statement, or, if so, what may be in its braces -/
inductive Inside : Bool → List Char → Prop where
  | nil {b : Bool} : Inside b []
  | sep {b : Bool} {s t : List Char} : Sep s → Inside b t → Inside b (s ++ t)
  | char {b : Bool} {c : Char} {t : List Char} : 33 ≤ c.toNat → c.toNat < 127 → c ∉ ['"', '\'', '{', '}', ';', '/'] → Inside b t → Inside b (c :: t)
  | slash {b : Bool} {c : Char} {t : List Char} : WordChar c → Inside b (c :: t) → Inside b ('/' :: c :: t)
  | string {b : Bool} {q t : List Char} : Harmless q → Inside b t → Inside b (q ++ t)
  | semicolon {t : List Char} : Inside true t → Inside true (';' :: t)
  | braces {s t : List Char} : Inside true s → Inside true t → Inside true ('{' :: (s ++ '}' :: t))

/-- any other statement -/
def Other (keywords : List (List Char)) (t : List Char) : Prop :=
  ∃ w a e, Word w ∧ w ∉ keywords ∧ Inside false a ∧ (∀ c ∈ a.head?, ¬WordChar c) ∧ t = w ++ a ++ e ∧ (e = [';'] ∨ ∃ s, Inside true s ∧ e = '{' :: (s ++ ['}']))

/-- what is in the braces of an import, with the prefix and the revision it gives, each at most once -/
inductive ImportBody : Option (List Char) → Option (List Char) → List Char → Prop where
  | nil {s : List Char} : Sep s → ImportBody none none s
  | pre {r : Option (List Char)} {s v t b : List Char} : Sep s → Simple "prefix".toList v t → ImportBody none r b → ImportBody (some v) r (s ++ t ++ b)
  | revision {p : Option (List Char)} {s v t b : List Char} : Sep s → Simple "revision-date".toList v t → ImportBody p none b → ImportBody p (some v) (s ++ t ++ b)
  | other {p r : Option (List Char)} {s t b : List Char} :
    Sep s → Other ["prefix".toList, "revision-date".toList] t → ImportBody p r b → ImportBody p r (s ++ t ++ b)

/-- an import -/
def ImportText (i : Import) (t : List Char) : Prop :=
  ∃ s₁ a s₂ b, Gap s₁ ∧ Arg i.name a ∧ Sep s₂ ∧ ImportBody (some i.pre) i.revision b ∧ t = "import".toList ++ s₁ ++ a ++ s₂ ++ '{' :: (b ++ ['}'])

/-- what is in the braces of an include, with the revision it gives -/
inductive IncludeBody : Option (List Char) → List Char → Prop where
  | nil {s : List Char} : Sep s → IncludeBody none s
  | revision {s v t b : List Char} : Sep s → Simple "revision-date".toList v t → IncludeBody none b → IncludeBody (some v) (s ++ t ++ b)
  | other {r : Option (List Char)} {s t b : List Char} : Sep s → Other ["revision-date".toList] t → IncludeBody r b → IncludeBody r (s ++ t ++ b)

/-- an include, with or without braces -/
def IncludeText (i : Include) (t : List Char) : Prop :=
  (i.revision = none ∧ Simple "include".toList i.name t) ∨
    ∃ s₁ a s₂ b, Gap s₁ ∧ Arg i.name a ∧ Sep s₂ ∧ IncludeBody i.revision b ∧ t = "include".toList ++ s₁ ++ a ++ s₂ ++ '{' :: (b ++ ['}'])

/-- the keywords of descriptions -/
def descriptions : List (List Char) := ["organization".toList, "contact".toList, "description".toList, "reference".toList]

/-- a character of arguments that are not in quotes -/
def BareChar (c : Char) : Prop := 33 ≤ c.toNat ∧ c.toNat < 127 ∧ c ∉ ['"', '\'', ';', '{', '}']

/-- an argument that is not in quotes, such as a number, a date, a path or a range, in which there is none of the keywords -/
def Bare (keywords : List (List Char)) (w : List Char) : Prop :=
  (∀ c ∈ w, BareChar c) ∧ (∀ k ∈ ['/', '/'] :: ['/', '*'] :: keywords, ¬k <:+: w) ∧ w.getLast? ≠ some '/'

/-- the keywords that are looked for in schemas -/
def looked : List (List Char) := "import".toList :: "include".toList :: descriptions

/-- a schema, with its imports and includes: besides these words, arguments, strings, semicolons and braces up to its end or its first description, after which there is anything -/
inductive Schema : List Import → List Include → List Char → Prop where
  | done {s : List Char} : Sep s → Schema [] [] s
  | description {s w g rest : List Char} : Sep s → w ∈ descriptions → Gap g → Schema [] [] (s ++ w ++ g ++ rest)
  | word {is : List Import} {us : List Include} {s w t : List Char} :
    Sep s → Word w → w ∉ looked → (∀ c ∈ t.head?, c.toNat < 127 ∧ ¬WordChar c) → Schema is us t → Schema is us (s ++ w ++ t)
  | string {is : List Import} {us : List Include} {s v q t : List Char} : Sep s → Quoted v q → Schema is us t → Schema is us (s ++ q ++ t)
  | bare {is : List Import} {us : List Include} {s w t : List Char} :
    Sep s → Bare looked w → (∀ c ∈ t.head?, c.toNat < 127 ∧ (BareChar c → c = '/')) → Schema is us t → Schema is us (s ++ w ++ t)
  | sign {is : List Import} {us : List Include} {s t : List Char} {c : Char} : Sep s → c ∈ [';', '{', '}'] → Schema is us t → Schema is us (s ++ c :: t)
  | import {is : List Import} {us : List Include} {s t r : List Char} {i : Import} :
    Sep s → ImportText i t → Schema is us r → Schema (i :: is) us (s ++ t ++ r)
  | include {is : List Import} {us : List Include} {s t r : List Char} {u : Include} :
    Sep s → IncludeText u t → Schema is us r → Schema is (u :: us) (s ++ t ++ r)

/-! ## Metadata -/

/-- the keywords of metadata -/
def metaWords : List (List Char) :=
  ["module".toList, "submodule".toList, "belongs-to".toList, "namespace".toList, "prefix".toList, "yang-version".toList, "revision".toList]

/-- the keywords of data definitions -/
def dataWords : List (List Char) :=
  ["container".toList, "list".toList, "leaf".toList, "grouping".toList, "typedef".toList, "identity".toList, "augment".toList, "rpc".toList, "notification".toList]

/-- a statement with an argument and something in braces -/
def Braced (keyword : List Char) (v t : List Char) : Prop :=
  ∃ s₁ a s₂ b, Gap s₁ ∧ Arg v a ∧ Sep s₂ ∧ Inside true b ∧ t = keyword ++ s₁ ++ a ++ s₂ ++ '{' :: (b ++ ['}'])

/-- a schema with its metadata, of which what comes later is `m`: other statements are words, arguments, strings, semicolons and braces, up to the end or the first
data definition, after which there is anything; prefixes that come after that of the module are those of imports, and before it there are none -/
inductive Described : Bool → Metadata → List Char → Prop where
  | done {b : Bool} {s : List Char} : Sep s → Described b ⟨none, none, none, none, none⟩ s
  | data {b : Bool} {s w g rest : List Char} : Sep s → w ∈ dataWords → Gap g → Described b ⟨none, none, none, none, none⟩ (s ++ w ++ g ++ rest)
  | word {b : Bool} {m : Metadata} {s w t : List Char} :
    Sep s → Word w → w ∉ metaWords ++ dataWords → (∀ c ∈ t.head?, c.toNat < 127 ∧ ¬WordChar c) → Described b m t → Described b m (s ++ w ++ t)
  | string {b : Bool} {m : Metadata} {s v q t : List Char} : Sep s → Quoted v q → Described b m t → Described b m (s ++ q ++ t)
  | bare {b : Bool} {m : Metadata} {s w t : List Char} :
    Sep s → Bare (metaWords ++ dataWords) w → (∀ c ∈ t.head?, c.toNat < 127 ∧ (BareChar c → c = '/')) → Described b m t → Described b m (s ++ w ++ t)
  | sign {b : Bool} {m : Metadata} {s t : List Char} {c : Char} : Sep s → c ∈ [';', '{', '}'] → Described b m t → Described b m (s ++ c :: t)
  | start {b : Bool} {m : Metadata} {s w v g a s₂ t : List Char} :
    Sep s → w ∈ ["module".toList, "submodule".toList] → Gap g → Arg v a → Sep s₂ → m.name = none → Described b m t →
      Described b { m with name := some v } (s ++ w ++ g ++ a ++ s₂ ++ '{' :: t)
  | uri {b : Bool} {m : Metadata} {s v x t : List Char} :
    Sep s → Simple "namespace".toList v x → m.uri = none → Described b m t → Described b { m with uri := some v } (s ++ x ++ t)
  | parent {b : Bool} {m : Metadata} {s v x t : List Char} :
    Sep s → Braced "belongs-to".toList v x → m.parent = none → Described b m t → Described b { m with parent := some v } (s ++ x ++ t)
  | version {b : Bool} {m : Metadata} {s v x t : List Char} : Sep s → Simple "yang-version".toList v x → Described b m t → Described b m (s ++ x ++ t)
  | revision {b : Bool} {m : Metadata} {s v x t : List Char} :
    Sep s → Simple "revision".toList v x ∨ Braced "revision".toList v x → Described b m t → Described b { m with revision := some v } (s ++ x ++ t)
  | pre {m : Metadata} {s v x t : List Char} :
    Sep s → Simple "prefix".toList v x → m.pre = none → Described true m t → Described false { m with pre := some v } (s ++ x ++ t)
  | imported {m : Metadata} {s g a t : List Char} :
    Sep s → Gap g → Inside false a → Described true m t → Described true m (s ++ "prefix".toList ++ g ++ a ++ ';' :: t)

end Verif.Yang
