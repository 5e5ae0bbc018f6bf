/-!
# Reading of imports, includes and metadata from YANG schemas

`P` stands for `crates/netconf-proto/src/yangparser.rs`.

A position of the text is the list of characters after it. What the characters of Unicode from 256 on are is a parameter. Messages of errors are left out.
-/
namespace Verif.Yang

/-- what `char::is_alphabetic`, `char::is_numeric` and `char::is_whitespace` say of characters from 256 on -/
structure Classes where
  alphabetic : Char → Bool
  numeric : Char → Bool
  whitespace : Char → Bool

/-- `char::is_alphabetic`, with what Unicode says of characters below 256 -/
def Classes.isAlphabetic (k : Classes) (c : Char) : Bool :=
  if c.toNat < 256 then
    (65 ≤ c.toNat && c.toNat ≤ 90) || (97 ≤ c.toNat && c.toNat ≤ 122) || c.toNat == 0xaa || c.toNat == 0xb5 || c.toNat == 0xba ||
      (0xc0 ≤ c.toNat && c.toNat != 0xd7 && c.toNat != 0xf7)
  else k.alphabetic c

/-- `char::is_numeric` -/
def Classes.isNumeric (k : Classes) (c : Char) : Bool :=
  if c.toNat < 256 then
    (48 ≤ c.toNat && c.toNat ≤ 57) || c.toNat == 0xb2 || c.toNat == 0xb3 || c.toNat == 0xb9 || (0xbc ≤ c.toNat && c.toNat ≤ 0xbe)
  else k.numeric c

/-- `char::is_whitespace` -/
def Classes.isWhitespace (k : Classes) (c : Char) : Bool :=
  if c.toNat < 256 then (9 ≤ c.toNat && c.toNat ≤ 13) || c.toNat == 32 || c.toNat == 0x85 || c.toNat == 0xa0 else k.whitespace c

/-- `char::is_alphanumeric` -/
def Classes.isAlphanumeric (k : Classes) (c : Char) : Bool := k.isAlphabetic c || k.isNumeric c

/-- an `Err`, or a panic -/
inductive Stop where
  | failed
  | panicked
  deriving DecidableEq, Repr

deriving instance DecidableEq for Except

/-- `peek_chars(2)`, `P:643-657`, panics with one character of several bytes left, as the end is then past that of the text -/
def lastWide : List Char → Bool
  | [c] => 128 ≤ c.toNat
  | _ => false

/-- `skip_whitespace_and_comments` in a block comment, `P:355-362`, in a line comment, `P:351-354`, or in neither -/
inductive Mode where
  | code
  | line
  | block
  deriving DecidableEq

/-- `skip_whitespace_and_comments`, `P:342-368`: what is left, or a panic -/
def skipSep (k : Classes) : Mode → List Char → Except Stop (List Char)
  | _, [] => .ok []
  | .code, '/' :: '/' :: cs => skipSep k .line cs
  | .code, '/' :: '*' :: cs => skipSep k .block cs
  | .code, c :: cs => if k.isWhitespace c then skipSep k .code cs else if lastWide (c :: cs) then .error .panicked else .ok (c :: cs)
  | .line, c :: cs => if c = '\n' then skipSep k .code cs else skipSep k .line cs
  | .block, '*' :: '/' :: cs => skipSep k .code cs
  | .block, c :: cs => if lastWide (c :: cs) then .error .panicked else skipSep k .block cs

/-- whether a byte is taken for one of an identifier, `P:434-435`: as the character with its number -/
def Classes.identByte (k : Classes) (b : UInt8) : Bool :=
  k.isAlphanumeric (Char.ofNat b.toNat) || b == 95 || b == 45 || b == 46

/-- the loop of `peek_identifier`, `P:432-440`, and the slice of `P:442`, that panics within a character -/
def peekTail (k : Classes) : List Char → Except Stop (List Char)
  | [] => .ok []
  | c :: cs =>
    match String.utf8EncodeChar c with
    | [] => .ok []
    | b :: bs => if k.identByte b then if bs.all k.identByte then (peekTail k cs).map (c :: ·) else .error .panicked else .ok []

/-- `peek_identifier`, `P:418-443` -/
def peekIdentifier (k : Classes) : List Char → Except Stop (Option (List Char))
  | [] => .ok none
  | c :: cs =>
    match String.utf8EncodeChar c with
    | [] => .ok none
    | b :: bs =>
      if k.isAlphabetic (Char.ofNat b.toNat) || b == 95 then
        if bs.all k.identByte then (peekTail k cs).map fun w => some (c :: w) else .error .panicked
      else .ok none

/-- what is to follow a keyword, `P:378-384` -/
def endsKeyword (k : Classes) : List Char → Bool
  | [] => true
  | c :: _ => k.isWhitespace c || c = '{' || c = ';' || c = '"' || c = '\''

/-- `match_keyword`, `P:370-389`: what is left after the keyword -/
def matchKeyword (k : Classes) (keyword : List Char) (cs : List Char) : Except Stop (Option (List Char)) :=
  (peekIdentifier k cs).map fun w =>
    if w = some keyword ∧ endsKeyword k (cs.drop keyword.length) then some (cs.drop keyword.length) else none

/-- whether a character goes on an identifier, `P:408` -/
def Classes.goesOn (k : Classes) (c : Char) : Bool := k.isAlphanumeric c || c = '_' || c = '-' || c = '.' || c = ':'

/-- `read_identifier`, `P:391-416` -/
def readIdentifier (k : Classes) : List Char → Option (List Char × List Char)
  | [] => none
  | c :: cs =>
    if k.isAlphabetic c || c = '_' || k.isNumeric c then some (c :: cs.takeWhile k.goesOn, cs.dropWhile k.goesOn) else none

/-- what an escaped character stands for, `P:494-500` -/
def unescape : Char → Char
  | 'n' => '\n'
  | 't' => '\t'
  | c => c

/-- the loop of `read_double_quoted_string`, `P:488-511`, after the quote: what is left is returned with the string, or alone if there is no other quote -/
def readDouble : List Char → Option (List Char) × List Char
  | [] => (none, [])
  | '"' :: cs => (some [], cs)
  | '\\' :: [] => (none, [])
  | '\\' :: c :: cs => let r := readDouble cs; (r.1.map (unescape c :: ·), r.2)
  | c :: cs => let r := readDouble cs; (r.1.map (c :: ·), r.2)

/-- the loop of `read_single_quoted_string`, `P:521-532` -/
def readSingle : List Char → Option (List Char) × List Char
  | [] => (none, [])
  | '\'' :: cs => (some [], cs)
  | c :: cs => let r := readSingle cs; (r.1.map (c :: ·), r.2)

/-- the loop of `read_string_or_identifier`, `P:454-477`; a round takes at least two characters, so that as many rounds as characters and one more are enough -/
def readParts (k : Classes) : Nat → List Char → List Char → Except Stop (List Char × List Char)
  | 0, result, cs => .ok (result, cs)
  | n + 1, result, cs =>
    (skipSep k .code cs).bind fun
      | '+' :: cs =>
        (skipSep k .code cs).bind fun
          | '"' :: cs => let r := readDouble cs; readParts k n (result ++ r.1.getD []) r.2
          | '\'' :: cs => let r := readSingle cs; readParts k n (result ++ r.1.getD []) r.2
          | cs => .ok (result, cs)
      | cs => .ok (result, cs)

/-- `read_string_or_identifier`, `P:445-478` -/
def readArg (k : Classes) (cs : List Char) : Except Stop (Option (List Char) × List Char) :=
  (skipSep k .code cs).bind fun
    | '"' :: cs =>
      match readDouble cs with
      | (some v, cs) => (readParts k (cs.length + 1) v cs).map fun r => (some r.1, r.2)
      | (none, cs) => .ok (none, cs)
    | '\'' :: cs =>
      match readSingle cs with
      | (some v, cs) => (readParts k (cs.length + 1) v cs).map fun r => (some r.1, r.2)
      | (none, cs) => .ok (none, cs)
    | cs =>
      match readIdentifier k cs with
      | some (v, cs) => .ok (some v, cs)
      | none => .ok (none, cs)

/-- `skip_one_token`, `P:535-564` -/
def skipToken (k : Classes) : List Char → List Char
  | [] => []
  | '"' :: cs => (readDouble cs).2
  | '\'' :: cs => (readSingle cs).2
  | c :: cs => if k.isAlphabetic c || c = '_' then cs.dropWhile k.goesOn else cs

/-- the loop of `skip_statement`, `P:566-621`, with the quote that the string it is in begins with and the character before; a round takes at least one character -/
def skipLoop (k : Classes) : Nat → Nat → Option (Char × Char) → List Char → Except Stop (List Char)
  | 0, _, _, cs => .ok cs
  | _ + 1, _, _, [] => .ok []
  | n + 1, depth, some (quote, before), c :: cs =>
    if c = quote ∧ before ≠ '\\' then skipLoop k n depth none cs else skipLoop k n depth (some (quote, c)) cs
  | n + 1, depth, none, cs =>
    (skipSep k .code cs).bind fun
      | [] => .ok []
      | '"' :: cs => skipLoop k n depth (some ('"', '"')) cs
      | '\'' :: cs => skipLoop k n depth (some ('\'', '\'')) cs
      | '{' :: cs => skipLoop k n (depth + 1) none cs
      | '}' :: cs =>
        match depth with
        | 0 => .ok ('}' :: cs)
        | 1 => .ok cs
        | depth + 2 => skipLoop k n (depth + 1) none cs
      | ';' :: cs => if depth = 0 then .ok cs else skipLoop k n depth none cs
      | _ :: cs => skipLoop k n depth none cs

/-- `skip_statement` -/
def skipStatement (k : Classes) (cs : List Char) : Except Stop (List Char) := skipLoop k (cs.length + 1) 0 none cs

/-- `expect_char`, `P:623-637` -/
def expectChar (k : Classes) (e : Char) (cs : List Char) : Except Stop (List Char) :=
  (skipSep k .code cs).bind fun
    | [] => .error .failed
    | c :: cs => if c = e then .ok cs else .error .failed

/-- a value that is to be there, `P:242-246` and others -/
def needArg (k : Classes) (cs : List Char) : Except Stop (List Char × List Char) :=
  (skipSep k .code cs).bind fun cs => (readArg k cs).bind fun
    | (some v, cs) => .ok (v, cs)
    | (none, _) => .error .failed

/-- a value and what ends it, `P:263-269`, `P:271-277` and others -/
def readValue (k : Classes) (e : Char) (cs : List Char) : Except Stop (List Char × List Char) :=
  (needArg k cs).bind fun r => (skipSep k .code r.2).bind fun cs => (expectChar k e cs).map fun cs => (r.1, cs)

/-- `YangImport`, `P:18-23` -/
structure Import where
  name : List Char
  pre : List Char
  revision : Option (List Char)
  deriving DecidableEq, Repr

/-- `YangInclude`, `P:25-29` -/
structure Include where
  name : List Char
  revision : Option (List Char)
  deriving DecidableEq, Repr

/-- the outcome of a loop that may not end -/
abbrev Loop (α : Type) := Option (Except Stop α)

/-- to go on after a step that ends -/
def Loop.after {α β : Type} (x : Except Stop α) (f : α → Loop β) : Loop β :=
  match x with
  | .error e => some (.error e)
  | .ok a => f a

/-- the loop of `parse_import`, `P:254-281`, of at most so many rounds: the prefix, the revision and what is left -/
def importBody (k : Classes) : Nat → Option (List Char) → Option (List Char) → List Char → Loop (Option (List Char) × Option (List Char) × List Char)
  | 0, _, _, _ => none
  | n + 1, pre, rev, cs =>
    Loop.after (skipSep k .code cs) fun cs =>
      if cs.head? = some '}' then some (.ok (pre, rev, cs.tail))
      else
        Loop.after (matchKeyword k "prefix".toList cs) fun
          | some cs => Loop.after (readValue k ';' cs) fun r => importBody k n (some r.1) rev r.2
          | none =>
            Loop.after (matchKeyword k "revision-date".toList cs) fun
              | some cs => Loop.after (readValue k ';' cs) fun r => importBody k n pre (some r.1) r.2
              | none => Loop.after (skipStatement k cs) fun cs => importBody k n pre rev cs

/-- `parse_import`, `P:240-291` -/
def parseImport (k : Classes) (n : Nat) (cs : List Char) : Loop (Import × List Char) :=
  Loop.after (readValue k '{' cs) fun r =>
    match importBody k n none none r.2 with
    | none => none
    | some (.error e) => some (.error e)
    | some (.ok (none, _, _)) => some (.error .failed)
    | some (.ok (some p, rev, cs)) => some (.ok (⟨r.1, p, rev⟩, cs))

/-- the loop of `parse_include`, `P:312-331` -/
def includeBody (k : Classes) : Nat → Option (List Char) → List Char → Loop (Option (List Char) × List Char)
  | 0, _, _ => none
  | n + 1, rev, cs =>
    Loop.after (skipSep k .code cs) fun cs =>
      if cs.head? = some '}' then some (.ok (rev, cs.tail))
      else
        Loop.after (matchKeyword k "revision-date".toList cs) fun
          | some cs => Loop.after (readValue k ';' cs) fun r => includeBody k n (some r.1) r.2
          | none => Loop.after (skipStatement k cs) fun cs => includeBody k n rev cs

/-- `parse_include`, `P:293-340` -/
def parseInclude (k : Classes) (n : Nat) (cs : List Char) : Loop (Include × List Char) :=
  Loop.after ((needArg k cs).bind fun r => (skipSep k .code r.2).map fun cs => (r.1, cs)) fun r =>
    match r.2 with
    | ';' :: cs => some (.ok (⟨r.1, none⟩, cs))
    | '{' :: cs =>
      match includeBody k n none cs with
      | none => none
      | some (.error e) => some (.error e)
      | some (.ok (rev, cs)) => some (.ok (⟨r.1, rev⟩, cs))
    | _ => some (.error .failed)

/-- the keywords after which there are no imports or includes, `P:223-226` -/
def metaKeywords : List (List Char) := ["organization".toList, "contact".toList, "description".toList, "reference".toList]

/-- whether one of the keywords is there -/
def matchAny (k : Classes) : List (List Char) → List Char → Except Stop Bool
  | [], _ => .ok false
  | w :: ws, cs => (matchKeyword k w cs).bind fun r => if r.isSome then .ok true else matchAny k ws cs

/-- `parse`, `P:207-238`, of at most so many rounds -/
def parseLoop (k : Classes) : Nat → List Import → List Include → List Char → Loop (List Import × List Include)
  | 0, _, _, _ => none
  | n + 1, imports, includes, cs =>
    Loop.after (skipSep k .code cs) fun cs =>
      if cs = [] then some (.ok (imports, includes))
      else
        Loop.after (matchKeyword k "import".toList cs) fun
          | some cs =>
            match parseImport k n cs with
            | none => none
            | some (.error e) => some (.error e)
            | some (.ok (i, cs)) => parseLoop k n (imports ++ [i]) includes cs
          | none =>
            Loop.after (matchKeyword k "include".toList cs) fun
              | some cs =>
                match parseInclude k n cs with
                | none => none
                | some (.error e) => some (.error e)
                | some (.ok (i, cs)) => parseLoop k n imports (includes ++ [i]) cs
              | none =>
                Loop.after (matchAny k metaKeywords cs) fun b =>
                  if b then some (.ok (imports, includes)) else parseLoop k n imports includes (skipToken k cs)

/-- `extract_yang_dependencies`, `P:69-72` -/
def dependencies (k : Classes) (n : Nat) (text : List Char) : Loop (List Import × List Include) := parseLoop k n [] [] text

/-- `YangModuleMetadata`, `P:37-44`, before the name is looked for -/
structure Metadata where
  name : Option (List Char)
  uri : Option (List Char)
  pre : Option (List Char)
  revision : Option (List Char)
  parent : Option (List Char)
  deriving DecidableEq, Repr

/-- the keywords after which there is no metadata, `P:173-181` -/
def dataKeywords : List (List Char) :=
  ["container".toList, "list".toList, "leaf".toList, "grouping".toList, "typedef".toList, "identity".toList, "augment".toList, "rpc".toList, "notification".toList]

/-- the keywords of metadata, in the order in which they are looked for -/
inductive Keyword where
  | mod
  | sub
  | belongsTo
  | uri
  | pre
  | yangVersion
  | revision
  deriving DecidableEq, Repr

/-- the keyword that is there, `P:109-166`, and what is left after it -/
def matchFirst (k : Classes) : List (List Char × Keyword) → List Char → Except Stop (Option (Keyword × List Char))
  | [], _ => .ok none
  | w :: ws, cs => (matchKeyword k w.1 cs).bind fun
    | some cs => .ok (some (w.2, cs))
    | none => matchFirst k ws cs

def keywords : List (List Char × Keyword) :=
  [("module".toList, .mod), ("submodule".toList, .sub), ("belongs-to".toList, .belongsTo), ("namespace".toList, .uri), ("prefix".toList, .pre),
    ("yang-version".toList, .yangVersion), ("revision".toList, .revision)]

/-- what is done after a keyword, `P:110-172` -/
def metaStep (k : Classes) (m : Metadata) (cs : List Char) : Keyword → Except Stop (Metadata × List Char)
  | .mod | .sub => (readValue k '{' cs).map fun r => ({ m with name := some r.1 }, r.2)
  | .belongsTo => (needArg k cs).bind fun r => (skipStatement k r.2).map fun cs => ({ m with parent := some r.1 }, cs)
  | .uri => (readValue k ';' cs).map fun r => ({ m with uri := some r.1 }, r.2)
  | .pre =>
    if m.pre = none then (readValue k ';' cs).map fun r => ({ m with pre := some r.1 }, r.2)
    else (skipStatement k cs).map fun cs => (m, cs)
  | .yangVersion =>
    (skipSep k .code cs).bind fun cs => (readArg k cs).bind fun r => (skipSep k .code r.2).bind fun cs => (expectChar k ';' cs).map fun cs => (m, cs)
  | .revision =>
    (needArg k cs).bind fun r =>
      let m := { m with revision := some (m.revision.getD r.1) }
      (skipSep k .code r.2).bind fun cs =>
        if cs.head? = some '{' then (skipStatement k cs).map fun cs => (m, cs) else (expectChar k ';' cs).map fun cs => (m, cs)

/-- the loop of `parse_metadata`, `P:102-189`, of at most so many rounds -/
def metaLoop (k : Classes) : Nat → Metadata → List Char → Loop Metadata
  | 0, _, _ => none
  | n + 1, m, cs =>
    Loop.after (skipSep k .code cs) fun cs =>
      if cs = [] then some (.ok m)
      else
        Loop.after (matchFirst k keywords cs) fun
          | some (w, cs) => Loop.after (metaStep k m cs w) fun r => metaLoop k n r.1 r.2
          | none => Loop.after (matchAny k dataKeywords cs) fun b => if b then some (.ok m) else metaLoop k n m (skipToken k cs)

/-- `extract_yang_metadata`, `P:75-78`, `P:94-205`: without a name it fails -/
def metadata (k : Classes) (n : Nat) (text : List Char) : Loop Metadata :=
  match metaLoop k n ⟨none, none, none, none, none⟩ text with
  | some (.ok m) => if m.name = none then some (.error .failed) else some (.ok m)
  | r => r

end Verif.Yang
