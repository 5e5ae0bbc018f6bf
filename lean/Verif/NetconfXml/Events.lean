import Verif.Collector.MapText
import Verif.Core.Reader
/-!
# XML as the reader of quick-xml hands it on

`X` stands for `crates/netconf-proto/src/xml_utils.rs`. The library quick-xml turns octets into events and back; what it does is taken from its documentation:
an event is an opening, empty or closing tag, a piece of text, a reference, a CDATA section or another piece of markup, and reading ends with an error at markup
that is not well formed (`Raw.bad`; an error of the reader is taken to be final). Texts are lists of characters. XML that is kept as a string (`Box<str>`) is the list of its events.
-/
namespace Verif.Xml
open Verif.Collector (Text)

/-- the name of an element or attribute, with its prefix -/
structure QName where
  pfx : Option String
  loc : String
  deriving DecidableEq, Repr

/-- an attribute as it is written, with references in its value; `none` if the value is not UTF-8 -/
structure Attr where
  key : QName
  value : Option Text
  deriving DecidableEq, Repr

/-- `quick_xml::events::Event` without the end of the document, which is the end of the list -/
inductive Raw where
  | start (q : QName) (attrs : List Attr)
  | empty (q : QName) (attrs : List Attr)
  | close (q : QName)
  | text (t : Text)
  | cdata (t : Text)
  | ref (t : Text)
  /-- text that is not UTF-8 (CDATA and references that are not are left out) -/
  | garbled
  | comment (t : Text)
  | decl
  /-- processing instructions and document types -/
  | other
  /-- markup that is not well formed -/
  | bad
  deriving DecidableEq, Repr

/-- the bindings of prefixes that are in force, the nearest first; the empty prefix is that of names without one -/
abbrev Scope := List (String × Text)

/-- `quick_xml::name::ResolveResult` -/
inductive Resolved where
  | bound (ns : Text)
  | unbound
  | unknown
  deriving DecidableEq, Repr

/-- the first binding of a prefix -/
def Scope.find : Scope → String → Option Text
  | [], _ => none
  | (p, n) :: s, q => if p = q then some n else Scope.find s q

/-- `NamespaceResolver::resolve_element` of quick-xml: a name without prefix is in the default namespace, unless that is empty; a prefix
bound to nothing is unknown -/
def Scope.resolve (s : Scope) (q : QName) : Resolved :=
  match q.pfx with
  | none =>
    match s.find "" with
    | some [] => .unbound
    | some n => .bound n
    | none => .unbound
  | some "xml" => .bound "http://www.w3.org/XML/1998/namespace".toList
  | some p =>
    match s.find p with
    | some [] => .unknown
    | some n => .bound n
    | none => .unknown

/-- the bindings that the attributes of a tag declare; the last comes first, as quick-xml looks from the end -/
def declared : List Attr → Scope
  | [] => []
  | ⟨⟨none, "xmlns"⟩, some v⟩ :: as => declared as ++ [("", v)]
  | ⟨⟨some "xmlns", p⟩, some v⟩ :: as => declared as ++ [(p, v)]
  | _ :: as => declared as

/-- an event with the bindings that `NsReader` has in force at it -/
structure Ev where
  raw : Raw
  scope : Scope
  deriving DecidableEq, Repr

/-- the elements that are open at a point of a document, the innermost first, with the bindings inside of them -/
abbrev Stack := List (QName × Scope)

def Stack.scope : Stack → Scope
  | [] => []
  | (_, s) :: _ => s

/-- `NsReader::read_event_into` of quick-xml, for all of a document: a tag sees what it declares itself, a closing tag sees the bindings of its element, and must
have the name of the innermost open element -/
def annotate : Stack → List Raw → List Ev
  | _, [] => []
  | st, .start q as :: rs => ⟨.start q as, declared as ++ st.scope⟩ :: annotate ((q, declared as ++ st.scope) :: st) rs
  | st, .empty q as :: rs => ⟨.empty q as, declared as ++ st.scope⟩ :: annotate st rs
  | (p, s) :: st, .close q :: rs => if p = q then ⟨.close q, s⟩ :: annotate st rs else [⟨.bad, s⟩]
  | [], .close _ :: _ => [⟨.bad, []⟩]
  | st, .bad :: _ => [⟨.bad, st.scope⟩]
  | st, r :: rs => ⟨r, st.scope⟩ :: annotate st rs

/-- `quick_xml::escape::escape`, which `BytesText::new` and `push_attribute` with texts apply -/
def escape : Text → Text
  | [] => []
  | '<' :: cs => "&lt;".toList ++ escape cs
  | '>' :: cs => "&gt;".toList ++ escape cs
  | '&' :: cs => "&amp;".toList ++ escape cs
  | '\'' :: cs => "&apos;".toList ++ escape cs
  | '"' :: cs => "&quot;".toList ++ escape cs
  | c :: cs => c :: escape cs

/-- the events of a text that is not empty -/
def textOf (t : Text) : List Raw := if t.isEmpty then [] else [.text t]

/-- how quick-xml reads the characters between two tags: references stand on their own, and one that is not closed is an error. In the first argument are the
characters of a reference that has begun, in the second those of the text so far. Markup in the text (`<`) is not described further than that it is not text. -/
def lex : Option Text → Text → Text → List Raw
  | none, t, [] => textOf t
  | some _, _, [] => [.bad]
  | none, t, '&' :: cs => textOf t ++ lex (some []) [] cs
  | none, _, '<' :: _ => [.bad]
  | none, t, c :: cs => lex none (t ++ [c]) cs
  | some r, _, ';' :: cs => .ref r :: lex none [] cs
  | some _, _, '&' :: _ => [.bad]
  | some _, _, '<' :: _ => [.bad]
  | some r, t, c :: cs => lex (some (r ++ [c])) t cs

/-- the events of characters that are written as they are, `BytesText::from_escaped` -/
def asIs (t : Text) : List Raw := lex none [] t

/-- the events of a text that is written with `BytesText::new` -/
def written (t : Text) : List Raw := asIs (escape t)

/-- `resolve_predefined_entity` of quick-xml -/
def predefined : Text → Option Text
  | ['l', 't'] => some ['<']
  | ['g', 't'] => some ['>']
  | ['a', 'm', 'p'] => some ['&']
  | ['a', 'p', 'o', 's'] => some ['\'']
  | ['q', 'u', 'o', 't'] => some ['"']
  | _ => none

/-- the digit of a base -/
def baseDigit (b : Nat) (c : Char) : Option Nat :=
  let v := if '0' ≤ c ∧ c ≤ '9' then some (c.toNat - 48)
    else if 'a' ≤ c ∧ c ≤ 'f' then some (c.toNat - 87)
    else if 'A' ≤ c ∧ c ≤ 'F' then some (c.toNat - 55) else none
  v.bind fun n => if n < b then some n else none

/-- the number that digits write -/
def baseNumber (b : Nat) : Nat → Text → Option Nat
  | n, [] => some n
  | n, c :: cs => (baseDigit b c).bind fun d => baseNumber b (n * b + d) cs

/-- the character of a character reference without its `&#` and `;` -/
def charRef : Text → Option Char
  | 'x' :: c :: cs => (baseNumber 16 0 (c :: cs)).bind fun n => if n.isValidChar ∧ n ≠ 0 then some (Char.ofNat n) else none
  | c :: cs => (baseNumber 10 0 (c :: cs)).bind fun n => if n.isValidChar ∧ n ≠ 0 then some (Char.ofNat n) else none
  | [] => none

/-- what a reference stands for in XML without a document type -/
def refersTo : Text → Option Text
  | '#' :: cs => (charRef cs).map fun c => [c]
  | cs => predefined cs

/-- the white space of XML -/
def blank (c : Char) : Bool := c == ' ' || c == '\t' || c == '\n' || c == '\r'

/-- `Attribute::normalized_value_with` of quick-xml (XML 1.0, section 3.3.3): references are replaced, and white space is spaces. In the first argument are the
characters of a reference that has begun. -/
def normalized : Option Text → Text → Option Text
  | none, [] => some []
  | some _, [] => none
  | none, '&' :: cs => normalized (some []) cs
  | none, c :: cs => (normalized none cs).map fun t => (if blank c then ' ' else c) :: t
  | some r, ';' :: cs => (refersTo r).bind fun x => (normalized none cs).map fun t => x ++ t
  | some r, c :: cs => normalized (some (r ++ [c])) cs

end Verif.Xml
