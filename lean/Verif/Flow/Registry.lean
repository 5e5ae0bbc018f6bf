import Verif.Collector.MapText
/-!
# Registries of elements

How the registries of IANA are read, and the enumerations that are generated for them. `G` stands for `crates/ipfix-code-generator/src/generator_sub_registries.rs`, `R` for
`crates/ipfix-code-generator/src/xml_parsers/sub_registries.rs`, `I` for `crates/ipfix-code-generator/src/xml_parsers/ipfix.rs` and `X` for `crates/ipfix-code-generator/src/xml_parsers/xml_common.rs`.

Documents are trees; names of elements in the namespace of IANA are given as such, others as none. What becomes of links in descriptions, `X:187-190`, is a parameter. Of numerals in titles those of ASCII are meant.
The code that is generated is taken for the functions that it defines, on unsigned numbers; code with two variants of the same name does not compile.
-/
namespace Verif.Registry
open Verif.Collector (Text trim isSpace splitAt splitWhitespace textLines parseNat)

/-- `Node` of roxmltree: elements with a name in the namespace of IANA or another one, and texts -/
inductive Node where
  | elem (tag : Option String) (attrs : List (String × Text)) (children : List Node)
  | text (t : Text)

def Node.children : Node → List Node
  | .elem _ _ c => c
  | .text _ => []

/-- `tag_name` -/
def Node.tag : Node → Option String
  | .elem t _ _ => t
  | .text _ => none

/-- `attribute` -/
def Node.attr (k : String) : Node → Option Text
  | .elem _ as _ => (as.find? fun a => a.1 = k).map Prod.snd
  | .text _ => none

/-- `text` of roxmltree: that of the first child of an element, if it is one -/
def Node.body : Node → Option Text
  | .elem _ _ (.text t :: _) => some t
  | .elem _ _ _ => none
  | .text t => some t

/-- the children of a name -/
def Node.named (n : Node) (key : String) : List Node := n.children.filter fun x => x.tag = some key

/-- `get_string_child`, `X:87-92` -/
def stringChild (n : Node) (key : String) : Option Text := ((n.children.find? fun x => x.tag = some key).bind Node.body).map trim

/-- `Xref`, with its type and what it refers to -/
structure Xref where
  ty : Text
  data : Text
  deriving DecidableEq, Repr

/-- `parse_xref`, `X:95-109` -/
def xrefs (n : Node) : List Xref := (n.named "xref").filterMap fun x => (x.attr "type").bind fun ty => (x.attr "data").map fun d => ⟨ty, d⟩

/-! ## Numbers -/

/-- the value of a digit in a base, `char::to_digit` -/
def digitIn (base : Nat) (c : Char) : Option Nat :=
  let v := if '0' ≤ c ∧ c ≤ '9' then some (c.toNat - 48) else if 'a' ≤ c ∧ c ≤ 'z' then some (c.toNat - 87) else if 'A' ≤ c ∧ c ≤ 'Z' then some (c.toNat - 55) else none
  v.filter (· < base)

def digitsIn (base bound acc : Nat) : Text → Option Nat
  | [] => some acc
  | c :: cs =>
    match digitIn base c with
    | none => none
    | some v => if acc * base + v < bound then digitsIn base bound (acc * base + v) cs else none

/-- `from_str_radix` of unsigned integers below a bound -/
def parseIn (base bound : Nat) : Text → Option Nat
  | [] => none
  | ['+'] => none
  | '+' :: cs => digitsIn base bound 0 cs
  | cs => digitsIn base bound 0 cs

/-- `strip_suffix` of one character -/
def stripLast (c : Char) (t : Text) : Option Text := if t.getLast? = some c then some t.dropLast else none

/-- the number of an entry, `R:139-149` and `R:155-165` -/
def entryValue (t : Text) : Option Nat :=
  match t with
  | '0' :: 'x' :: h => parseIn 16 256 h
  | '0' :: 'b' :: b => parseIn 2 256 b
  | t =>
    match stripLast 'b' t with
    | some b => parseIn 2 256 b
    | none => parseNat 256 t

/-! ## Names -/

/-- `is_ascii_punctuation` -/
def isPunct (c : Char) : Bool := (33 ≤ c.toNat && c.toNat ≤ 47) || (58 ≤ c.toNat && c.toNat ≤ 64) || (91 ≤ c.toNat && c.toNat ≤ 96) || (123 ≤ c.toNat && c.toNat ≤ 126)

/-- `replace_first_numeric_char`, `X:111-125`; numerals that are not of ASCII stay -/
def spellFirst : Text → Text
  | '0' :: t => "Zero".toList ++ t
  | '1' :: t => "One".toList ++ t
  | '2' :: t => "Two".toList ++ t
  | '3' :: t => "Three".toList ++ t
  | '4' :: t => "Four".toList ++ t
  | '5' :: t => "Five".toList ++ t
  | '6' :: t => "Six".toList ++ t
  | '7' :: t => "Seven".toList ++ t
  | '8' :: t => "Eight".toList ++ t
  | '9' :: t => "Nine".toList ++ t
  | t => t

/-- `join` with spaces -/
def joinWords : List Text → Text
  | [] => []
  | [w] => w
  | w :: ws => w ++ ' ' :: joinWords ws

/-- the text before a colon, on one line, `X:139-153` -/
def beforeColon (t : Text) : Text := trim ((joinWords ((textLines t).map trim)).takeWhile (· ≠ ':'))

/-- `xml_string_to_enum_type`, `X:138-171`: the number of words, and a name -/
def enumName (t : Text) : Nat × Text := ((splitWhitespace (beforeColon t)).length, spellFirst ((beforeColon t).filter fun c => !isSpace c && !isPunct c))

/-! ## Entries -/

/-- `ValueNameDescRegistry` -/
structure Entry where
  value : Nat
  name : Text
  display : Text
  description : Text
  comments : Option Text
  parameters : Option Text
  xrefs : List Xref
  deriving DecidableEq, Repr

/-- `contains` -/
def hasText (needle : Text) : Text → Bool
  | [] => needle.isEmpty
  | c :: t => needle.isPrefixOf (c :: t) || hasText needle t

/-- entries that are passed over for their name or description, `R:168-186` -/
def passed (t : Option Text) : Bool := t.any fun x => x = "Unassigned".toList || hasText "experimentation".toList x

/-- `parse_simple_description_string`, `X:174-195` -/
def simpleDescription (links : Text → Text) (n : Node) : Option Text := (n.children.find? fun x => x.tag = some "description").map fun d => links ((d.body.map trim).getD [])

/-- a text in bytes -/
def byteLength (t : Text) : Nat := (t.map Char.utf8Size).sum

/-- a number as text -/
def numberText (n : Nat) : Text := (toString n).toList

/-- name, name to show and description of an entry, `R:202-231` -/
def entryNames (value : Nat) : Option Text → Option Text → Option (Text × Text × Text)
  | some n, d => some ((enumName n).2, n, d.getD n)
  | none, some d =>
    let e := enumName d
    let short := if e.1 < 10 then e.2 else "Value".toList ++ numberText value
    some (short, (if byteLength d < 50 then d else short), d)
  | none, none => none

/-- names that come more than once are told apart, `R:233-236` -/
def apart (value : Nat) (name : Text) : Text := if name = "Reserved".toList ∨ name = "Private".toList then name ++ numberText value else name

/-- a record of a registry, `R:138-252` -/
def readEntry (links : Text → Text) (n : Node) : Option Entry :=
  let value := match stringChild n "value" with
    | some t => some (entryValue t)
    | none => (stringChild n "id").map entryValue
  let name := stringChild n "name"
  if passed name then none
  else
    let description := simpleDescription links n
    if passed description then none
    else
      match value with
      | some (some v) =>
        if v = 255 then none
        else
          match entryNames v name description with
          | some (a, b, c) => some ⟨v, apart v a, b, c, stringChild n "comments", stringChild n "parameters", xrefs n⟩
          | none => none
      | _ => none

/-- the entries of `parse_val_name_desc_u8_registry`, `R:121-255` -/
def readEntries (links : Text → Text) (n : Node) : List Entry := (n.named "record").filterMap (readEntry links)

/-- `InformationElementSubRegistry` for reasons: an entry for two bits, with the entries of its reasons -/
structure Nested where
  entry : Entry
  reasons : List Entry
  deriving DecidableEq, Repr

/-- the value of an entry for two bits is shifted, `R:272` -/
def shifted (e : Entry) : Entry := { e with value := e.value * 64 % 256 }

/-! ## Enumerations that are generated -/

/-- a value of an enumeration: a variant, or a number without one -/
inductive Variant where
  | named (name : Text)
  | unassigned (n : Nat)
  deriving DecidableEq, Repr

/-- `From` of the number, `G:222-247`: the first arm that matches -/
def Variant.of (l : List Entry) (v : Nat) : Variant :=
  match l.find? fun e => e.value = v with
  | some e => .named e.name
  | none => .unassigned v

/-- `From` of the variant, `G:183-212`; a variant that the enumeration does not have is no value of it -/
def Variant.number (l : List Entry) : Variant → Option Nat
  | .named n => (l.find? fun e => e.name = n).map (·.value)
  | .unassigned n => some n

/-- `bitor`, `G:285-292` -/
def Variant.or (l : List Entry) (a b : Variant) : Option Variant := (a.number l).bind fun x => (b.number l).map fun y => Variant.of l (x ||| y)

/-- a value of an enumeration with reasons -/
inductive NestedVariant where
  | named (name : Text) (reason : Variant)
  | unassigned (n : Nat)
  deriving DecidableEq, Repr

/-- `From` of the number, `G:248-274`: the arms have the numbers of their places, 64 each -/
def NestedVariant.from (i : Nat) : List Nested → Nat → NestedVariant
  | [], v => .unassigned v
  | e :: l, v => if 64 * i ≤ v ∧ v ≤ 64 * (i + 1) - 1 then .named e.entry.name (Variant.of e.reasons v) else NestedVariant.from (i + 1) l v

def NestedVariant.of (l : List Nested) (v : Nat) : NestedVariant := NestedVariant.from 0 l v

/-- `From` of the variant, `G:196-199` -/
def NestedVariant.number (l : List Nested) : NestedVariant → Option Nat
  | .named n r => (l.find? fun e => e.entry.name = n).bind fun e => r.number e.reasons
  | .unassigned n => some n

end Verif.Registry
