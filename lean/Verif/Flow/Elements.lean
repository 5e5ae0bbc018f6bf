import Verif.Flow.Registry
/-!
# Elements of registries

How the information elements of a registry are read, with their descriptions and the registries of their values. `I` stands for `crates/ipfix-code-generator/src/xml_parsers/ipfix.rs`, `R` for
`crates/ipfix-code-generator/src/xml_parsers/sub_registries.rs` and `X` for `crates/ipfix-code-generator/src/xml_parsers/xml_common.rs`. A panic is none. Of digits in titles those of ASCII are meant: others are not read as numbers.
-/
namespace Verif.Registry
open Verif.Collector (Text trim parseNat)

mutual
/-- `descendants` of roxmltree: the node itself, and all below it, in the order of the document -/
def Node.descendants : Node → List Node
  | .elem t as cs => .elem t as cs :: Node.descendantsAll cs
  | .text t => [.text t]
def Node.descendantsAll : List Node → List Node
  | [] => []
  | n :: l => Node.descendants n ++ Node.descendantsAll l
end

/-- `find_node_by_id`, `X:49-54` -/
def byId (n : Node) (id : String) : Option Node := n.descendants.find? fun x => x.attr "id" = some id.toList

/-- the children whose id has a text, `find_nodes_by_regex`, `X:70-82`, for patterns without special characters -/
def childrenWith (n : Node) (t : Text) : List Node := n.children.filter fun x => (x.attr "id").any (hasText t)

/-! ## Descriptions -/

/-- what is put before artwork, `I:125` -/
def fenceOpen : Text := "\n\n```text\n".toList

/-- what is put behind artwork, `I:127` -/
def fenceClose : Text := "\n```\n".toList

/-- the rounds of the loop of `parse_description_string`, `I:109-130`: whether it is the first one, and the text; only what is not the first is followed by others that are not -/
def descriptionStep (s : Bool × Text) (c : Node) : Bool × Text :=
  let s := if !s.1 then (false, s.2 ++ ['\n']) else s
  let t := if c.tag = some "paragraph" then s.2 ++ (match c.body with | some b => if trim (trim b) = [] then [] else trim (trim b) | none => []) else s.2
  let t := if c.tag = some "artwork" then t ++ (match c.body with | some b => fenceOpen ++ trim b ++ fenceClose | none => []) else t
  (s.1, t)

/-- `parse_description_string`, `I:102-139` -/
def elementDescription (links : Text → Text) (n : Node) : Option Text := (n.children.find? fun x => x.tag = some "description").map fun d => links (d.children.foldl descriptionStep (true, [])).2

/-! ## Registries of values -/

/-- `Value (\d+)`, `R:131`: the digits of the first place where it matches -/
def titleDigits : Text → Option Text
  | [] => none
  | c :: t => if "Value ".toList.isPrefixOf (c :: t) ∧ ((c :: t).drop 6).takeWhile Char.isDigit ≠ [] then some (((c :: t).drop 6).takeWhile Char.isDigit) else titleDigits t

/-- the number of the element that a title tells, `R:129-136` -/
def titleNumber (n : Node) : Nat := ((titleDigits ((stringChild n "title").getD [])).bind (parseNat 65536)).getD 0

/-- `{:02b}` -/
def binaryText (n : Nat) : Text := if (Nat.toDigits 2 n).length < 2 then '0' :: Nat.toDigits 2 n else Nat.toDigits 2 n

/-- `parse_reason_code_nested_u8_registry_2bit`, `R:259-292`: it panics if there is no registry of reasons for an entry -/
def readNested (links : Text → Text) (n : Node) : Option (List Nested) :=
  (readEntries links n).mapM fun e => (childrenWith n ('-' :: binaryText e.value ++ ['b'])).head?.map fun r => ⟨shifted e, readEntries links r⟩

/-- the values of an element: entries, or entries with reasons -/
inductive Values where
  | plain (l : List Entry)
  | nested (l : List Nested)
  deriving DecidableEq, Repr

/-- `parse_ie_subregistries`, `I:69-100`, in the order in which they are put into the table -/
def subregistries (links : Text → Text) (n : Node) : Option (List (Nat × Values)) :=
  let plain := (childrenWith n "ipfix-".toList ++ (byId n "classification-engine-ids").toList).map fun x => (titleNumber x, Values.plain (readEntries links x))
  match byId n "forwarding-status" with
  | none => some plain
  | some f => (readNested links f).map fun l => plain ++ [(titleNumber f, .nested l)]

/-- a table into which they were put: the latest stays -/
def latest (l : List (Nat × Values)) (k : Nat) : Option Values := (l.reverse.find? fun p => p.1 = k).map Prod.snd

/-! ## Elements -/

/-- `InformationElement`, `lib.rs:44-61` -/
structure Element where
  pen : Nat
  name : Text
  type : Text
  group : Option Text
  semantics : Option Text
  id : Nat
  applicability : Option Text
  status : Text
  description : Text
  revision : Nat
  date : Text
  reference : Option Text
  xrefs : List Xref
  units : Option Text
  range : Option Text
  values : Option Values

/-- names that are passed over, `I:160-176` -/
def noElement (name : Text) : Bool := name = "Assigned for NetFlow v9 compatibility".toList || name = "Unassigned".toList || name = "Reserved".toList

/-- the type of an element, `I:179-192`; `eq_ignore_ascii_case` -/
def elementType (name type : Text) : Text := if name = "samplerId".toList ∨ name.map Char.toLower = "forwardingstatus".toList then "unsigned32".toList else type

/-- a record of elements, `I:158-289` -/
def readElement (links : Text → Text) (pen : Nat) (subs : List (Nat × Values)) (n : Node) : Option Element := do
  let name ← stringChild n "name"
  if noElement name then none
  else do
    let type ← (stringChild n "dataType").map (elementType name)
    let id ← (stringChild n "elementId").bind (parseNat 65536)
    let status ← stringChild n "status"
    let description ← elementDescription links n
    let revision ← (stringChild n "revision").bind (parseNat 4294967296)
    let date ← stringChild n "date"
    some { pen, name, type, group := stringChild n "group", semantics := stringChild n "dataTypeSemantics", id, applicability := stringChild n "applicability", status, description, revision, date,
           reference := (n.children.find? fun x => x.tag = some "references").bind fun r => stringChild r "paragraph", xrefs := xrefs n,
           units := (stringChild n "units").map fun u => if u = "4-octet words".toList then "fourOctetWords".toList else u, range := stringChild n "range", values := latest subs id }

/-- `parse_information_elements`, `I:141-291`: external registries come last -/
def readElements (links : Text → Text) (pen : Nat) (ext : List (Nat × Values)) (n : Node) : Option (List Element) :=
  (subregistries links n).map fun subs => (n.named "record").filterMap (readElement links pen (subs ++ ext))

end Verif.Registry
