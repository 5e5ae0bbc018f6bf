import Verif.NetconfXml.Events
/-!
# The writer of XML

`X` stands for `crates/netconf-proto/src/xml_utils.rs`. What is written is the list of the events that reading it gives. Writing itself never fails: the output is memory.
-/
namespace Verif.Xml
open Verif.Collector (Text)

/-- `XmlWriter`, `X:62-68`, with what was written; the last bindings come first -/
structure WSt where
  out : List Raw
  bindings : List (List (Text × String))
  applied : Bool
  deriving DecidableEq, Repr

/-- a function of the writer; `none` is `UndefinedNamespace` or `DuplicateNamespacePrefix` -/
def W (α : Type) := WSt → Option (α × WSt)

instance : Monad W where
  pure a := fun w => some (a, w)
  bind p f := fun w => (p w).bind fun x => f x.1 x.2

/-- `apply_namespaces`, `X:172-188`: the attributes of the latest bindings -/
def declarations (bs : List (Text × String)) : List Attr := bs.map fun b => if b.2 = "" then ⟨⟨none, "xmlns"⟩, some b.1⟩ else ⟨⟨some "xmlns", b.2⟩, some b.1⟩

/-- `apply_namespaces`, `X:172-188` -/
def applyNs : W (List Attr) := fun w => some (if w.applied then [] else declarations (w.bindings.headD []), { w with applied := true })

/-- `create_element`, `X:101-105` -/
def createElement (name : String) : W (QName × List Attr) := do return (⟨none, name⟩, ← applyNs)

/-- the prefix of a namespace in bindings -/
def prefixIn (ns : Text) : List (Text × String) → Option String
  | [] => none
  | (n, p) :: bs => if n = ns then some p else prefixIn ns bs

/-- `get_namespace_prefix`, `X:107-112` -/
def nsPrefix (ns : Text) : List (List (Text × String)) → Option String
  | [] => none
  | bs :: rest => match prefixIn ns bs with | some p => some p | none => nsPrefix ns rest

/-- `create_ns_element`, `X:118-142` -/
def createNs (ns : Text) (name : String) : W (QName × List Attr) := fun w =>
  match nsPrefix ns w.bindings with
  | none => none
  | some p => (do return (⟨if p = "" then none else some p, name⟩, ← applyNs) : W _) w

/-- `check_duplicate_prefixes`, `X:190-202` -/
def distinctPrefixes : List (Text × String) → Bool
  | [] => true
  | b :: bs => (bs.all fun c => c.2 != b.2) && distinctPrefixes bs

/-- `push_namespace_binding`, `X:144-157` -/
def pushNs (bs : List (Text × String)) : W Unit := fun w =>
  if distinctPrefixes bs then some ((), { w with bindings := bs :: w.bindings, applied := false }) else none

/-- `pop_namespace_binding`, `X:159-161` -/
def popNs : W Unit := fun w => some ((), { w with bindings := w.bindings.tail })

/-- `write_event` and `write_all`, `X:163-169` -/
def write (rs : List Raw) : W Unit := fun w => some ((), { w with out := w.out ++ rs })

/-- an element with some content: `create_element`, the opening tag, the content, the closing tag -/
def leaf (name : String) (content : List Raw) : W Unit := do
  let e ← createElement name
  write [.start e.1 e.2]
  write content
  write [.close e.1]

/-- the same with `create_ns_element` -/
def leafNs (ns : Text) (name : String) (content : List Raw) : W Unit := do
  let e ← createNs ns name
  write [.start e.1 e.2]
  write content
  write [.close e.1]

/-- `NETCONF_NS`, `lib.rs:36` -/
def nsNetconf : Text := "urn:ietf:params:xml:ns:netconf:base:1.0".toList
/-- `NETCONF_MONITORING_NS`, `lib.rs:38-41` -/
def nsMonitoring : Text := "urn:ietf:params:xml:ns:yang:ietf-netconf-monitoring".toList
/-- `YANG_LIBRARY_NS`, `lib.rs:42-43` -/
def nsYangLibrary : Text := "urn:ietf:params:xml:ns:yang:ietf-yang-library".toList

/-- `XmlWriter::new`, `X:71-82` -/
def WSt.new : WSt := ⟨[], [[(nsNetconf, "")]], false⟩

/-- `XmlWriter::new_with_custom_namespaces`, `X:84-99` -/
def WSt.custom (bs : List (Text × String)) : Option WSt := if distinctPrefixes bs then some ⟨[], [bs], false⟩ else none

/-- a push that is made only when a namespace has no prefix, with the pop that belongs to it, as in `protocol.rs:370-379`: what is written between -/
def within (ns : Text) (body : W Unit) : W Unit := fun w =>
  match nsPrefix ns w.bindings with
  | some _ => body w
  | none => (do pushNs [(ns, "")]; body; popNs) w

/-- what is written -/
def output (p : W Unit) (w : WSt) : Option (List Raw) := (p w).map fun x => x.2.out

end Verif.Xml
