import Verif.NetconfXml.Messages
/-!
# What XML says

Descriptions of XML 1.0 and of namespaces in XML that do not depend on the parser: the text of an element and the expanded names of the elements of some content.
-/
namespace Verif.Xml
open Verif.Collector (Text)

/-- the text of an element that has no elements in it (XML 1.0, sections 2.4, 2.5, 2.6, 2.7, 4.1 and 4.6); `none` if there is an element in it, or it is not well formed -/
def said : List Raw → Option Text
  | [] => some []
  | .text t :: l => (said l).map (t ++ ·)
  | .cdata t :: l => (said l).map (t ++ ·)
  | .ref r :: l => (refersTo r).bind fun x => (said l).map (x ++ ·)
  | .comment _ :: l => said l
  | .other :: l => said l
  | _ :: _ => none

/-- an element with some content and the namespace of NETCONF -/
def element (name : String) (content : List Raw) : List Raw := .start ⟨none, name⟩ [⟨⟨none, "xmlns"⟩, some nsNetconf⟩] :: (content ++ [.close ⟨none, name⟩])

/-- reading an element with text, as it is done for all the elements of messages that have one: `open`, `tag_string`, `close` -/
def readText (name : String) : P Text := do
  let _ ← openTag nsNetconf name
  let t ← tagString
  close
  return t

/-- the expanded names of the elements, in the order in which they are opened -/
def names : List Ev → List (Resolved × String)
  | [] => []
  | ⟨.start q _, sc⟩ :: es => (sc.resolve q, q.loc) :: names es
  | ⟨.empty q _, sc⟩ :: es => (sc.resolve q, q.loc) :: names es
  | _ :: es => names es

/-- every tag that is opened is closed in turn, and nothing is left open; the first argument is what is open, the innermost first. Texts are UTF-8, as strings are. -/
def balanced : List QName → List Raw → Bool
  | [], [] => true
  | _ :: _, [] => false
  | st, .start q _ :: l => balanced (q :: st) l
  | p :: st, .close q :: l => p == q && balanced st l
  | [], .close _ :: _ => false
  | _, .bad :: _ => false
  | st, _ :: l => balanced st l

/-- a well formed document: one element, around well formed content -/
def WellFormed (l : List Raw) : Prop := ∃ q as c, l = .start q as :: (c ++ [.close q]) ∧ balanced [] c = true

end Verif.Xml
