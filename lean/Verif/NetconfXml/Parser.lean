import Verif.NetconfXml.Events
/-!
# The parser of XML

`X` stands for `crates/netconf-proto/src/xml_utils.rs`. The state is the event that was read last and those to come, and of the open elements whether they are empty tags.
The event before the last (`previous`) is left out: nothing reads it. Texts of errors are left out except for `expecting`, which some code looks at.
Reading a new event fails at `Raw.bad`, and at the end of the document gives the end again.
-/
namespace Verif.Xml
open Verif.Collector (Text)

/-- `ParsingError`, `X:199-248` -/
inductive PErr where
  | wrongToken (expecting : String)
  | recoverable
  | missingAttribute
  | invalidValue
  | skipError
  | eof
  /-- an error of quick-xml -/
  | reader
  | encoding
  | int
  | missingElement
  deriving DecidableEq, Repr

/-- `XmlParser`, `X:316-322`: the head of the events is `current`, the parents are `true` for an opening tag -/
structure St where
  evs : List Ev
  parents : List Bool
  deriving DecidableEq, Repr

/-- a function of the parser -/
def P (α : Type) := St → Res PErr α × St

instance : Monad P where
  pure a := fun s => (.ok a, s)
  bind p f := fun s =>
    match p s with
    | (.ok a, s') => f a s'
    | (.err e, s') => (.err e, s')
    | (.fault x, s') => (.fault x, s')

/-- `Err(e)` -/
def raise {α : Type} (e : PErr) : P α := fun s => (.err e, s)

/-- the result of a conversion, with `?` -/
def lift {α : Type} (e : PErr) : Option α → P α
  | some a => pure a
  | none => raise e

/-- whether the next event cannot be read -/
def headBad : List Ev → Bool
  | e :: _ => e.raw == .bad
  | [] => false

/-- `XmlParser::next_event`, `X:344-349` -/
def next : P Unit := fun s =>
  match s.evs with
  | [] => (.ok (), s)
  | _ :: es => if headBad es then (.err .reader, s) else (.ok (), { s with evs := es })

/-- `read_to_end_into` of quick-xml: what is behind the closing tag of an element that was opened -/
def readToEnd (q : QName) : Nat → List Ev → Option (List Ev)
  | _, [] => none
  | d, e :: es =>
    match e.raw with
    | .bad => none
    | .start p _ => readToEnd q (if p = q then d + 1 else d) es
    | .close p => if p = q then (match d with | 0 => some es | d + 1 => readToEnd q d es) else readToEnd q d es
    | _ => readToEnd q d es

/-- `XmlParser::skip`, `X:359-374` -/
def skip : P Unit := fun s =>
  match s.evs with
  | [] => (.err .eof, s)
  | e :: es =>
    match e.raw with
    | .start q _ =>
      match readToEnd q 0 es with
      | some r => if headBad r then (.err .reader, s) else (.ok (), { s with evs := r })
      | none => (.err .reader, s)
    | .close _ => (.err .skipError, s)
    | _ => next s

/-- text or a comment -/
def Raw.isText : Raw → Bool
  | .text _ => true
  | .garbled => true
  | .comment _ => true
  | _ => false

/-- the loop of `skip_text` -/
def skipTextL : List Ev → Res PErr Unit × List Ev
  | [] => (.ok (), [])
  | e :: es => if e.raw.isText then (if headBad es then (.err .reader, e :: es) else skipTextL es) else (.ok (), e :: es)

/-- `XmlParser::skip_text`, `X:376-381` -/
def skipText : P Unit := fun s => ((skipTextL s.evs).1, { s with evs := (skipTextL s.evs).2 })

/-- the event that was read last, `X:351-353` -/
def peek : P (Option Ev) := fun s => (.ok s.evs.head?, s)

/-- `XmlParser::is_tag`, `X:384-401`, with a namespace -/
def isTagL (ns : Text) (key : String) : List Ev → Bool
  | [] => false
  | e :: _ =>
    match e.raw with
    | .start q _ => q.loc == key && e.scope.resolve q == .bound ns
    | .empty q _ => q.loc == key && e.scope.resolve q == .bound ns
    | .close q => q.loc == key && e.scope.resolve q == .bound ns
    | _ => false

def isTag (ns : Text) (key : String) : P Bool := fun s => (.ok (isTagL ns key s.evs), s)

/-- `XmlParser::open`, `X:405-435` -/
def openTag (ns : Text) (key : String) : P (List Attr) := fun s =>
  match s.evs with
  | [] => (.err (.wrongToken ("<" ++ key ++ ">")), s)
  | e :: es =>
    match e.raw with
    | .empty _ as => if isTagL ns key s.evs then (.ok as, { s with parents := false :: s.parents }) else (.err (.wrongToken ("<" ++ key ++ ">")), s)
    | .start _ as =>
      if isTagL ns key s.evs then (if headBad es then (.err .reader, s) else (.ok as, ⟨es, true :: s.parents⟩))
      else (.err (.wrongToken ("<" ++ key ++ ">")), s)
    | _ => (.err (.wrongToken ("<" ++ key ++ ">")), s)

/-- `XmlParser::maybe_open`, `X:439-450` -/
def maybeOpen (ns : Text) (key : String) : P (Option (List Attr)) := do
  skipText
  fun s =>
    match openTag ns key s with
    | (.ok a, s') => (.ok (some a), s')
    | (.err .recoverable, s') => (.ok none, s')
    | (.err (.wrongToken _), s') => (.ok none, s')
    | (.err e, s') => (.err e, s')
    | (.fault f, s') => (.fault f, s')

/-- `if let Ok(Some(_)) = parser.maybe_open(..)`, which forgets errors -/
def opens (ns : Text) (key : String) : P Bool := fun s =>
  match maybeOpen ns key s with
  | (.ok (some _), s') => (.ok true, s')
  | (.ok none, s') => (.ok false, s')
  | (.err _, s') => (.ok false, s')
  | (.fault f, s') => (.fault f, s')

/-- `parent_has_child`, `X:523-525` -/
def hasChild : List Bool → Bool
  | true :: _ => true
  | [] => true
  | false :: _ => false

/-- what `tag_string` takes a reference for, `X:476-483` -/
def refText (t : Text) : Text :=
  match t with
  | ['q', 'u', 'o', 't'] => ['"']
  | ['a', 'p', 'o', 's'] => ['\'']
  | ['a', 'm', 'p'] => ['&']
  | ['l', 't'] => ['<']
  | ['g', 't'] => ['>']
  | _ => t

/-- the loop of `tag_string`; at the end of the document it goes on for ever -/
def tagStringL : Text → List Ev → Res PErr Text × List Ev
  | _, [] => (.fault .hang, [])
  | acc, e :: es =>
    match e.raw with
    | .cdata t => if headBad es then (.err .reader, e :: es) else tagStringL (acc ++ t) es
    | .text t => if headBad es then (.err .reader, e :: es) else tagStringL (acc ++ t) es
    | .ref t => if headBad es then (.err .reader, e :: es) else tagStringL (acc ++ refText t) es
    | .garbled => (.err .encoding, e :: es)
    | .close _ => (.ok acc, e :: es)
    | .start _ _ => (if acc.isEmpty then .err (.wrongToken "text") else .ok acc, e :: es)
    | .empty _ _ => (if acc.isEmpty then .err (.wrongToken "text") else .ok acc, e :: es)
    | _ => if headBad es then (.err .reader, e :: es) else tagStringL acc es

/-- `XmlParser::tag_string`, `X:453-501` -/
def tagString : P Text := fun s =>
  if hasChild s.parents then ((tagStringL [] s.evs).1, { s with evs := (tagStringL [] s.evs).2 }) else (.ok [], s)

/-- the loop of `close`, with a bound for the steps, which is never reached -/
def closeF : Nat → P Unit
  | 0 => fun s => (.fault .hang, s)
  | n + 1 => fun s =>
    match s.evs with
    | ⟨.close _, _⟩ :: _ => next { s with parents := s.parents.tail }
    | _ =>
      match skip s with
      | (.ok _, s') => closeF n s'
      | (.err e, s') => (.err e, s')
      | (.fault f, s') => (.fault f, s')

/-- `XmlParser::close`, `X:527-543` -/
def close : P Unit := fun s =>
  if hasChild s.parents then closeF (s.evs.length + 1) s else next { s with parents := s.parents.tail }

/-- the tag as `copy_buffer_till` writes it when it is the first: with the namespace of its name, unless it declares one, `X:582-606`. `none` is the panic of
`unwrap` at a value that is not UTF-8. -/
def withNs (sc : Scope) (q : QName) (as : List Attr) : Option (List Attr) :=
  if as.any fun a => a.value.isNone then none
  else if as.any fun a => a.key.loc == "xmlns" then some as
  else
    match sc.resolve q with
    | .bound n => some (as ++ [⟨⟨none, "xmlns"⟩, some n⟩])
    | _ => some as

/-- whether an event is UTF-8 -/
def Raw.utf8 : Raw → Bool
  | .start _ as => as.all fun a => a.value.isSome
  | .empty _ as => as.all fun a => a.value.isSome
  | .garbled => false
  | _ => true

/-- the loop of `copy_buffer_till`; the first argument is `wrote_ns` -/
def copyL (tag : String) : Bool → List Ev → Res PErr (List Raw) × List Ev
  | _, [] => (.err .eof, [])
  | w, e :: es =>
    match e.raw with
    | .close q =>
      if q.loc = tag then (.ok [], e :: es)
      else if headBad es then (.err .reader, e :: es)
      else ((copyL tag w es).1.map (e.raw :: ·), (copyL tag w es).2)
    | .start q as =>
      if w then (if headBad es then (.err .reader, e :: es) else ((copyL tag w es).1.map (e.raw :: ·), (copyL tag w es).2))
      else
        match withNs e.scope q as with
        | none => (.fault .panic, e :: es)
        | some as' => if headBad es then (.err .reader, e :: es) else ((copyL tag true es).1.map (.start q as' :: ·), (copyL tag true es).2)
    | _ => if headBad es then (.err .reader, e :: es) else ((copyL tag w es).1.map (e.raw :: ·), (copyL tag w es).2)

/-- `XmlParser::copy_buffer_till`, `X:569-622` -/
def copyTill (tag : String) : P (List Raw) := fun s =>
  match copyL tag false s.evs with
  | (.ok rs, es) => (if rs.all Raw.utf8 then .ok rs else .err .encoding, { s with evs := es })
  | (.err e, es) => (.err e, { s with evs := es })
  | (.fault f, es) => (.fault f, { s with evs := es })

/-- the loop of `collect_xml_sequence`, with a bound for the steps -/
def collectF {α : Type} (p : P α) : Nat → P (List α)
  | 0 => fun s => (.fault .hang, s)
  | n + 1 => do
    skipText
    fun s =>
      let again : P (List α) := fun s' =>
        match s'.evs with
        | ⟨.close _, _⟩ :: _ => (.ok [], s')
        | _ => (do skip; collectF p n) s'
      match p s with
      | (.ok v, s') => (do return v :: (← collectF p n)) s'
      | (.err (.wrongToken _), s') => again s'
      | (.err .recoverable, s') => again s'
      | (.err e, s') => (.err e, s')
      | (.fault f, s') => (.fault f, s')

/-- `XmlParser::collect_xml_sequence`, `X:669-693` -/
def collect {α : Type} (p : P α) : P (List α) := fun s =>
  if hasChild s.parents then collectF p (s.evs.length + 1) s else (.ok [], s)

/-- the loop of `collect_xml_sequence_with_tag`, with a bound for the steps -/
def collectTagF {α : Type} (ns : Text) (tag : String) (p : P α) : Nat → P (List α)
  | 0 => fun s => (.fault .hang, s)
  | n + 1 => do
    skipText
    fun s =>
      match s.evs with
      | ⟨.start q as, sc⟩ :: es =>
        if isTagL ns tag (⟨.start q as, sc⟩ :: es) then
          match p s with
          | (.ok v, s') => (do return v :: (← collectTagF ns tag p n)) s'
          | (.err .recoverable, s') =>
            match s'.evs with
            | ⟨.close _, _⟩ :: _ => (.ok [], s')
            | _ => (do skip; collectTagF ns tag p n) s'
          | (.err e, s') => (.err e, s')
          | (.fault f, s') => (.fault f, s')
        else (.ok [], s)
      | _ => (.ok [], s)

/-- `XmlParser::collect_xml_sequence_with_tag`, `X:699-735`, with a namespace -/
def collectTag {α : Type} (ns : Text) (tag : String) (p : P α) : P (List α) := fun s =>
  if hasChild s.parents then collectTagF ns tag p (s.evs.length + 1) s else (.ok [], s)

/-- `XmlParser::new`, `X:325-338`, and a function of it -/
def run {α : Type} (p : P α) (es : List Ev) : Res PErr α := if headBad es then .err .reader else (p ⟨es, []⟩).1

end Verif.Xml
