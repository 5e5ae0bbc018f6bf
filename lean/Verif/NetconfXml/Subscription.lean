import Verif.NetconfXml.YangLib
/-!
# Subscriptions of YANG-Push and their filters as XML

`S` stands for `crates/netconf-proto/src/yang_push/subscription.rs`, `F` for `filters.rs` and `I` for `identities.rs` beside it, `X` for `crates/netconf-proto/src/xml_utils.rs`.

The filters of datastores and of streams are the same code with other names and namespaces (`FilterKind`). Chains of `if parser.is_tag(..) {..} else if ..` over the children of an element are tables of the tags, in their order.
XML that is kept as a string is the list of its events.
-/
namespace Verif.Xml
open Verif.Collector (Text trim trimStart parseNat)

/-- `YANG_PUSH_NS`, `yang_push/mod.rs:44-45` -/
def nsPush : Text := "urn:ietf:params:xml:ns:yang:ietf-yang-push".toList
/-- `SUBSCRIBED_NOTIFICATIONS_NS`, `yang_push/mod.rs:46-47` -/
def nsSub : Text := "urn:ietf:params:xml:ns:yang:ietf-subscribed-notifications".toList
/-- `DISTRIBUTED_NOTIF_NS`, `yang_push/mod.rs:48-49` -/
def nsDistributed : Text := "urn:ietf:params:xml:ns:yang:ietf-distributed-notif".toList
/-- `YANG_PUSH_REVISION`, `yang_push/mod.rs:51-52` -/
def nsRevision : Text := "urn:ietf:params:xml:ns:yang:ietf-yang-push-revision".toList

/-- `DateTime<Utc>` of chrono: seconds since 1970, and nanoseconds -/
structure Time where
  secs : Int
  nanos : Nat
  deriving DecidableEq, Repr

/-- what chrono does: `format` is `format_datetime` (X:853-863), which asks for the year, month, day, hour, minute and second only; `parse` is `DateTime::parse_from_rfc3339` -/
structure Clock where
  format : Int → Text
  parse : Text → Option Time

/-- `parse_datetime`, X:866-870 -/
def Clock.read (c : Clock) (t : Text) : Option Time := c.parse (trim t)

/-- `DatastoreXPathFilter`, F:346-354, and `StreamXPathFilter`, F:533-540: prefixes with their namespaces, and the path -/
structure XPathFilter where
  namespaces : List (String × Text)
  path : Text
  deriving DecidableEq, Repr

/-- `DatastoreSubtreeFilter`, F:409-417, and `StreamSubtreeFilter`, F:598-605 -/
structure SubtreeFilter where
  namespaces : List (String × Text)
  xml : List Raw
  deriving DecidableEq, Repr

/-- `DatastoreFilterSpec`, F:297-300, and `StreamFilterSpec`, F:482-488 -/
inductive FilterSpec where
  | subtree (f : SubtreeFilter)
  | xpath (f : XPathFilter)
  deriving DecidableEq, Repr

/-- `DatastoreSelectionFilterObjects`, S:910-916, and `StreamSelectionFilterObjects`, F:672-679 -/
inductive Selection where
  | byReference (name : Text)
  | inline (f : FilterSpec)
  deriving DecidableEq, Repr

/-- the names of the elements of filters -/
structure FilterKind where
  ns : Text
  subtree : String
  xpath : String
  ref : String

def dsKind : FilterKind := ⟨nsPush, "datastore-subtree-filter", "datastore-xpath-filter", "selection-filter-ref"⟩
def streamKind : FilterKind := ⟨nsSub, "stream-subtree-filter", "stream-xpath-filter", "stream-filter-name"⟩

/-! ## Writing filters -/

/-- the map from namespaces to prefixes that is pushed, F:362-375 and F:548-564 -/
def newBindings (ns : Text) (l : List (String × Text)) (bound : Bool) : List (Text × String) :=
  let m := mapOf Prod.fst (l.map fun b => (b.2, b.1))
  if !bound && !(m.any fun b => b.1 = ns) then m ++ [(ns, "")] else m

/-- the element of a filter with the bindings of its prefixes, F:357-385, F:420-449, F:543-573 and F:608-640 -/
def writeFilterElem (ns : Text) (key : String) (l : List (String × Text)) (content : List Raw) : W Unit := fun w =>
  let m := newBindings ns l (nsPrefix ns w.bindings).isSome
  (if m.isEmpty then leafNs ns key content else (do pushNs m; leafNs ns key content; popNs)) w

/-- `xml_serialize` of `DatastoreFilterSpec`, F:312-327, and of `StreamFilterSpec`, F:498-513 -/
def writeSpec (k : FilterKind) : FilterSpec → W Unit
  | .subtree f => writeFilterElem k.ns k.subtree f.namespaces f.xml
  | .xpath f => writeFilterElem k.ns k.xpath f.namespaces (written f.path)

/-- `xml_serialize` of `DatastoreSelectionFilterObjects`, S:919-945, and of `StreamSelectionFilterObjects`, F:681-713 -/
def writeSelection (k : FilterKind) : Selection → W Unit
  | .byReference n => within k.ns (leafNs k.ns k.ref (written n))
  | .inline f => writeSpec k f

/-! ## Reading filters -/

/-- where `find_xpath_prefixes` (X:801-850) is: outside of names and literals, in a literal, or in a name -/
inductive Scan where
  | out
  | single
  | double
  | name (acc : Text)
  deriving DecidableEq, Repr

/-- a character that does not go on a name, X:822-827 -/
def scanFrom (c : Char) : Scan := if c = '\'' then .single else if c = '"' then .double else if c.isAlpha || c = '_' then .name [c] else .out

/-- the characters of names, X:831 -/
def nameChar (c : Char) : Bool := c.isAlphanum || c = '_' || c = '-' || c = '.'

/-- `find_xpath_prefixes`, X:801-850: names with one colon behind them, outside of literals -/
def xpathPrefixes : Scan → Text → List Text
  | _, [] => []
  | .single, c :: cs => xpathPrefixes (if c = '\'' then .out else .single) cs
  | .double, c :: cs => xpathPrefixes (if c = '"' then .out else .double) cs
  | .out, c :: cs => xpathPrefixes (scanFrom c) cs
  | .name acc, c :: cs =>
    if nameChar c then xpathPrefixes (.name (acc ++ [c])) cs
    else if c = ':' ∧ cs.head? ≠ some ':' then acc :: xpathPrefixes .out cs
    else xpathPrefixes (scanFrom c) cs

/-- `NamespaceResolver::bindings` of quick-xml: the bindings that are in force, the outermost first -/
def Scope.bindings : Scope → List (String × Text)
  | [] => []
  | (p, n) :: s => (Scope.bindings s).filter (fun b => b.1 ≠ p) ++ [(p, n)]

/-- the bindings at the event that was read last -/
def bindingsNow : P (List (String × Text)) := fun s => (.ok (Scope.bindings ((s.evs.head?.map Ev.scope).getD [])), s)

/-- the check with `is_tag` before `open`, as in F:388-397 -/
def expectTag (ns : Text) (key : String) : P (List Attr) := do
  skipText
  if ← isTag ns key then openTag ns key else raise (.wrongToken ("<" ++ key ++ ">"))

/-- `xml_deserialize` of `DatastoreXPathFilter`, F:388-407, and of `StreamXPathFilter`, F:576-595, with `read_xpath_with_namespaces`, X:740-759 -/
def readXPath (ns : Text) (key : String) : P XPathFilter := do
  let _ ← expectTag ns key
  let all ← bindingsNow
  let t ← tagString
  close
  return ⟨all.filter fun b => b.1.toList ∈ xpathPrefixes .out t, trim t⟩

/-- a name that is used, X:768-779 and X:786-797 -/
def noteName (sc : Scope) (q : QName) (used : List (String × Text)) : List (String × Text) :=
  if used.any fun b => b.1 = q.pfx.getD "" then used
  else match sc.resolve q with
    | .bound n => used ++ [(q.pfx.getD "", n)]
    | _ => used

/-- `record_element_usage`, X:761-799 -/
def noteElement (e : Ev) (used : List (String × Text)) : List (String × Text) :=
  let attrs := fun (q : QName) (as : List Attr) =>
    as.foldl (fun u a => if a.key.pfx = none ∨ a.key.pfx = some "xmlns" then u else noteName e.scope a.key u) (noteName e.scope q used)
  match e.raw with
  | .start q as => attrs q as
  | .empty q as => attrs q as
  | _ => used

/-- the loop of `copy_buffer_till_with_namespaces`, X:644-661 -/
def copyUsedL (tag : String) : List (String × Text) → List Ev → Res PErr (List Raw × List (String × Text)) × List Ev
  | _, [] => (.err .eof, [])
  | used, e :: es =>
    let go := if headBad es then (.err .reader, e :: es) else ((copyUsedL tag (noteElement e used) es).1.map fun r => (e.raw :: r.1, r.2), (copyUsedL tag (noteElement e used) es).2)
    match e.raw with
    | .close q => if q.loc = tag then (.ok ([], used), e :: es) else go
    | _ => go

/-- `copy_buffer_till_with_namespaces`, X:637-667 -/
def copyUsed (tag : String) : P (List Raw × List (String × Text)) := fun s =>
  match copyUsedL tag [] s.evs with
  | (.ok r, es) => (if r.1.all Raw.utf8 then .ok r else .err .encoding, { s with evs := es })
  | (.err e, es) => (.err e, { s with evs := es })
  | (.fault f, es) => (.fault f, { s with evs := es })

/-- white space at the start of XML -/
def trimRawsStart (f : Text → Text) : List Raw → List Raw
  | .text t :: rs => if f t = [] then trimRawsStart f rs else .text (f t) :: rs
  | rs => rs

/-- `str::trim` of XML -/
def trimRaws (rs : List Raw) : List Raw := (trimRawsStart (fun t => (trimStart t.reverse).reverse) (trimRawsStart trimStart rs).reverse).reverse

/-- `xml_deserialize` of `DatastoreSubtreeFilter`, F:452-475, and of `StreamSubtreeFilter`, F:643-666 -/
def readSubtree (ns : Text) (key : String) : P SubtreeFilter := do
  let _ ← expectTag ns key
  let r ← copyUsed key
  close
  return ⟨r.2, trimRaws r.1⟩

/-- `xml_deserialize` of `DatastoreFilterSpec`, F:329-344, and of `StreamFilterSpec`, F:515-530 -/
def readSpec (k : FilterKind) : P FilterSpec := do
  skipText
  if ← isTag k.ns k.subtree then
    let f ← readSubtree k.ns k.subtree
    return .subtree f
  else if ← isTag k.ns k.xpath then
    let f ← readXPath k.ns k.xpath
    return .xpath f
  else raise (.wrongToken "filter")

/-! ## Filters on their own -/

/-- `StreamFilter`, F:206-212, and `SelectionFilter`, F:125-131 -/
structure NamedFilter where
  name : Text
  spec : FilterSpec
  deriving DecidableEq, Repr

/-- an element with text that is trimmed -/
def trimmedLeaf (ns : Text) (key : String) : P Text := do
  let _ ← openTag ns key
  let t ← tagString
  close
  return trim t

/-- `SelectionFilter::xml_deserialize`, F:172-204 -/
def readSelectionFilter : P NamedFilter := do
  let _ ← expectTag nsPush "selection-filter"
  skipText
  let f ← if ← isTag nsPush "filter-id" then do
      let name ← trimmedLeaf nsPush "filter-id"
      skipText
      let spec ← readSpec dsKind
      pure ⟨name, spec⟩
    else do
      let spec ← readSpec dsKind
      skipText
      let name ← trimmedLeaf nsPush "filter-id"
      pure ⟨name, spec⟩
  skipText
  close
  return f

/-- `StreamFilter::xml_deserialize`, F:258-287: if the filter comes first, its name is looked for in another namespace (F:279) -/
def readStreamFilter : P NamedFilter := do
  let _ ← expectTag nsSub "stream-filter"
  skipText
  let f ← if ← isTag nsSub "name" then do
      let name ← trimmedLeaf nsSub "name"
      skipText
      let spec ← readSpec streamKind
      pure ⟨name, spec⟩
    else do
      let spec ← readSpec streamKind
      skipText
      let name ← trimmedLeaf nsPush "name"
      pure ⟨name, spec⟩
  skipText
  close
  return f

/-- `SelectionFilter::xml_serialize`, F:144-170 -/
def writeSelectionFilter (f : NamedFilter) : W Unit := within nsPush (aroundNs nsPush "selection-filter" (do
  textNs nsPush "filter-id" f.name
  writeSpec dsKind f.spec))

/-- `StreamFilter::xml_serialize`, F:224-256 -/
def writeStreamFilter (f : NamedFilter) : W Unit := within nsSub (aroundNs nsSub "stream-filter" (do
  textNs nsSub "name" f.name
  writeSpec streamKind f.spec))

/-! ## Parts of subscriptions -/

/-- `ConfiguredSubscriptionState`, I:33-39 -/
inductive SubState where
  | valid
  | invalid
  | concluded
  deriving DecidableEq, Repr

/-- `Transport`, I:78-95 -/
inductive SubTransport where
  | udp
  | https
  | unknown
  deriving DecidableEq, Repr

/-- `Encoding`, I:137-155 -/
inductive SubEncoding where
  | xml
  | json
  | cbor
  | unknown
  deriving DecidableEq, Repr

/-- `ChangeType`, I:202-210 -/
inductive Change where
  | create
  | delete
  | insert
  | move
  | replace
  deriving DecidableEq, Repr

/-- `UpdateTrigger`, S:187-210; periods are of 32 bits -/
inductive Trigger where
  | periodic (period : Option Nat) (anchor : Option Time)
  | onChange (dampening : Option Nat) (sync : Option Bool) (excluded : Option (List Change))
  deriving DecidableEq, Repr

/-- `YangPushModuleVersion`, S:974-991 -/
structure ModuleVersion where
  name : Text
  revision : Option Text
  version : Option Text
  deriving DecidableEq, Repr

/-- `Target`, `StreamTarget` and `DatastoreTarget`, S:107-166 -/
inductive SubTarget where
  | stream (stream : Text) (filter : Selection) (replay : Option Time) (configured : Bool)
  | datastore (store : YStoreName) (selection : Selection)
  deriving DecidableEq, Repr

/-- `Subscription`, S:48-104: `id` and `dependency` are of 32 bits, `dscp` and `weighting` of 8 -/
structure Subscription where
  id : Nat
  target : SubTarget
  stop : Option Time
  dscp : Option Nat
  weighting : Option Nat
  dependency : Option Nat
  transport : Option SubTransport
  encoding : Option SubEncoding
  purpose : Option Text
  state : Option SubState
  publishers : Option (List Nat)
  trigger : Option Trigger
  versions : Option (List ModuleVersion)
  contentId : Option Text
  deriving DecidableEq, Repr

def SubState.names : List (String × SubState) := [("valid", .valid), ("invalid", .invalid), ("concluded", .concluded)]
def Change.names : List (String × Change) := [("create", .create), ("delete", .delete), ("insert", .insert), ("move", .move), ("replace", .replace)]

def SubState.name : SubState → String
  | .valid => "valid" | .invalid => "invalid" | .concluded => "concluded"
def Change.name : Change → String
  | .create => "create" | .delete => "delete" | .insert => "insert" | .move => "move" | .replace => "replace"

/-! ## Writing subscriptions -/

/-- a push with a prefix that is made only when a namespace has none, with its pop, as in S:603-623 -/
def withinAs (ns : Text) (p : String) (body : W Unit) : W Unit := fun w =>
  match nsPrefix ns w.bindings with
  | some _ => body w
  | none => (do pushNs [(ns, p)]; body; popNs) w

/-- an identity: the element declares the prefix, I:112-118, I:177-183 and S:222-227 -/
def writeIdentity (ns : Text) (key p : String) (idNs name : Text) : W Unit := do
  let e ← createNs ns key
  write [.start e.1 (e.2 ++ [⟨⟨some "xmlns", p⟩, some (escape idNs)⟩])]
  write (written (p.toList ++ ':' :: name))
  write [.close e.1]

/-- the identities of transports, I:104-111 -/
def SubTransport.identity : SubTransport → Option (Text × Text)
  | .udp => some ("urn:ietf:params:xml:ns:yang:ietf-udp-notif-transport".toList, "udp-notif".toList)
  | .https => some ("urn:ietf:params:xml:ns:yang:ietf-https-notif".toList, "https".toList)
  | .unknown => none

/-- the identities of encodings, I:162-176 -/
def SubEncoding.identity : SubEncoding → Option (Text × Text)
  | .xml => some ("urn:ietf:params:xml:ns:yang:ietf-subscribed-notifications".toList, "encode-xml".toList)
  | .json => some ("urn:ietf:params:xml:ns:yang:ietf-subscribed-notifications".toList, "encode-json".toList)
  | .cbor => some ("urn:ietf:params:xml:ns:yang:ietf-udp-notif-transport".toList, "encode-cbor".toList)
  | .unknown => none

/-- `Transport::xml_serialize`, I:97-120 -/
def writeTransport (t : SubTransport) : W Unit := writeOpt (fun i => writeIdentity nsSub "transport" "tns" i.1 i.2) t.identity

/-- `Encoding::xml_serialize`, I:157-185 -/
def writeEncoding (t : SubEncoding) : W Unit := writeOpt (fun i => writeIdentity nsSub "encoding" "enc" i.1 i.2) t.identity

/-- `DatastoreTarget::xml_serialize`, S:213-235, and `StreamTarget::xml_serialize`, S:254-301 -/
def writeSubTarget (c : Clock) : SubTarget → W Unit
  | .datastore store sel => do
    within nsPush (writeIdentity nsPush "datastore" "ds" store.pair.1 store.pair.2)
    writeSelection dsKind sel
  | .stream name filter replay configured => within nsSub (do
    textNs nsSub "stream" name
    writeSelection streamKind filter
    writeOpt (fun t => textNs nsSub "replay-start-time" (c.format t.secs)) replay
    if configured then (do let e ← createNs nsSub "configured-replay"; write [.empty e.1 e.2]) else pure ())

/-- `UpdateTrigger::xml_serialize`, S:360-437 -/
def writeTrigger (c : Clock) : Trigger → W Unit
  | .periodic period anchor => within nsPush (aroundNs nsPush "periodic" (do
    writeOpt (fun n => textNs nsPush "period" (decimal n)) period
    writeOpt (fun t => textNs nsPush "anchor-time" (c.format t.secs)) anchor))
  | .onChange dampening sync excluded => within nsPush (aroundNs nsPush "on-change" (do
    writeOpt (fun n => textNs nsPush "dampening-period" (decimal n)) dampening
    writeOpt (fun b => textNs nsPush "sync-on-start" (if b then "true".toList else "false".toList)) sync
    writeOpt (writeAll fun x => textNs nsPush "excluded-change" (Change.name x).toList) excluded))

/-- `YangPushModuleVersion::xml_serialize`, S:1014-1052 -/
def writeVersion (v : ModuleVersion) : W Unit := within nsRevision (aroundNs nsRevision "module-version" (do
  textNs nsRevision "name" v.name
  writeOpt (textNs nsRevision "revision") v.revision
  writeOpt (textNs nsRevision "version") v.version))

/-- `Subscription::xml_serialize`, S:522-668 -/
def writeSubscription (c : Clock) (s : Subscription) : W Unit := within nsSub (aroundNs nsSub "subscription" (do
  textNs nsSub "id" (decimal s.id)
  writeSubTarget c s.target
  writeOpt (fun t => textNs nsSub "stop-time" (c.format t.secs)) s.stop
  writeOpt (fun n => textNs nsSub "dscp" (decimal n)) s.dscp
  writeOpt (fun n => textNs nsSub "weighting" (decimal n)) s.weighting
  writeOpt (fun n => textNs nsSub "dependency" (decimal n)) s.dependency
  writeOpt writeTransport s.transport
  writeOpt writeEncoding s.encoding
  writeOpt (textNs nsSub "purpose") s.purpose
  writeOpt (fun x => textNs nsSub "configured-subscription-state" (SubState.name x).toList) s.state
  writeOpt (fun l => withinAs nsDistributed "dn" (writeAll (fun n => textNs nsDistributed "message-publisher-id" (decimal n)) l)) s.publishers
  writeOpt (writeTrigger c) s.trigger
  writeOpt (writeAll writeVersion) s.versions
  writeOpt (fun t => withinAs nsRevision "ypr" (textNs nsRevision "yang-library-content-id" t)) s.contentId))

/-! ## Reading subscriptions -/

/-- an element with a text that stands for a value: `open`, `tag_string`, the value, `close`, as in S:714-720 -/
def leafOf {α : Type} (ns : Text) (key : String) (f : Text → Option α) : P α := do
  let _ ← openTag ns key
  let t ← tagString
  let v ← lift .invalidValue (f t)
  close
  return v

/-- what is read by tags: a namespace, a name, and what is done at an element with that name -/
abbrev Table (α : Type) := List (Text × String × (α → P α))

/-- the first of the tags that the event that was read last has -/
def Table.at {α : Type} : Table α → List Ev → Option (α → P α)
  | [], _ => none
  | (ns, key, h) :: t, es => if isTagL ns key es then some h else Table.at t es

/-- a loop that ends at the first element that is not in the table, as in S:446-465, with a bound for the steps -/
def untilOtherF {α : Type} (t : Table α) : Nat → α → P α
  | 0, _ => fun s => (.fault .hang, s)
  | n + 1, a => do
    skipText
    fun s =>
      match t.at s.evs with
      | some h => (do let b ← h a; untilOtherF t n b) s
      | none => (.ok a, s)

def untilOther {α : Type} (t : Table α) (a : α) : P α := fun s => untilOtherF t (s.evs.length + 1) a s

/-- the children of `periodic`, S:448-460 -/
def periodicTable (c : Clock) : Table (Option Nat × Option Time) := [
  (nsPush, "period", fun a => do let v ← leafOf nsPush "period" (fun t => parseNat (2 ^ 32) (trim t)); return (some v, a.2)),
  (nsPush, "anchor-time", fun a => do let v ← leafOf nsPush "anchor-time" c.read; return (a.1, some v))]

/-- what was read of `on-change`, S:473-475 -/
structure OnChange where
  dampening : Option Nat := none
  sync : Option Bool := none
  excluded : Option (List Change) := none
  deriving DecidableEq, Repr

/-- the children of `on-change`, S:478-503 -/
def onChangeTable : Table OnChange := [
  (nsPush, "dampening-period", fun a => do let v ← leafOf nsPush "dampening-period" (fun t => parseNat (2 ^ 32) (trim t)); return { a with dampening := some v }),
  (nsPush, "sync-on-start", fun a => do let v ← leafOf nsPush "sync-on-start" (fun t => some (trim t == "true".toList)); return { a with sync := some v }),
  (nsPush, "excluded-change", fun a => do
    let v ← leafOf nsPush "excluded-change" (fun t => readEnum Change.names (trim t))
    return { a with excluded := some (a.excluded.getD [] ++ [v]) })]

/-- `UpdateTrigger::xml_deserialize`, S:439-519 -/
def readTrigger (c : Clock) : P Trigger := do
  skipText
  if ← isTag nsPush "periodic" then
    let _ ← openTag nsPush "periodic"
    let a ← untilOther (periodicTable c) (none, none)
    close
    return .periodic a.1 a.2
  else if ← isTag nsPush "on-change" then
    let _ ← openTag nsPush "on-change"
    let a ← untilOther onChangeTable {}
    close
    return .onChange a.dampening a.sync a.excluded
  else raise (.wrongToken "<periodic> or <on-change>")

/-- the loop of S:1079-1082, with a bound for the steps -/
def skipTillF (q : QName) : Nat → P Unit
  | 0 => fun s => (.fault .hang, s)
  | n + 1 => fun s => if s.evs.head?.map Ev.raw = some (.close q) then (.ok (), s) else (do skip; skipTillF q n) s

def skipTill (q : QName) : P Unit := fun s => skipTillF q (s.evs.length + 1) s

/-- `if parser.is_tag(..) { open; tag_string; trim; close }`, S:1067-1071 -/
def ifLeaf (ns : Text) (key : String) : P (Option Text) := do
  skipText
  if ← isTag ns key then
    let t ← trimmedLeaf ns key
    return some t
  else return none

/-- `YangPushModuleVersion::xml_deserialize`, S:1054-1091 -/
def readVersion : P ModuleVersion := do
  skipText
  let q ← tagName
  let _ ← openTag nsRevision "module-version"
  skipText
  let name ← trimmedLeaf nsRevision "name"
  let revision ← ifLeaf nsRevision "revision"
  let version ← ifLeaf nsRevision "version"
  skipTill q
  close
  return ⟨name, revision, version⟩

/-- `ConfiguredSubscriptionState::xml_deserialize`, I:60-76 -/
def readSubState : P SubState := do
  let _ ← openTag nsSub "configured-subscription-state"
  let t ← tagString
  close
  lift .invalidValue (readEnum SubState.names (trim t))

/-- an identity: `open`, `tag_string`, `resolve_identity_ref`, `close`, as in I:123-126 -/
def readIdentity (ns : Text) (key : String) : P (Text × Text) := do
  let _ ← openTag ns key
  let t ← tagString
  let i ← resolveIdentity (trim t)
  close
  return i

/-- `Transport::xml_deserialize`, I:122-133: the namespace of the identity is not looked at -/
def readTransport : P SubTransport := do
  let i ← readIdentity nsSub "transport"
  return if i.2 = "udp-notif".toList then .udp else if i.2 = "https".toList then .https else .unknown

/-- `Encoding::xml_deserialize`, I:187-199: the namespace of the identity is not looked at -/
def readEncoding : P SubEncoding := do
  let i ← readIdentity nsSub "encoding"
  return if i.2 = "encode-xml".toList then .xml else if i.2 = "encode-json".toList then .json else if i.2 = "encode-cbor".toList then .cbor else .unknown

/-- what was read of a subscription so far, S:675-702 -/
structure SubParts where
  id : Option Nat := none
  stop : Option Time := none
  dscp : Option Nat := none
  weighting : Option Nat := none
  dependency : Option Nat := none
  transport : Option SubTransport := none
  encoding : Option SubEncoding := none
  purpose : Option Text := none
  state : Option SubState := none
  publishers : Option (List Nat) := none
  trigger : Option Trigger := none
  versions : Option (List ModuleVersion) := none
  contentId : Option Text := none
  stream : Option Text := none
  streamFilter : Option Selection := none
  replay : Option Time := none
  configured : Bool := false
  store : Option YStoreName := none
  selection : Option Selection := none
  deriving DecidableEq, Repr

/-- the children of `subscription`, S:714-851 -/
def subTable (c : Clock) : Table SubParts := [
  (nsSub, "id", fun a => do let v ← leafOf nsSub "id" (fun t => parseNat (2 ^ 32) (trim t)); return { a with id := some v }),
  (nsSub, "stop-time", fun a => do let v ← leafOf nsSub "stop-time" c.read; return { a with stop := some v }),
  (nsSub, "dscp", fun a => do let v ← leafOf nsSub "dscp" (fun t => parseNat (2 ^ 8) (trim t)); return { a with dscp := some v }),
  (nsSub, "weighting", fun a => do let v ← leafOf nsSub "weighting" (fun t => parseNat (2 ^ 8) (trim t)); return { a with weighting := some v }),
  (nsSub, "dependency", fun a => do let v ← leafOf nsSub "dependency" (fun t => parseNat (2 ^ 32) (trim t)); return { a with dependency := some v }),
  (nsSub, "transport", fun a => do let v ← readTransport; return { a with transport := some v }),
  (nsSub, "encoding", fun a => do let v ← readEncoding; return { a with encoding := some v }),
  (nsSub, "purpose", fun a => do let v ← leafOf nsSub "purpose" (fun t => some (trim t)); return { a with purpose := some v }),
  (nsSub, "configured-subscription-state", fun a => do let v ← readSubState; return { a with state := some v }),
  (nsSub, "stream", fun a => do let v ← leafOf nsSub "stream" (fun t => some (trim t)); return { a with stream := some v }),
  (nsSub, "stream-filter-name", fun a => do let v ← leafOf nsSub "stream-filter-name" some; return { a with streamFilter := some (.byReference v) }),
  (nsSub, "stream-subtree-filter", fun a => do let v ← readSpec streamKind; return { a with streamFilter := some (.inline v) }),
  (nsSub, "stream-xpath-filter", fun a => do let v ← readSpec streamKind; return { a with streamFilter := some (.inline v) }),
  (nsSub, "replay-start-time", fun a => do let v ← leafOf nsSub "replay-start-time" c.read; return { a with replay := some v }),
  (nsSub, "configured-replay", fun a => do let _ ← openTag nsSub "configured-replay"; close; return { a with configured := true }),
  (nsPush, "datastore", fun a => do let i ← readIdentity nsPush "datastore"; return { a with store := some (YStoreName.of i.1 i.2) }),
  (nsPush, "selection-filter-ref", fun a => do let v ← leafOf nsPush "selection-filter-ref" some; return { a with selection := some (.byReference v) }),
  (nsPush, "datastore-subtree-filter", fun a => do let v ← readSpec dsKind; return { a with selection := some (.inline v) }),
  (nsPush, "datastore-xpath-filter", fun a => do let v ← readSpec dsKind; return { a with selection := some (.inline v) }),
  (nsPush, "periodic", fun a => do let v ← readTrigger c; return { a with trigger := some v }),
  (nsPush, "on-change", fun a => do let v ← readTrigger c; return { a with trigger := some v }),
  (nsDistributed, "message-publisher-id", fun a => do
    let v ← leafOf nsDistributed "message-publisher-id" (fun t => parseNat (2 ^ 32) (trim t))
    return { a with publishers := some (a.publishers.getD [] ++ [v]) }),
  (nsRevision, "module-version", fun a => do let v ← readVersion; return { a with versions := some (a.versions.getD [] ++ [v]) }),
  (nsRevision, "yang-library-content-id", fun a => do let v ← leafOf nsRevision "yang-library-content-id" (fun t => some (trim t)); return { a with contentId := some v })]

/-- the loop over the children of a subscription, S:704-856, with a bound for the steps -/
def subLoopF (c : Clock) : Nat → SubParts → P SubParts
  | 0, _ => fun s => (.fault .hang, s)
  | n + 1, a => do
    skipText
    fun s =>
      match s.evs.head?.map Ev.raw with
      | none => (.err .eof, s)
      | some (.close _) => (.ok a, s)
      | _ =>
        match (subTable c).at s.evs with
        | some h => (do let b ← h a; subLoopF c n b) s
        | none => (do skip; subLoopF c n a) s

/-- the target of the pieces, S:866-897 -/
def SubParts.target (a : SubParts) : Option SubTarget :=
  match a.store with
  | some d => some (.datastore d (a.selection.getD (.byReference [])))
  | none =>
    if a.selection.isSome then none
    else
      match a.stream with
      | some n => some (.stream n (a.streamFilter.getD (.byReference [])) a.replay a.configured)
      | none => none

/-- the end of `Subscription::xml_deserialize`, S:859-916 -/
def SubParts.done (a : SubParts) : Option Subscription :=
  match a.id, a.target with
  | some id, some t => some ⟨id, t, a.stop, a.dscp, a.weighting, a.dependency, a.transport, a.encoding, a.purpose, a.state, a.publishers, a.trigger, a.versions, a.contentId⟩
  | _, _ => none

/-- `Subscription::xml_deserialize`, S:670-917 -/
def readSubscription (c : Clock) : P Subscription := do
  skipText
  let _ ← openTag nsSub "subscription"
  let a ← (fun s => subLoopF c (s.evs.length + 1) {} s : P SubParts)
  close
  lift (.wrongToken "<id>, <stream> or <datastore>") a.done

end Verif.Xml
