import Verif.NetconfXml.Messages
/-!
# The YANG library of a device as XML

`L` stands for `crates/netconf-proto/src/yanglib.rs`, `X` for `crates/netconf-proto/src/xml_utils.rs`. Maps (`IndexMap`) are lists of their values in the order of
the first insertion; the keys are parts of the values. Only `ImportOnlyModule::new` takes a map of its caller, whose keys are taken to be the names of the submodules.
-/
namespace Verif.Xml
open Verif.Collector (Text trim)

/-- `YANG_LIBRARY_AUGMENTED_BY_NS`, `lib.rs:45-48` -/
def nsAugmentedBy : Text := "urn:ietf:params:xml:ns:yang:ietf-yang-library-augmentedby".toList
/-- `YANG_DATASTORES_NS_STR`, `lib.rs:49` -/
def nsDatastores : Text := "urn:ietf:params:xml:ns:yang:ietf-datastores".toList

/-- `Submodule`, `L:1267-1274` -/
structure YSubmodule where
  name : Text
  revision : Option Text
  locations : List Text
  deriving DecidableEq, Repr

/-- `Module`, `L:1053-1076` -/
structure YModule where
  name : Text
  revision : Option Text
  uri : Text
  features : List Text
  deviations : List Text
  submodules : List YSubmodule
  augmentedBy : List Text
  locations : List Text
  deriving DecidableEq, Repr

/-- `ImportOnlyModule`, `L:1342-1349` -/
structure YImport where
  name : Text
  revision : Option Text
  uri : Text
  locations : List Text
  submodules : List YSubmodule
  deriving DecidableEq, Repr

/-- `ModuleSet`, `L:886-895`: the modules to import only are kept by name and then by revision -/
structure YSet where
  name : Text
  modules : List YModule
  imports : List (Text × List YImport)
  deriving DecidableEq, Repr

/-- `Schema`, `L:1434-1440` -/
structure YSchema where
  name : Text
  sets : List Text
  deriving DecidableEq, Repr

/-- `DatastoreName`, `L:1502-1525` -/
inductive YStoreName where
  | running
  | candidate
  | startup
  | intended
  | operational
  | unknown (ns name : Text)
  deriving DecidableEq, Repr

/-- `Datastore`, `L:1567-1571` -/
structure YStore where
  name : YStoreName
  schema : Text
  deriving DecidableEq, Repr

/-- `YangLibrary`, `L:21-28` -/
structure YLib where
  contentId : Text
  sets : List YSet
  schemas : List YSchema
  stores : List YStore
  deriving DecidableEq, Repr

/-- `IndexMap::insert`: in place of a value with the same key, or at the end -/
def insertBy {α κ : Type} [DecidableEq κ] (key : α → κ) (x : α) : List α → List α
  | [] => [x]
  | y :: ys => if key y = key x then x :: ys else y :: insertBy key x ys

/-- values inserted one after the other -/
def mapOf {α κ : Type} [DecidableEq κ] (key : α → κ) (xs : List α) : List α := xs.foldl (fun m x => insertBy key x m) []

/-- `import_only_map.entry(..).or_insert(..)` and `insert`, `L:903-908` -/
def insertImport (x : YImport) : List (Text × List YImport) → List (Text × List YImport)
  | [] => [(x.name, [x])]
  | (n, g) :: m => if n = x.name then (n, insertBy YImport.revision x g) :: m else (n, g) :: insertImport x m

/-- the map of the modules to import only, `L:902-908` -/
def importsOf (xs : List YImport) : List (Text × List YImport) := xs.foldl (fun m x => insertImport x m) []

/-- `ModuleSet::new`, `L:897-914` -/
def YSet.make (name : Text) (modules : List YModule) (imports : List YImport) : YSet := ⟨name, mapOf YModule.name modules, importsOf imports⟩

/-- `YangLibrary::new`, `L:31-55` -/
def YLib.make (contentId : Text) (sets : List YSet) (schemas : List YSchema) (stores : List YStore) : YLib :=
  ⟨contentId, mapOf YSet.name sets, mapOf YSchema.name schemas, mapOf YStore.name stores⟩

/-- `From<(&str, &str)> for DatastoreName`, `L:1530-1551` -/
def YStoreName.of (ns name : Text) : YStoreName :=
  if ns = nsDatastores then
    if name = "running".toList then .running
    else if name = "candidate".toList then .candidate
    else if name = "startup".toList then .startup
    else if name = "intended".toList then .intended
    else if name = "operational".toList then .operational
    else .unknown ns name
  else .unknown ns name

/-- `From<DatastoreName> for (Box<str>, Box<str>)`, `L:1553-1566` -/
def YStoreName.pair : YStoreName → Text × Text
  | .running => (nsDatastores, "running".toList)
  | .candidate => (nsDatastores, "candidate".toList)
  | .startup => (nsDatastores, "startup".toList)
  | .intended => (nsDatastores, "intended".toList)
  | .operational => (nsDatastores, "operational".toList)
  | .unknown ns name => (ns, name)

/-! ## Reading -/

/-- `parse_yang_lib_name` and `parse_yang_lib_namespace`, `L:1644-1654` and `L:1699-1708` -/
def readName (key : String) : P Text := do
  skipText
  let _ ← openTag nsYangLibrary key
  let t ← tagString
  close
  return trim t

/-- `parse_yang_lib_revision`, `L:1668-1683` -/
def readRevision : P (Option Text) := do
  skipText
  match ← maybeOpen nsYangLibrary "revision" with
  | some _ =>
    let t ← tagString
    close
    return some (trim t)
  | none => return none

/-- the loops over elements with text, as in `L:1722-1737` and `L:1154-1187`, with a bound for the steps -/
def leavesF (ns : Text) (key : String) : Nat → P (List Text)
  | 0 => fun s => (.fault .hang, s)
  | n + 1 => do
    match ← maybeOpen ns key with
    | some _ =>
      let t ← tagString
      close
      skipText
      return trim t :: (← leavesF ns key n)
    | none => return []

def leaves (ns : Text) (key : String) : P (List Text) := fun s => leavesF ns key (s.evs.length + 1) s

/-- the loops `while parser.is_tag(..)`, with a bound for the steps -/
def whileTagF {α : Type} (key : String) (p : P α) : Nat → P (List α)
  | 0 => fun s => (.fault .hang, s)
  | n + 1 => do
    if ← isTag nsYangLibrary key then
      let v ← p
      skipText
      return v :: (← whileTagF key p n)
    else return []

def whileTag {α : Type} (key : String) (p : P α) : P (List α) := fun s => whileTagF key p (s.evs.length + 1) s

/-- `Submodule::xml_deserialize`, `L:1304-1315` -/
def readSubmodule : P YSubmodule := do
  skipText
  let _ ← openTag nsYangLibrary "submodule"
  let name ← readName "name"
  let revision ← readRevision
  let locations ← leaves nsYangLibrary "location"
  close
  return ⟨name, revision, locations⟩

/-- `Module::xml_deserialize`, `L:1139-1200` -/
def readYModule : P YModule := do
  skipText
  let _ ← openTag nsYangLibrary "module"
  let name ← readName "name"
  let revision ← readRevision
  let uri ← readName "namespace"
  let locations ← leaves nsYangLibrary "location"
  let submodules ← whileTag "submodule" readSubmodule
  let features ← leaves nsYangLibrary "feature"
  let deviations ← leaves nsYangLibrary "deviation"
  let augmentedBy ← leaves nsAugmentedBy "augmented-by"
  close
  return ⟨name, revision, uri, features, deviations, submodules, augmentedBy, locations⟩

/-- `ImportOnlyModule::xml_deserialize`, `L:1389-1411` -/
def readImport : P YImport := do
  skipText
  let _ ← openTag nsYangLibrary "import-only-module"
  let name ← readName "name"
  let revision ← readRevision
  let uri ← readName "namespace"
  let locations ← leaves nsYangLibrary "location"
  let submodules ← whileTag "submodule" readSubmodule
  close
  return ⟨name, revision, uri, locations, mapOf YSubmodule.name submodules⟩

/-- `ModuleSet::xml_deserialize`, `L:994-1019` -/
def readSet : P YSet := do
  skipText
  let _ ← openTag nsYangLibrary "module-set"
  let name ← readName "name"
  skipText
  let modules ← whileTag "module" readYModule
  let imports ← whileTag "import-only-module" readImport
  close
  return YSet.make name modules imports

/-- the name of a module set in a schema, `L:1464-1468` -/
def readSetName : P Text := do
  let _ ← openTag nsYangLibrary "module-set"
  let t ← tagString
  close
  return trim t

/-- `Schema::xml_deserialize`, `L:1456-1473` -/
def readSchema : P YSchema := do
  skipText
  let _ ← openTag nsYangLibrary "schema"
  let name ← readName "name"
  skipText
  let sets ← whileTag "module-set" readSetName
  close
  return ⟨name, sets⟩

/-- a name in a text: what is before the first colon is the prefix -/
def splitName (t : Text) : QName × Text :=
  match t.span (· ≠ ':') with
  | (a, ':' :: b) => (⟨some (String.ofList a), String.ofList b⟩, b)
  | _ => (⟨none, String.ofList t⟩, t)

/-- `resolve_identity_ref`, `X:511-530`: with the bindings that are in force at the event that was read last -/
def resolveIdentity (t : Text) : P (Text × Text) := fun s =>
  match ((s.evs.head?.map Ev.scope).getD []).resolve (splitName (trim t)).1 with
  | .bound ns => (.ok (ns, (splitName (trim t)).2), s)
  | _ => (.err .invalidValue, s)

/-- `Datastore::xml_deserialize`, `L:1587-1608` -/
def readStore : P YStore := do
  skipText
  let _ ← openTag nsYangLibrary "datastore"
  skipText
  let _ ← openTag nsYangLibrary "name"
  let t ← tagString
  let id ← resolveIdentity (trim t)
  close
  skipText
  let _ ← openTag nsYangLibrary "schema"
  let u ← tagString
  close
  close
  return ⟨YStoreName.of id.1 id.2, trim u⟩

/-- what was read of a library so far, `L:813-816` -/
structure YParts where
  sets : List YSet := []
  schemas : List YSchema := []
  stores : List YStore := []
  contentId : Option Text := none

/-- the loop over the children of a library, `L:818-842`, with a bound for the steps -/
def childrenF (q : QName) : Nat → YParts → P YParts
  | 0, _ => fun s => (.fault .hang, s)
  | n + 1, a => fun s =>
    if s.evs.head?.map Ev.raw = some (.close q) then (.ok a, s)
    else if isTagL nsYangLibrary "module-set" s.evs then (do let x ← readSet; skipText; childrenF q n { a with sets := a.sets ++ [x] }) s
    else if isTagL nsYangLibrary "schema" s.evs then (do let x ← readSchema; skipText; childrenF q n { a with schemas := a.schemas ++ [x] }) s
    else if isTagL nsYangLibrary "datastore" s.evs then (do let x ← readStore; skipText; childrenF q n { a with stores := a.stores ++ [x] }) s
    else if isTagL nsYangLibrary "content-id" s.evs then
      (do let _ ← openTag nsYangLibrary "content-id"; let t ← tagString; close; skipText; childrenF q n { a with contentId := some (trim t) }) s
    else (.err (.wrongToken "<module-set>, <schema>, <datastore>, <content-id>"), s)

def children (q : QName) : P YParts := fun s => childrenF q (s.evs.length + 1) {} s

/-- the name of the tag that was read last -/
def tagName : P QName := fun s =>
  match s.evs.head?.map Ev.raw with
  | some (.start q _) => (.ok q, s)
  | some (.empty q _) => (.ok q, s)
  | _ => (.ok ⟨none, ""⟩, s)

/-- `YangLibrary::xml_deserialize`, `L:802-851` -/
def readYangLibrary : P YLib := do
  skipDecl
  skipText
  let q ← tagName
  let _ ← openTag nsYangLibrary "yang-library"
  skipText
  let a ← children q
  let contentId ← lift .missingElement a.contentId
  close
  return YLib.make contentId a.sets a.schemas a.stores

/-! ## Writing -/

/-- an element around what something writes, with `create_ns_element` -/
def aroundNs (ns : Text) (name : String) (body : W Unit) : W Unit := do
  let e ← createNs ns name
  write [.start e.1 e.2]
  body
  write [.close e.1]

/-- an element with a text, as in `serialize_yang_lib_name`, `L:1656-1666` -/
def textNs (ns : Text) (name : String) (t : Text) : W Unit := leafNs ns name (written t)

/-- `Submodule::xml_serialize`, `L:1317-1341` -/
def writeSubmodule (m : YSubmodule) : W Unit := within nsYangLibrary (aroundNs nsYangLibrary "submodule" (do
  textNs nsYangLibrary "name" m.name
  writeOpt (textNs nsYangLibrary "revision") m.revision
  writeAll (textNs nsYangLibrary "location") m.locations))

/-- `Module::xml_serialize`, `L:1202-1264` -/
def writeModule (m : YModule) : W Unit := within nsYangLibrary (aroundNs nsYangLibrary "module" (do
  textNs nsYangLibrary "name" m.name
  writeOpt (textNs nsYangLibrary "revision") m.revision
  textNs nsYangLibrary "namespace" m.uri
  writeAll (textNs nsYangLibrary "location") m.locations
  writeAll writeSubmodule m.submodules
  writeAll (textNs nsYangLibrary "feature") m.features
  writeAll (textNs nsYangLibrary "deviation") m.deviations
  writeAll (fun t => within nsAugmentedBy (textNs nsAugmentedBy "augmented-by" t)) m.augmentedBy))

/-- `ImportOnlyModule::xml_serialize`, `L:1413-1433` -/
def writeImport (m : YImport) : W Unit := aroundNs nsYangLibrary "import-only-module" (do
  textNs nsYangLibrary "name" m.name
  writeOpt (textNs nsYangLibrary "revision") m.revision
  textNs nsYangLibrary "namespace" m.uri
  writeAll (textNs nsYangLibrary "location") m.locations
  writeAll writeSubmodule m.submodules)

/-- `ModuleSet::xml_serialize`, `L:1021-1051` -/
def writeSet (m : YSet) : W Unit := within nsYangLibrary (aroundNs nsYangLibrary "module-set" (do
  textNs nsYangLibrary "name" m.name
  writeAll writeModule m.modules
  writeAll (fun g : Text × List YImport => writeAll writeImport g.2) m.imports))

/-- `Schema::xml_serialize`, `L:1475-1499` -/
def writeSchema (m : YSchema) : W Unit := within nsYangLibrary (aroundNs nsYangLibrary "schema" (do
  textNs nsYangLibrary "name" m.name
  writeAll (textNs nsYangLibrary "module-set") m.sets))

/-- `Datastore::xml_serialize`, `L:1611-1642` -/
def writeStore (m : YStore) : W Unit := within nsYangLibrary (aroundNs nsYangLibrary "datastore" (do
  (do
    let e ← createNs nsYangLibrary "name"
    write [.start e.1 (e.2 ++ [⟨⟨some "xmlns", "ds"⟩, some (escape m.name.pair.1)⟩])]
    write (written ("ds:".toList ++ m.name.pair.2))
    write [.close e.1])
  textNs nsYangLibrary "schema" m.schema))

/-- `YangLibrary::xml_serialize`, `L:853-884` -/
def writeYangLibrary (m : YLib) : W Unit := within nsYangLibrary (aroundNs nsYangLibrary "yang-library" (do
  writeAll writeSet m.sets
  writeAll writeSchema m.schemas
  writeAll writeStore m.stores
  textNs nsYangLibrary "content-id" m.contentId))

/-- the YANG library of replies -/
def yangLib : Library YLib := ⟨readYangLibrary, writeYangLibrary⟩

end Verif.Xml
