import Verif.Collector.Types
/-!
# YANG libraries

`Y` stands for `crates/netconf-proto/src/yanglib.rs`. An `IndexMap` whose keys are the names of its values is the list of its values. Locations and namespaces are left out, as
nothing that is modelled depends on them.
-/
namespace Verif.YangPush

/-- `Submodule`, `Y:1267-1276` -/
structure Submodule where
  name : String
  revision : Option String
  deriving DecidableEq, Repr

/-- `Module`, `Y:1053-1080` -/
structure Module where
  name : String
  revision : Option String
  features : List String := []
  deviations : List String := []
  submodules : List Submodule := []
  augmentedBy : List String := []
  deriving DecidableEq, Repr

/-- `ImportOnlyModule`, `Y:1342-1349` -/
structure ImportOnly where
  name : String
  revision : Option String
  submodules : List Submodule := []
  deriving DecidableEq, Repr

/-- `ModuleSet`, `Y:886-895`: modules that are imported only are there by name, in one or several revisions -/
structure ModuleSet where
  name : String
  modules : List Module
  imports : List (String × List ImportOnly)
  deriving DecidableEq, Repr

/-- `YangLibrary`, `Y:20-28`, without its schemas and datastores -/
structure Library where
  contentId : String
  sets : List ModuleSet
  deriving DecidableEq, Repr

/-- `find_module`, `Y:74-81` -/
def Library.findModule (l : Library) (name : String) : Option Module :=
  l.sets.findSome? fun s => s.modules.find? fun m => m.name = name

/-- `find_submodule`, `Y:84-95`: those of modules that are imported only are not found -/
def Library.findSubmodule (l : Library) (name : String) : Option Submodule :=
  l.sets.findSome? fun s => s.modules.findSome? fun m => m.submodules.find? fun u => u.name = name

/-- `find_import_module`, `Y:100-111` -/
def Library.findImports (l : Library) (name : String) : Option (List ImportOnly) :=
  l.sets.findSome? fun s => s.imports.look name

/-- what schemas are loaded for, in the order of `load_schemas_from_search_path`, `Y:626-668`: modules with their submodules, then those that are imported only -/
def ModuleSet.entries (s : ModuleSet) : List (String × Option String) :=
  s.modules.flatMap (fun m => (m.name, m.revision) :: m.submodules.map fun u => (u.name, u.revision)) ++
  s.imports.flatMap fun x => x.2.flatMap fun m => (m.name, m.revision) :: m.submodules.map fun u => (u.name, u.revision)

/-- all modules and submodules of a library -/
def Library.entries (l : Library) : List (String × Option String) := l.sets.flatMap ModuleSet.entries

/-- the name of the file of a module in a revision, `Y:696` -/
def revisionFile (name revision : String) : String := name ++ "@" ++ revision ++ ".yang"

/-- `load_yang_schema_from_search_path`, `Y:688-725`, from the files of a directory -/
def loadSchema (files : List (String × String)) (name : String) (revision : Option String) : Option String :=
  match revision.bind fun r => files.look (revisionFile name r) with
  | some schema => some schema
  | none => files.look (name ++ ".yang")

/-- the loop of `load_schemas_from_search_path`, `Y:630-666`: it ends with the first schema that cannot be loaded -/
def loadEntries (files : List (String × String)) : List (String × Option String) → List (String × String) → Option (List (String × String))
  | [], schemas => some schemas
  | (name, revision) :: es, schemas =>
    match loadSchema files name revision with
    | some schema => loadEntries files es (Collector.put schemas name schema)
    | none => none

/-- `load_schemas_from_search_path`, `Y:626-668` -/
def Library.loadSchemas (l : Library) (files : List (String × String)) : Option (List (String × String)) := loadEntries files l.entries []

end Verif.YangPush
