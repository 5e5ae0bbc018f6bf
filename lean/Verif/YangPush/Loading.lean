import Verif.YangPush.Library
/-!
# Loading of YANG libraries from devices

`N` stands for `crates/netconf-proto/src/client.rs` and `Y` for `crates/netconf-proto/src/yanglib.rs`.

What a device answers and what is read from a schema are parameters, as is the digest that content identifiers are; it is given all texts as one, as they are hashed one after the other. An
`IndexMap` of the revisions of a module that is imported only is the list of its values. What `AddResult` says is left out.
-/
namespace Verif.YangPush.Load
open Collector

/-- `YangDependencies`, `yangparser.rs:31-35`, with the names only, as revisions are not looked at -/
structure Deps where
  imports : List String
  includes : List String
  deriving DecidableEq, Repr

/-- a device: the schemas it gives, `N:484-520`, and what is read from a schema, `extract_yang_dependencies` -/
structure Device where
  schema : String → Option String → Option String
  deps : String → Option Deps

/-- `ModuleType`, `N:817-822` -/
inductive Work where
  | full (m : Module)
  | fullSub (parent : String) (u : Submodule)
  | imported (m : ImportOnly)
  | importedSub (parent : String) (u : Submodule)
  deriving DecidableEq, Repr

/-- `N:824-831` -/
def Work.name : Work → String
  | .full m => m.name
  | .fullSub _ u => u.name
  | .imported m => m.name
  | .importedSub _ u => u.name

/-- `N:833-840` -/
def Work.revision : Work → Option String
  | .full m => m.revision
  | .fullSub _ u => u.revision
  | .imported m => m.revision
  | .importedSub _ u => u.revision

/-- `N:842-849` -/
def Work.deviations : Work → List String
  | .full m => m.deviations
  | _ => []

/-- `N:851-858` -/
def Work.augmentedBy : Work → List String
  | .full m => m.augmentedBy
  | _ => []

/-- `CompatabilityResult`, `Y:2215-2230` -/
inductive Compat where
  | same
  | sameCompatible
  | sameIncompatible
  | compatible
  | incompatible
  deriving DecidableEq, Repr

/-- `BackwardCompatibilityChecker`, `Y:2234-2249`, and the order that features have in a `HashSet`, `Y:1820-1825` -/
structure Checker where
  check : String → Option String → Option String → String → String → List String → List String → Compat
  merge : List String → List String → List String

/-- `PermissiveVersionChecker`, `Y:2251-2274` -/
def permissive (merge : List String → List String → List String) : Checker where
  check _ old new oldSchema newSchema oldFeatures newFeatures :=
    if old.isNone = new.isNone ∧ oldSchema = newSchema then if oldFeatures = newFeatures then .same else .sameCompatible else .compatible
  merge

/-- `DependencyError`, `Y:2290-2312`, and errors of devices and of reading schemas -/
inductive LoadError where
  | conflict (name : String)
  | moduleNotFound (name : String)
  | submoduleNotFound (parent name : String)
  | schemaNotFound (name : String)
  | device (name : String)
  | unreadable (name : String)
  deriving DecidableEq, Repr

deriving instance DecidableEq for Except

/-- `ModuleSetBuilder`, `Y:1762-1769` -/
structure Builder where
  modules : List (String × Module)
  imports : List (String × List ImportOnly)
  schemas : List (String × String)
  submodules : List (String × Submodule)
  deriving DecidableEq, Repr

/-- `ModuleSetBuilder::new`, `Y:1771-1777` -/
def Builder.empty : Builder := ⟨[], [], [], []⟩

/-- `add_module`, `Y:1788-1859` -/
def Builder.addModule (k : Checker) (b : Builder) (m : Module) (schema : String) : Except LoadError Builder :=
  match b.modules.look m.name with
  | none => .ok { b with schemas := put b.schemas m.name schema, modules := put b.modules m.name m }
  | some e =>
    match k.check e.name e.revision m.revision ((b.schemas.look e.name).getD schema) schema e.features m.features with
    | .same => .ok b
    | .compatible | .sameCompatible =>
      .ok { b with schemas := put b.schemas m.name schema, modules := put b.modules m.name { m with features := k.merge e.features m.features } }
    | .incompatible | .sameIncompatible => .error (.conflict m.name)

/-- what both kinds of submodules have in common, `Y:1896-1938` and `Y:2045-2086` -/
def Builder.addSub (k : Checker) (b : Builder) (u : Submodule) (schema : String) : Except LoadError Builder :=
  match b.submodules.look u.name with
  | none => .ok { b with schemas := put b.schemas u.name schema, submodules := put b.submodules u.name u }
  | some e =>
    match k.check u.name e.revision u.revision ((b.schemas.look u.name).getD schema) schema [] [] with
    | .same => .ok b
    | .compatible | .sameCompatible => .ok { b with schemas := put b.schemas u.name schema, submodules := put b.submodules u.name u }
    | .incompatible | .sameIncompatible => .error (.conflict u.name)

/-- `add_submodule_for_module`, `Y:1865-1939` -/
def Builder.addSubmodule (k : Checker) (b : Builder) (parent : String) (u : Submodule) (schema : String) : Except LoadError Builder :=
  match b.modules.look parent with
  | none => .error (.moduleNotFound parent)
  | some m => if m.submodules.any fun v => v.name = u.name then b.addSub k u schema else .error (.submoduleNotFound parent u.name)

/-- `add_import_only_module`, `Y:1944-2018`: one that is there is to have the same revision -/
def Builder.addImported (k : Checker) (b : Builder) (m : ImportOnly) (schema : String) : Except LoadError Builder :=
  match b.imports.look m.name with
  | none => .ok { b with schemas := put b.schemas m.name schema, imports := put b.imports m.name [m] }
  | some es =>
    match es.find? fun e => e.revision = m.revision with
    | none => .error (.moduleNotFound m.name)
    | some e =>
      match k.check m.name e.revision m.revision ((b.schemas.look m.name).getD schema) schema [] [] with
      | .same => .ok b
      | .compatible | .sameCompatible => .ok { b with schemas := put b.schemas m.name schema, imports := put b.imports m.name [m] }
      | .incompatible | .sameIncompatible => .error (.conflict m.name)

/-- `add_submodule_for_import_only_module`, `Y:2025-2087`: whether the module lists the submodule is not looked at -/
def Builder.addImportedSub (k : Checker) (b : Builder) (parent : String) (u : Submodule) (schema : String) : Except LoadError Builder :=
  if (b.imports.look parent).isSome then b.addSub k u schema else .error (.moduleNotFound parent)

/-- the end of the loop of `load_from_modules`, `N:683-709` -/
def Builder.add (k : Checker) (b : Builder) : Work → String → Except LoadError Builder
  | .full m, schema => b.addModule k m schema
  | .fullSub p u, schema => b.addSubmodule k p u schema
  | .imported m, schema => b.addImported k m schema
  | .importedSub p u, schema => b.addImportedSub k p u schema

/-- what is hashed, `Y:2097-2113`, or `none` for the panic when there is no schema for a submodule -/
def Builder.texts (b : Builder) : Option (List String) :=
  (b.modules.flatMap (fun x => x.2.features.map some ++ x.2.submodules.map (fun u => b.schemas.look u.name) ++ [b.schemas.look x.2.name]) ++
    b.imports.flatMap (fun x => x.2.flatMap fun m => m.submodules.map (fun u => b.schemas.look u.name) ++ [b.schemas.look m.name])).mapM id

/-- `build_yang_lib`, `Y:2094-2133`, or `none` for a panic -/
def Builder.build (digest : String → String) (b : Builder) : Option (Library × List (String × String)) :=
  b.texts.map fun ts => (⟨digest (String.join ts), [⟨"ALL", b.modules.map (·.2), b.imports⟩]⟩, b.schemas)

/-- what the seeds stand for, `N:591-606` -/
def seedWork (lib : Library) : List String → Except LoadError (List Work)
  | [] => .ok []
  | n :: ns =>
    match lib.findModule n with
    | some m => (seedWork lib ns).map (.full m :: ·)
    | none =>
      match lib.findImports n with
      | some ms => (seedWork lib ns).map (ms.map .imported ++ ·)
      | none => .error (.moduleNotFound n)

/-- what an import stands for, `N:627-639` -/
def importWork (lib : Library) (n : String) : List Work :=
  match lib.findModule n with
  | some m => [.full m]
  | none => ((lib.findImports n).getD []).map .imported

/-- whether what is included belongs to a module that is imported only, `N:650-652` -/
def Work.isFull : Work → Bool
  | .full _ => true
  | .fullSub _ _ => true
  | _ => false

/-- what an include stands for, `N:642-664` -/
def includeWork (lib : Library) (w : Work) (n : String) : List Work :=
  match lib.findModule n with
  | some m => [.full m]
  | none =>
    match lib.findSubmodule n with
    | some u => if w.isFull then [.fullSub w.name u] else [.importedSub w.name u]
    | none => []

/-- what a deviation or an augmentation stands for, `N:667-673`, `N:676-682` -/
def moduleWork (lib : Library) (n : String) : List Work := (lib.findModule n).toList.map .full

/-- what is to be done after a module, `N:626-682`, except for what was done already -/
def nextWork (lib : Library) (visited : List String) (w : Work) (d : Deps) : List Work :=
  (d.imports.flatMap (importWork lib) ++ d.includes.flatMap (includeWork lib w) ++ w.deviations.flatMap (moduleWork lib) ++
    w.augmentedBy.flatMap (moduleWork lib)).filter fun x => x.name ∉ visited

/-- the variables of `load_from_modules`, and what was asked of the device -/
structure LoadState where
  queue : List Work
  visited : List String
  builder : Builder
  asked : List (String × Option String)

/-- the loop of `load_from_modules`, `N:609-710`, of at most so many rounds -/
def loop (lib : Library) (dev : Device) (k : Checker) : Nat → LoadState → Option (Except LoadError Builder × List (String × Option String))
  | 0, _ => none
  | n + 1, s =>
    match s.queue with
    | [] => some (.ok s.builder, s.asked)
    | w :: queue =>
      if w.name ∈ s.visited then loop lib dev k n { s with queue }
      else
        let asked := s.asked ++ [(w.name, w.revision)]
        match dev.schema w.name w.revision with
        | none => some (.error (.device w.name), asked)
        | some schema =>
          match dev.deps schema with
          | none => some (.error (.unreadable w.name), asked)
          | some d =>
            match s.builder.add k w schema with
            | .error e => some (.error e, asked)
            | .ok builder => loop lib dev k n ⟨queue ++ nextWork lib (s.visited ++ [w.name]) w d, s.visited ++ [w.name], builder, asked⟩

/-- `load_from_modules`, `N:577-714`, of at most so many rounds, up to `build_yang_lib` -/
def load (lib : Library) (dev : Device) (k : Checker) (seed : List String) (n : Nat) : Option (Except LoadError Builder × List (String × Option String)) :=
  match seedWork lib seed with
  | .error e => some (.error e, [])
  | .ok queue => loop lib dev k n ⟨queue, [], .empty, []⟩

end Verif.YangPush.Load
