import Verif.YangPush.Loading
import Verif.YangPush.LibrarySpec
/-! # What loading of YANG libraries is to do -/
namespace Verif.YangPush.Load
open Collector

/-- a library has a module that is not only imported -/
def HasModule (lib : Library) (n : String) : Prop := ∃ s ∈ lib.sets, ∃ m ∈ s.modules, m.name = n

/-- a library has a module that is imported only -/
def HasImport (lib : Library) (n : String) : Prop := ∃ s ∈ lib.sets, ∃ x ∈ s.imports, ∃ m ∈ x.2, m.name = n

/-- a library has a submodule of a module that is not only imported -/
def HasSubmodule (lib : Library) (n : String) : Prop := ∃ s ∈ lib.sets, ∃ m ∈ s.modules, ∃ u ∈ m.submodules, u.name = n

/-- a module `n` whose schema has the dependencies `d` needs the module or submodule `m`, and the library lists it. If several modules have a name, the first counts. -/
def Edge (lib : Library) (n : String) (d : Deps) (m : String) : Prop :=
  (m ∈ d.imports ∧ (HasModule lib m ∨ HasImport lib m)) ∨ (m ∈ d.includes ∧ (HasModule lib m ∨ HasSubmodule lib m)) ∨
  ∃ x, lib.findModule n = some x ∧ (m ∈ x.deviations ∨ m ∈ x.augmentedBy) ∧ HasModule lib m

/-- what seeds need, with the schemas that a device gave -/
inductive Needed (lib : Library) (deps : String → Option Deps) (schemas : List (String × String)) (seed : List String) : String → Prop
  | seed {n : String} : n ∈ seed → Needed lib deps schemas seed n
  | edge {n m schema : String} {d : Deps} : Needed lib deps schemas seed n → schemas.look n = some schema → deps schema = some d → Edge lib n d m → Needed lib deps schemas seed m

/-- loading ends with this, whatever the number of rounds it takes -/
def Ends (lib : Library) (dev : Device) (k : Checker) (seed : List String) (r : Except LoadError Builder) (asked : List (String × Option String)) : Prop :=
  ∃ n, load lib dev k seed n = some (r, asked)

/-- a module of a library that is not only imported -/
def IsModule (lib : Library) (m : Module) : Prop := ∃ s ∈ lib.sets, m ∈ s.modules

/-- a module of a library that is imported only -/
def IsImport (lib : Library) (m : ImportOnly) : Prop := ∃ s ∈ lib.sets, ∃ x ∈ s.imports, m ∈ x.2

/-- what makes loading go well: the device gives a schema that can be read for all that the library lists; those of modules include exactly the submodules that are listed with
them, and those of submodules include none but those; modules that are imported only have and include none. Submodules of one name have one revision. -/
structure Sound (lib : Library) (dev : Device) : Prop where
  given : ∀ n revision, Lists lib n revision → ∃ schema d, dev.schema n revision = some schema ∧ dev.deps schema = some d
  listed : ∀ m schema d, IsModule lib m → dev.schema m.name m.revision = some schema → dev.deps schema = some d → ∀ u ∈ m.submodules, u.name ∈ d.includes
  included : ∀ m schema d, IsModule lib m → dev.schema m.name m.revision = some schema → dev.deps schema = some d → ∀ i ∈ d.includes, HasSubmodule lib i →
    ∃ u ∈ m.submodules, u.name = i
  nested : ∀ m, IsModule lib m → ∀ u ∈ m.submodules, ∀ schema d, dev.schema u.name u.revision = some schema → dev.deps schema = some d → ∀ i ∈ d.includes,
    HasSubmodule lib i → ∃ u' ∈ m.submodules, u'.name = i
  once : ∀ m m' u u', IsModule lib m → IsModule lib m' → u ∈ m.submodules → u' ∈ m'.submodules → u.name = u'.name → u.revision = u'.revision
  plain : Plain lib
  simple : ∀ m schema d, IsImport lib m → dev.schema m.name m.revision = some schema → dev.deps schema = some d → ∀ i ∈ d.includes, ¬ HasSubmodule lib i

end Verif.YangPush.Load
