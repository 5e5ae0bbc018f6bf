import Verif.YangPush.LoadingSpec
/-! # What extending of YANG libraries is to do -/
namespace Verif.YangPush.Load
open Collector

/-- every module and submodule is listed once -/
def Distinct (l : Library) : Prop := (l.entries.map (·.1)).Nodup

/-- modules that are imported only are listed by their names, in one revision each -/
def Single (l : Library) : Prop := ∀ s ∈ l.sets, ∀ x ∈ s.imports, ∃ m, x.2 = [m] ∧ m.name = x.1

/-- a library whose modules and submodules are listed once each and have schemas -/
structure Whole (l : Library) (schemas : List (String × String)) : Prop where
  distinct : Distinct l
  single : Single l
  given : ∀ n revision, Lists l n revision → (schemas.look n).isSome

/-- a library can be extended with another: modules of both that are imported only have the same revision, and modules of both that have the same schema list the same submodules -/
structure Extends (l : Library) (schemas : List (String × String)) (ext : Library) (extSchemas : List (String × String)) : Prop where
  imports : ∀ e m, IsImport l e → IsImport ext m → e.name = m.name → e.revision = m.revision
  modules : ∀ e m, IsModule l e → IsModule ext m → e.name = m.name → schemas.look e.name = extSchemas.look e.name → ∀ u ∈ m.submodules, ∃ v ∈ e.submodules, v.name = u.name

end Verif.YangPush.Load
