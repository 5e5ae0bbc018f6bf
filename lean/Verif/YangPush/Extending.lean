import Verif.YangPush.Loading
/-!
# Extending of YANG libraries

`Y` stands for `crates/netconf-proto/src/yanglib.rs`. Which of two errors comes first is not modelled where schemas of submodules are looked for before their modules are added.
-/
namespace Verif.YangPush.Load
open Collector

/-- modules and what is added with them: the submodules -/
def Work.subs : Work → List Work
  | .full m => m.submodules.map (.fullSub m.name)
  | .imported m => m.submodules.map (.importedSub m.name)
  | _ => []

/-- what `into_module_set_builder` goes through, `Y:735-803`: modules, then all revisions of those that are imported only -/
def headsOf (l : Library) : List Work := l.sets.flatMap fun s => s.modules.map .full ++ s.imports.flatMap fun x => x.2.map .imported

/-- what `extend_from_yang_lib` goes through, `Y:2142-2209`: of those that are imported only the first revision -/
def firstHeadsOf (l : Library) : List Work := l.sets.flatMap fun s => s.modules.map .full ++ s.imports.flatMap fun x => (x.2.head?.toList).map .imported

/-- features of the module that is to be added take the place of those of the one that is there, `Y:2151-2154` -/
def Builder.prefer (b : Builder) : Work → Builder
  | .full m =>
    match b.modules.look m.name with
    | some e => { b with modules := put b.modules m.name { e with features := m.features } }
    | none => b
  | _ => b

/-- to add modules and submodules with their schemas -/
def Builder.addListed (k : Checker) (schemas : List (String × String)) (prefer : Bool) : Builder → List Work → Except LoadError Builder
  | b, [] => .ok b
  | b, w :: ws =>
    match schemas.look w.name with
    | none => .error (.schemaNotFound w.name)
    | some t =>
      match (if prefer then b.prefer w else b).add k w t with
      | .error e => .error e
      | .ok b => Builder.addListed k schemas prefer b ws

/-- `into_module_set_builder`, `Y:727-806` -/
def intoBuilder (k : Checker) (l : Library) (schemas : List (String × String)) : Except LoadError Builder :=
  Builder.addListed k schemas false .empty ((headsOf l).flatMap fun w => w :: w.subs)

/-- `extend_from_yang_lib`, `Y:2135-2212` -/
def Builder.extend (k : Checker) (b : Builder) (l : Library) (schemas : List (String × String)) : Except LoadError Builder :=
  Builder.addListed k schemas true b ((firstHeadsOf l).flatMap fun w => w :: w.subs)

end Verif.YangPush.Load
