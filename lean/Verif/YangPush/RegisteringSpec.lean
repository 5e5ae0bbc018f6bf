import Verif.YangPush.Registering
import Verif.YangPush.LoadingSpec
/-! # What registering of YANG libraries is to do -/
namespace Verif.YangPush.Register
open Collector Load

/-- what `petgraph::algo::toposort` is documented to do: all nodes, once, each after those with edges to it, or a circle -/
structure Sorts (sort : Graph → Except String (List String)) : Prop where
  all : ∀ g order, sort g = .ok order → order.Nodup ∧ ∀ n, n ∈ order ↔ n ∈ g.nodes
  after : ∀ g order, sort g = .ok order → ∀ a b before rest, (a, b) ∈ g.edges → order = before ++ b :: rest → a ∈ g.nodes → a ∈ before
  circle : ∀ g x, sort g = .error x → ∃ a, Relation.TransGen (fun a b => (a, b) ∈ g.edges) a a

/-- what is read from the schema of a module or submodule -/
def Reads (read : String → Option Deps) (schemas : List (String × String)) (n : String) (d : Deps) : Prop := ∃ text, schemas.look n = some text ∧ read text = some d

/-- modules, and the submodules that they include, directly or not -/
inductive Part (lib : Library) (read : String → Option Deps) (schemas : List (String × String)) : String → Prop where
  | listed {n : String} : HasModule lib n ∨ HasImport lib n → Part lib read schemas n
  | included {n i : String} {d : Deps} : Part lib read schemas n → Reads read schemas n d → i ∈ d.includes → Part lib read schemas i

/-- the schema of `n` is to refer to that of `m`: it imports or includes it, or augments it or deviates from it -/
def Refers (lib : Library) (read : String → Option Deps) (schemas : List (String × String)) (n m : String) : Prop :=
  (Part lib read schemas n ∧ ∃ d, Reads read schemas n d ∧ (m ∈ d.imports ∨ m ∈ d.includes)) ∨ ∃ x, IsModule lib x ∧ x.name = m ∧ (n ∈ x.augmentedBy ∨ n ∈ x.deviations)

/-- the schema of a module, or of what one includes, includes a submodule -/
def Includes (lib : Library) (read : String → Option Deps) (schemas : List (String × String)) (n i : String) : Prop :=
  Part lib read schemas n ∧ ∃ d, Reads read schemas n d ∧ i ∈ d.includes

/-- what makes registering go well: the library has one set of modules, in which modules of a name have the same submodules and none of these has the name of a module; all that it lists
has a schema, and those of modules and of what they include can be read; what they import are modules that are listed, what they include are submodules of modules that are not only imported,
what augments modules or deviates from them is listed, and no schema needs itself -/
structure Complete (lib : Library) (read : String → Option Deps) (schemas : List (String × String)) : Prop where
  one : ∃ set, lib.sets = [set]
  same : ∀ x y, IsModule lib x → IsModule lib y → x.name = y.name → x.submodules = y.submodules
  apart : ∀ x y, IsModule lib x → IsModule lib y → ∀ u ∈ y.submodules, u.name ≠ x.name
  texts : ∀ n r, Lists lib n r → ∃ text, schemas.look n = some text
  reads : ∀ n, Part lib read schemas n → ∃ d, Reads read schemas n d
  imports : ∀ n d m, Part lib read schemas n → Reads read schemas n d → m ∈ d.imports → HasModule lib m ∨ HasImport lib m
  includes : ∀ n d i, Part lib read schemas n → Reads read schemas n d → i ∈ d.includes → HasSubmodule lib i
  others : ∀ x m, IsModule lib x → m ∈ x.augmentedBy ∨ m ∈ x.deviations → HasModule lib m ∨ HasImport lib m
  acyclic : ∀ a, ¬Relation.TransGen (Refers lib read schemas) a a

/-- a registry takes all, and gives versions -/
def Accepts (c : Registry σ) : Prop := ∀ s subject e, ∃ s' r, c.register s subject e = (s', some r) ∧ r.version ≠ none

/-- a registry takes a schema: with its version, or if it is asked for that; or, if it refused it, once it was told to take all -/
inductive Takes (c : Registry σ) (subject : String) (e : Entry) : σ → Registered → σ → Prop where
  | versioned {s s' : σ} {r : Registered} : c.register s subject e = (s', some r) → r.version ≠ none → Takes c subject e s r s'
  | asked {s s₁ s₂ s' : σ} {r r' : Registered} {id : Int} {e' : Entry} : c.register s subject e = (s₁, some r) → r.version = none → r.id = some id →
    c.byId s₁ subject id = (s₂, some e') → c.bySchema s₂ subject e' = (s', some r') → Takes c subject e s r' s'
  | relaxed {s s₁ s₂ s' : σ} {r : Registered} : c.register s subject e = (s₁, none) → c.relax s₁ subject = (s₂, true) → c.register s₂ subject e = (s', some r) →
    Takes c subject e s r s'

/-- a registry takes these one after the other, each as the subject of its name -/
inductive Taken (c : Registry σ) (subjectPrefix : String) (s : σ) : List Done → σ → Prop where
  | nil : Taken c subjectPrefix s [] s
  | snoc {ds : List Done} {d : Done} {s' s'' : σ} :
    Taken c subjectPrefix s ds s' → Takes c (subjectPrefix ++ d.name) d.entry s' d.answer s'' → Taken c subjectPrefix s (ds ++ [d]) s''

/-- the references of what was registered -/
def Done.refs (d : Done) : List Ref := d.entry.references.getD []

/-- the reference to what was registered: by the subject and the version that the registry answered -/
def Done.ref (d : Done) : Ref := ⟨d.name, d.answer.subject.getD "", d.answer.version.getD 0⟩

/-- what is registered is right: it is the schema of the name, with the features of the module, and it refers to all `targets`, which were registered before, in the order of their names -/
structure Right (lib : Library) (schemas : List (String × String)) (targets : String → Prop) (before : List Done) (d : Done) : Prop where
  text : schemas.look d.name = some d.entry.text
  features : d.entry.features.getD [] = ((lib.findModule d.name).map (·.features)).getD []
  order : d.refs.Pairwise fun a b => a.name < b.name
  refs : ∀ r, r ∈ d.refs ↔ ∃ x ∈ before, targets x.name ∧ r = x.ref
  all : ∀ m, targets m → ∃ x ∈ before, x.name = m

/-- what was registered can be reached from what refers to it -/
inductive Reaches (ds : List Done) (last : Done) : Done → Prop where
  | direct {d : Done} : d ∈ ds → d.ref ∈ last.refs → Reaches ds last d
  | step {d d' : Done} : Reaches ds last d → d' ∈ ds → d'.ref ∈ d.refs → Reaches ds last d'

end Verif.YangPush.Register
