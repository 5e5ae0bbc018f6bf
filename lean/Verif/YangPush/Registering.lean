import Verif.YangPush.Loading
/-!
# Registering of YANG libraries

`Y` stands for `crates/netconf-proto/src/yanglib.rs`.

Nodes of graphs are names, as no two nodes have the same. What is read from a schema, the schema registry and `petgraph::algo::toposort` are parameters. What is asked of the registry for
logs only, `Y:215-245`, is left out.
-/
namespace Verif.YangPush.Register
open Collector
open Load (Deps)

/-- `petgraph::Graph<&str, ()>` -/
structure Graph where
  nodes : List String
  edges : List (String × String)
  deriving DecidableEq, Repr

/-- `add_node` where there is none of that name, `Y:551-556` and others -/
def Graph.addNode (g : Graph) (n : String) : Graph := if n ∈ g.nodes then g else { g with nodes := g.nodes ++ [n] }

/-- `add_edge` where there is none, `Y:462-464` and others -/
def Graph.addEdge (g : Graph) (a b : String) : Graph := if (a, b) ∈ g.edges then g else { g with edges := g.edges ++ [(a, b)] }

/-- a module and its submodules, `Y:543-557` and `Y:561-575`: if there is one of its name already, neither is added -/
def Graph.addNodes (g : Graph) (name : String) (submodules : List Submodule) : Graph :=
  if name ∈ g.nodes then g else submodules.foldl (fun g u => g.addNode u.name) (g.addNode name)

/-- `construct_nodes`, `Y:535-579` -/
def constructNodes (lib : Library) : Graph :=
  lib.sets.foldl (fun g s =>
    (s.imports.flatMap (·.2)).foldl (fun g m => g.addNodes m.name m.submodules) (s.modules.foldl (fun g m => g.addNodes m.name m.submodules) g)) ⟨[], []⟩

/-- what becomes of registering if it does not succeed: `SchemaConstructionError`, `Y:2318-2330`, or a panic -/
inductive Failure where
  | moduleNotFound
  | graph
  | cycle (name : String)
  | refused
  | panicked
  deriving DecidableEq, Repr

/-- `check_module_exists`, `Y:523-530` -/
def moduleExists (lib : Library) (n : String) : Bool := (lib.findModule n).isSome || (lib.findImports n).isSome

/-- the imports of `add_deps_to_graph`, `Y:457-465` -/
def importEdges (lib : Library) (current : String) : Graph → List String → Except Failure Graph
  | g, [] => .ok g
  | g, i :: is => if moduleExists lib i ∧ i ∈ g.nodes then importEdges lib current (g.addEdge i current) is else .error .graph

/-- the includes of `add_deps_to_graph`, `Y:466-484`, where `below` is what is done with those of submodules -/
def includeEdges (lib : Library) (read : String → Option Deps) (schemas : List (String × String))
    (below : Graph → String → Deps → Option (Except Failure Graph)) (current : String) : Graph → List String → Option (Except Failure Graph)
  | g, [] => some (.ok g)
  | g, i :: is =>
    if (lib.findSubmodule i).isSome ∧ i ∈ g.nodes then
      match schemas.look i with
      | none => some (.error .panicked)
      | some schema =>
        match read schema with
        | none => some (.error .graph)
        | some d =>
          match below (g.addEdge i current) i d with
          | some (.ok g) => includeEdges lib read schemas below current g is
          | r => r
    else some (.error .graph)

/-- `add_deps_to_graph`, `Y:449-486`, down to so many levels -/
def addDeps (lib : Library) (read : String → Option Deps) (schemas : List (String × String)) : Nat → Graph → String → Deps → Option (Except Failure Graph)
  | 0, _, _, _ => none
  | n + 1, g, current, d =>
    match importEdges lib current g d.imports with
    | .error e => some (.error e)
    | .ok g => includeEdges lib read schemas (addDeps lib read schemas n) current g d.includes

/-- the modules that augment a module or deviate from it, `Y:501-518` -/
def extraEdges (lib : Library) (current : String) : Graph → List String → Except Failure Graph
  | g, [] => .ok g
  | g, i :: is => if moduleExists lib i ∧ i ∈ g.nodes then extraEdges lib current (g.addEdge current i) is else .error .graph

/-- `add_module_to_graph`, `Y:488-520`, and `add_import_only_module_to_graph`, `Y:432-447`, where there are no others; that the node is there is not looked at, as it always is -/
def addModule (lib : Library) (read : String → Option Deps) (schemas : List (String × String)) (n : Nat) (g : Graph) (name : String) (others : List String) :
    Option (Except Failure Graph) :=
  match schemas.look name with
  | none => some (.error .graph)
  | some schema =>
    match read schema with
    | none => some (.error .graph)
    | some d =>
      match addDeps lib read schemas n g name d with
      | some (.ok g) => some (extraEdges lib name g others)
      | r => r

/-- the modules of a library with those that augment them or deviate from them, in the order of `to_graph`, `Y:414-428` -/
def listedModules (lib : Library) : List (String × List String) :=
  lib.sets.flatMap fun s => s.modules.map (fun m => (m.name, m.augmentedBy ++ m.deviations)) ++ (s.imports.flatMap (·.2)).map fun m => (m.name, [])

/-- the loop of `to_graph` -/
def addModules (lib : Library) (read : String → Option Deps) (schemas : List (String × String)) (n : Nat) : Graph → List (String × List String) → Option (Except Failure Graph)
  | g, [] => some (.ok g)
  | g, m :: ms =>
    match addModule lib read schemas n g m.1 m.2 with
    | some (.ok g) => addModules lib read schemas n g ms
    | r => r

/-- `to_graph`, `Y:406-430` -/
def toGraph (lib : Library) (read : String → Option Deps) (schemas : List (String × String)) (n : Nat) : Option (Except Failure Graph) :=
  addModules lib read schemas n (constructNodes lib) (listedModules lib)

/-- `SchemaReference` -/
structure Ref where
  name : String
  subject : String
  version : Int
  deriving DecidableEq, Repr

/-- `Schema` of the registry, with the features from its tags -/
structure Entry where
  text : String
  references : Option (List Ref)
  features : Option (List String)
  deriving DecidableEq, Repr

/-- `RegisteredSchema`, as far as it is used -/
structure Registered where
  id : Option Int
  subject : Option String
  version : Option Int
  deriving DecidableEq, Repr

/-- a schema registry, `SRClient`, with a state; nothing is an error -/
structure Registry (σ : Type) where
  register : σ → String → Entry → σ × Option Registered
  byId : σ → String → Int → σ × Option Entry
  bySchema : σ → String → Entry → σ × Option Registered
  relax : σ → String → σ × Bool

/-- `register_with_retry`, `Y:335-392` -/
def registerRetry (c : Registry σ) (s : σ) (subject : String) (e : Entry) : σ × Except Failure Registered :=
  match c.register s subject e with
  | (s, some r) =>
    if r.version = none then
      match r.id with
      | none => (s, .error .panicked)
      | some id =>
        match c.byId s subject id with
        | (s, none) => (s, .error .refused)
        | (s, some e) =>
          match c.bySchema s subject e with
          | (s, none) => (s, .error .refused)
          | (s, some r) => (s, .ok r)
    else (s, .ok r)
  | (s, none) =>
    match c.relax s subject with
    | (s, false) => (s, .error .refused)
    | (s, true) =>
      match c.register s subject e with
      | (s, none) => (s, .error .refused)
      | (s, some r) => (s, .ok r)

/-- `get_features`, `Y:394-401` -/
def getFeatures (lib : Library) (n : String) : Option (List String) :=
  match lib.findModule n with
  | some m => if m.features = [] then none else some m.features
  | none => none

/-- references in the order of their names, `Y:249-254`, `Y:324-329` -/
def sortRefs (rs : List Ref) : List Ref := rs.mergeSort fun a b => decide (a.name ≤ b.name)

/-- the references that were supplied for names, `Y:214`, `Y:315`, `Y:320`: panics if there is none -/
def findRefs (supplied : List (String × Ref)) : List String → Option (List Ref)
  | [] => some []
  | n :: ns =>
    match supplied.look n, findRefs supplied ns with
    | some r, some rs => some (r :: rs)
    | _, _ => none

/-- the names that a name depends on -/
def Graph.sources (g : Graph) (n : String) : List String := (g.edges.filter fun e => e.2 = n).map (·.1)

/-- the names that nothing depends on, `Y:167-172` -/
def Graph.sinks (g : Graph) : List String := g.nodes.filter fun n => g.edges.all fun e => e.1 ≠ n

/-- what was registered, with the answer -/
structure Done where
  name : String
  entry : Entry
  answer : Registered
  deriving DecidableEq, Repr

/-- one name of the loop of `register_schema`, `Y:198-264`, up to its registration -/
def entryOf (lib : Library) (schemas : List (String × String)) (g : Graph) (supplied : List (String × Ref)) (n : String) : Option Entry :=
  match findRefs supplied (g.sources n), schemas.look n with
  | some rs, some text => some ⟨text, some (sortRefs rs), getFeatures lib n⟩
  | _, _ => none

/-- `Y:288-292` -/
def refOf (n : String) (r : Registered) : Ref := ⟨n, r.subject.getD "", r.version.getD 0⟩

/-- the loop of `register_schema`, `Y:194-294`; what was done comes out as well if it fails -/
def registerLoop (lib : Library) (schemas : List (String × String)) (subjectPrefix : String) (g : Graph) (c : Registry σ) :
    σ → List Done → List (String × Ref) → List String → σ × List Done × Except Failure (List (String × Ref))
  | s, done, supplied, [] => (s, done, .ok supplied)
  | s, done, supplied, n :: ns =>
    match entryOf lib schemas g supplied n with
    | none => (s, done, .error .panicked)
    | some e =>
      match registerRetry c s (subjectPrefix ++ n) e with
      | (s, .error f) => (s, done, .error f)
      | (s, .ok r) => registerLoop lib schemas subjectPrefix g c s (done ++ [⟨n, e, r⟩]) (put supplied n (refOf n r)) ns

/-- the last registration of the root, `Y:295-332` -/
def registerRoot (lib : Library) (schemas : List (String × String)) (subjectPrefix : String) (g : Graph) (c : Registry σ) (s : σ) (done : List Done)
    (supplied : List (String × Ref)) (root : String) : σ × List Done × Except Failure Registered :=
  match schemas.look root, findRefs supplied (g.sources root ++ g.sinks) with
  | some text, some rs =>
    let e : Entry := ⟨text, if rs = [] then none else some (sortRefs rs), getFeatures lib root⟩
    match registerRetry c s (subjectPrefix ++ root) e with
    | (s, .error f) => (s, done, .error f)
    | (s, .ok r) => (s, done ++ [⟨root, e, r⟩], .ok r)
  | _, _ => (s, done, .error .panicked)

/-- `register_schema`, `Y:143-333`, down to so many levels of submodules -/
def registerSchema (lib : Library) (read : String → Option Deps) (schemas : List (String × String)) (subjectPrefix : String) (sort : Graph → Except String (List String))
    (c : Registry σ) (n : Nat) (s : σ) (root : String) : Option (σ × List Done × Except Failure Registered) :=
  if (lib.findModule root).isNone then some (s, [], .error .moduleNotFound)
  else
    match toGraph lib read schemas n with
    | none => none
    | some (.error f) => some (s, [], .error f)
    | some (.ok g) =>
      match sort g with
      | .error x => some (s, [], .error (.cycle x))
      | .ok order =>
        if root ∈ g.nodes then
          match registerLoop lib schemas subjectPrefix g c s [] [] order with
          | (s, done, .error f) => some (s, done, .error f)
          | (s, done, .ok supplied) => some (registerRoot lib schemas subjectPrefix g c s done supplied root)
        else some (s, [], .error .panicked)

end Verif.YangPush.Register
