import Verif.Collector.MapText
/-!
# Enrichment from files

`R` stands for `crates/collector/src/inputs/files/processor.rs`, `C` for `actor.rs` and `D` for `mod.rs` in the same directory. Statistics, log messages and the
polling of directories are left out: the actor is told that a path has changed or was removed, and what it finds there when it looks. Operations are taken to reach
the enrichment cache. A hash set yields its elements in an order that is not specified.
-/
namespace Verif.Collector
open Flow (Field Value Ie)

/-- `InputFileFormat`, `D:66-81` -/
inductive FileFormat where
  | pmacctMaps (id : Ie) (weight : UInt8)
  | flowUpserts
  | yangPushUpserts
  deriving DecidableEq

variable {A T : Type}

/-- `handle_line` of the handlers for flow enrichment, which `build_handlers_from_config` makes for each format, `C:572-601`; `handlers.rs:154-164` for the last -/
def flowLine (addr : Text → Option A) (json : Text → Option (A × Scope Field × UInt8 × List Field)) : FileFormat → Text → Change → Option (List (Op A Field Ie))
  | .pmacctMaps id weight => mapsLine addr id weight
  | .flowUpserts => jsonLine json
  | .yangPushUpserts => fun _ _ => none

/-- is a line skipped: `#`, `//` or `!` at the start, `R:84` -/
def isComment : Text → Bool
  | '#' :: _ => true
  | '/' :: '/' :: _ => true
  | '!' :: _ => true
  | _ => false

/-- the lines of a file, `R:81-86`: a set, so each once -/
def fileLines (content : Text) : List Text := (((textLines content).map trim).filter fun l => !isComment l).eraseDups

/-- `HashSet::difference` -/
def minus (a b : List Text) : List Text := a.filter fun l => !b.contains l

/-- the operations for lines that were added or removed, one line after the other, `R:108-130`, `R:151-160`: wrong lines give none -/
def lineOps (handle : Text → Change → Option (List T)) (change : Change) (lines : List Text) : List T := lines.flatMap fun l => (handle l change).getD []

/-- the lines that were cached before: none at the first time, `R:88-106` -/
def cachedLines {κ : Type} [DecidableEq κ] (cache : List (κ × List Text)) (path : κ) : List Text := (cache.look path).getD []

variable {κ : Type} [DecidableEq κ]

/-- `process_file_changes`, `R:62-137`, for a file that could be read: removed lines come before those that were added -/
def Processes (handle : Text → Change → Option (List T)) (cache : List (κ × List Text)) (path : κ) (content : Text) (ops : List T) (cache' : List (κ × List Text)) : Prop :=
  ∃ removed added, removed.Perm (minus (cachedLines cache path) (fileLines content)) ∧ added.Perm (minus (fileLines content) (cachedLines cache path)) ∧
    ops = lineOps handle .removed removed ++ lineOps handle .added added ∧ cache' = put cache path (fileLines content)

/-- `purge_file`, `R:139-166` -/
def Purges (handle : Text → Change → Option (List T)) (cache : List (κ × List Text)) (path : κ) (ops : List T) (cache' : List (κ × List Text)) : Prop :=
  ∃ removed, removed.Perm (cachedLines cache path) ∧ ops = lineOps handle .removed removed ∧ cache' = del cache path

/-- `FilesActor`, `C:123-144`, as far as it matters -/
structure FilesState (κ : Type) where
  watched : List (κ × FileFormat) := []
  cache : List (κ × List Text) := []

/-- what is found at a path -/
inductive Found where
  /-- there is no file -/
  | nothing
  /-- there is one, but it cannot be read or is no text -/
  | unreadable
  | content (t : Text)
  deriving DecidableEq

/-- what the actor is told of a path -/
inductive Notice where
  | changed (found : Found)
  | removed
  deriving DecidableEq

/-- `handle_file_change`, `C:347-412`. There is a handler for each format of the configuration, `C:572-601`. -/
def Changes (handle : FileFormat → Text → Change → Option (List T)) (s : FilesState κ) (path : κ) (found : Found) (ops : List T) (s' : FilesState κ) : Prop :=
  match s.watched.look path with
  | none => ops = [] ∧ s' = s
  | some format =>
    match found with
    | .content t => ∃ cache', Processes (handle format) s.cache path t ops cache' ∧ s' = { s with cache := cache' }
    | _ => ∃ cache', Purges (handle format) s.cache path ops cache' ∧ s' = { s with cache := cache' }

/-- `add_file_to_watcher`, `C:196-229` -/
def Adds (handle : FileFormat → Text → Change → Option (List T)) (s : FilesState κ) (path : κ) (format : FileFormat) (found : Found) (ops : List T) (s' : FilesState κ) :
    Prop :=
  if found = .nothing then ops = [] ∧ s' = s else Changes handle { s with watched := put s.watched path format } path found ops s'

/-- the loop of `setup_file_watcher`, `C:276-286` -/
inductive Starts (handle : FileFormat → Text → Change → Option (List T)) : FilesState κ → List ((κ × FileFormat) × Found) → List T → FilesState κ → Prop where
  | nil {s} : Starts handle s [] [] s
  | cons {s s' s'' path format found ops ops' rest} : Adds handle s path format found ops s' → Starts handle s' rest ops' s'' →
      Starts handle s (((path, format), found) :: rest) (ops ++ ops') s''

/-- `handle_file_system_event`, `C:418-491`, for one of its paths -/
def Handles (handle : FileFormat → Text → Change → Option (List T)) (config : List (κ × FileFormat)) (s : FilesState κ) (path : κ) (n : Notice) (ops : List T)
    (s' : FilesState κ) : Prop :=
  match config.find? fun x => x.1 = path with
  | none => ops = [] ∧ s' = s
  | some input =>
    match n with
    | .changed found =>
      match s.watched.look path with
      | some _ => Changes handle s path found ops s'
      | none => Adds handle s path input.2 found ops s'
    | .removed =>
      match s.watched.look path with
      | some format => ∃ cache', Purges (handle format) s.cache path ops cache' ∧ s' = { s with cache := cache' }
      | none => ops = [] ∧ s' = s

/-- `run`, `C:493-530`: `found` is what there is at the paths of the configuration when the actor starts, then follows what it is told -/
inductive FilesRuns (handle : FileFormat → Text → Change → Option (List T)) (config : List (κ × FileFormat)) (found : κ → Found) :
    List (κ × Notice) → List T → FilesState κ → Prop where
  | start {ops s} : Starts handle {} (config.map fun x => (x, found x.1)) ops s → FilesRuns handle config found [] ops s
  | file {es ops s path n ops' s'} : FilesRuns handle config found es ops s → Handles handle config s path n ops' s' →
      FilesRuns handle config found (es ++ [(path, n)]) (ops ++ ops') s'

end Verif.Collector
