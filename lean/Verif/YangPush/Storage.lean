import Verif.YangPush.Types
import Verif.YangPush.Library
/-!
# The cache of YANG libraries

`S` stands for `crates/yang-push/src/cache/storage.rs`.

The disk is the directory of the cache: its directories by name, each with a YANG library, the subscriptions it is for and the files of its modules. Reading and writing files is
taken to succeed, XML and JSON to be read as they were written, and content identifiers to be names of directories. Maps by `SubscriptionInfo` are maps by what its equality
compares, as the keys are not read again.
-/
namespace Verif.YangPush
open Collector

/-- what `SubscriptionInfo::eq` compares and `hash` hashes, `S:811-840` -/
structure Ident (A X : Type) where
  ip : A
  id : UInt32
  target : Target X
  stopTime : Option Int
  transport : Option Transport
  encoding : Option Encoding
  purpose : Option String
  trigger : Option UpdateTrigger
  models : List ModuleVersion
  contentId : String
  deriving DecidableEq, Repr

variable {A X : Type}

/-- `SubscriptionInfo` as a key, `S:811-840` -/
def SubInfo.ident (i : SubInfo A X) : Ident A X where
  ip := i.peer.ip
  id := i.id
  target := i.target
  stopTime := i.stopTime
  transport := i.transport
  encoding := i.encoding
  purpose := i.purpose
  trigger := i.trigger
  models := i.models
  contentId := i.contentId

/-- `YangLibraryReference`, `S:285-289`: `dir` is its directory -/
structure Ref where
  contentId : String
  dir : String
  deriving DecidableEq, Repr

/-- a directory with a YANG library: `yang-lib.xml`, `subscriptions-info.json` and `modules/`, `S:56-90` -/
structure DirEntry (A X : Type) where
  library : Library
  subs : List (SubInfo A X)
  files : List (String × String)
  deriving DecidableEq, Repr

/-- the directory of the cache -/
abbrev Disk (A X : Type) := List (String × DirEntry A X)

/-- `YangLibraryCache`, `S:989-994` -/
structure LibCache (A X : Type) where
  byContent : List (String × Ref)
  byInfo : List (Ident A X × Ref)
  byId : List (A × List (UInt32 × SubInfo A X))
  deriving DecidableEq, Repr

/-- `YangLibraryCache::new`, `S:998-1005` -/
def LibCache.empty : LibCache A X := ⟨[], [], []⟩

/-- the revision that a schema is saved with, `S:494-505` -/
def Library.savedRevision (l : Library) (name : String) : Option String :=
  match l.findModule name with
  | some m => m.revision
  | none =>
    match l.findImports name with
    | some ms => ms.head?.bind (·.revision)
    | none => (l.findSubmodule name).bind (·.revision)

/-- the name of the file that a schema is saved as, `S:506-510`: without a revision it is not that which is looked for when schemas are loaded -/
def Library.savedFile (l : Library) (name : String) : String :=
  match l.savedRevision name with
  | some r => revisionFile name r
  | none => name

/-- the files of modules after schemas are saved, `S:491-514` -/
def Library.saveSchemas (l : Library) (schemas : List (String × String)) (files : List (String × String)) : List (String × String) :=
  schemas.foldl (fun files s => put files (l.savedFile s.1) s.2) files

variable [DecidableEq A] [DecidableEq X]

/-- to put a subscription into a list that it is not to be in twice, `S:463` for a set and `S:653-661` -/
def addSub (subs : List (SubInfo A X)) (i : SubInfo A X) : List (SubInfo A X) := if subs.any (·.ident = i.ident) then subs else subs ++ [i]

/-- the directory after `save_to_disk`, `S:385-528`, or `none` if there is a different library in it; the order of subscriptions is not specified if there are others -/
def saveToDisk (entry : Option (DirEntry A X)) (l : Library) (schemas : List (String × String)) (info : SubInfo A X) : Option (DirEntry A X) :=
  match entry with
  | some e => if e.library ≠ l then none else some { library := l, subs := addSub e.subs info, files := l.saveSchemas schemas e.files }
  | none => some { library := l, subs := [info], files := l.saveSchemas schemas [] }

/-- `append_subscription_info`, `S:629-675` -/
def appendSub (d : Disk A X) (r : Ref) (info : SubInfo A X) : Disk A X :=
  match d.look r.dir with
  | some e => put d r.dir { e with subs := addSub e.subs info }
  | none => d

/-- `remove_subscription_info`, `S:679-718` -/
def removeSub (d : Disk A X) (r : Ref) (info : SubInfo A X) : Disk A X :=
  match d.look r.dir with
  | some e => put d r.dir { e with subs := e.subs.filter fun i => i.ident ≠ info.ident }
  | none => d

/-- a subscription is found by its number, `S:1034-1037`, `S:1098-1101`, `S:1117-1120` -/
def LibCache.setId (c : LibCache A X) (info : SubInfo A X) : List (A × List (UInt32 × SubInfo A X)) :=
  put c.byId info.peer.ip (put ((c.byId.look info.peer.ip).getD []) info.id info)

/-- `put_yang_library`, `S:1080-1122`: the reference, or `none` if there is a different library in the directory -/
def putLibrary (c : LibCache A X) (d : Disk A X) (info : SubInfo A X) (l : Library) (schemas : List (String × String)) : LibCache A X × Disk A X × Option Ref :=
  match c.byContent.look l.contentId with
  | some r =>
    if (c.byInfo.look info.ident).isSome then (c, d, some r)
    else ({ c with byInfo := put c.byInfo info.ident r, byId := c.setId info }, appendSub d r info, some r)
  | none =>
    match saveToDisk (d.look l.contentId) l schemas info with
    | none => (c, d, none)
    | some e =>
      let r : Ref := ⟨l.contentId, l.contentId⟩
      ({ byInfo := put c.byInfo info.ident r, byContent := put c.byContent l.contentId r, byId := c.setId info }, put d l.contentId e, some r)

/-- `remove_by_content_id`, `S:1124-1149` -/
def removeContent (c : LibCache A X) (d : Disk A X) (contentId : String) : LibCache A X × Disk A X :=
  match c.byContent.look contentId with
  | none => (c, d)
  | some r =>
    ({ byContent := del c.byContent contentId
       byInfo := c.byInfo.filter fun x => x.2.contentId ≠ contentId
       byId := (c.byId.map fun x => (x.1, x.2.filter fun y => y.2.contentId ≠ contentId)).filter fun x => !x.2.isEmpty },
     del d r.dir)

/-- step 2 of `remove_by_subscription_info`, `S:1162-1172` -/
def LibCache.delId (c : LibCache A X) (info : SubInfo A X) : List (A × List (UInt32 × SubInfo A X)) :=
  match c.byId.look info.peer.ip with
  | none => c.byId
  | some subs => if (del subs info.id).isEmpty then del c.byId info.peer.ip else put c.byId info.peer.ip (del subs info.id)

/-- `remove_by_subscription_info`, `S:1151-1206` -/
def removeInfo (c : LibCache A X) (d : Disk A X) (info : SubInfo A X) : LibCache A X × Disk A X :=
  match c.byInfo.look info.ident with
  | none => (c, d)
  | some r =>
    let byInfo := del c.byInfo info.ident
    if byInfo.any fun x => x.2.contentId = r.contentId then
      ({ c with byInfo, byId := c.delId info },
        match c.byContent.look r.contentId with
        | some r => removeSub d r info
        | none => d)
    else
      ({ byInfo, byContent := del c.byContent r.contentId, byId := c.delId info },
        if (c.byContent.look r.contentId).isSome then del d r.contentId else d)

/-- `get_by_subscription_info`, `S:1208-1225` -/
def LibCache.getInfo (c : LibCache A X) (info : SubInfo A X) : Option Ref := c.byInfo.look info.ident

/-- `get_by_content_id`, `S:1227-1238` -/
def LibCache.getContent (c : LibCache A X) (contentId : String) : Option Ref := c.byContent.look contentId

/-- `get_by_subscription_id`, `S:1240-1264` -/
def LibCache.getId (c : LibCache A X) (ip : A) (id : UInt32) : Option (SubInfo A X × Option Ref) :=
  ((c.byId.look ip).bind (·.look id)).map fun i => (i, c.byInfo.look i.ident)

/-- `load_schemas` of a reference, `S:568-593` -/
def Ref.schemas (r : Ref) (d : Disk A X) : Option (List (String × String)) := (d.look r.dir).bind fun e => e.library.loadSchemas e.files

/-- the loop over the subscriptions of a directory in `from_disk`, `S:1033-1039` -/
def loadSubs (r : Ref) (c : LibCache A X) (subs : List (SubInfo A X)) : LibCache A X :=
  subs.foldl (fun c i => { c with byId := c.setId i, byInfo := put c.byInfo i.ident r }) c

/-- `from_disk`, `S:1013-1063`: `none` if a schema cannot be loaded. Directories come in an order that is not specified. -/
def fromDisk : LibCache A X → Disk A X → Option (LibCache A X)
  | c, [] => some c
  | c, (dir, e) :: d =>
    match e.library.loadSchemas e.files with
    | none => none
    | some _ => fromDisk (loadSubs ⟨e.library.contentId, dir⟩ { c with byContent := put c.byContent e.library.contentId ⟨e.library.contentId, dir⟩ } e.subs) d

end Verif.YangPush
