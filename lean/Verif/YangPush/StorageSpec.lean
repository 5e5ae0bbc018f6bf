import Verif.YangPush.LibrarySpec
import Verif.YangPush.Storage
import Verif.Collector.Lemmas
/-!
# What the cache of YANG libraries is to hold

A history is what was done to a cache that was empty at first, with restarts in between; what is to be found is said from the history alone.
-/
namespace Verif.YangPush
open Collector

variable {A X : Type}

/-- what is done to a cache -/
inductive StoreOp (A X : Type) where
  /-- a library with schemas is put for a description -/
  | put (info : SubInfo A X) (library : Library) (schemas : List (String × String))
  /-- a library is removed -/
  | dropContent (contentId : String)
  /-- a description is removed -/
  | dropInfo (info : SubInfo A X)
  /-- the collector is started again from what is on the disk -/
  | restart
  deriving DecidableEq, Repr

variable [DecidableEq A] [DecidableEq X]

/-- the caches and disks that there are after a history; directories are read in any order -/
inductive Reach : List (StoreOp A X) → LibCache A X → Disk A X → Prop where
  | nil : Reach [] .empty []
  | put {h c d} (info l schemas) : Reach h c d → Reach (h ++ [.put info l schemas]) (putLibrary c d info l schemas).1 (putLibrary c d info l schemas).2.1
  | dropContent {h c d} (contentId) : Reach h c d → Reach (h ++ [.dropContent contentId]) (removeContent c d contentId).1 (removeContent c d contentId).2
  | dropInfo {h c d} (info) : Reach h c d → Reach (h ++ [.dropInfo info]) (removeInfo c d info).1 (removeInfo c d info).2
  | restart {h c d c' d'} : Reach h c d → d'.Perm d → fromDisk .empty d' = some c' → Reach (h ++ [.restart]) c' d'

/-- the library of a description after one more operation -/
def assign (k : Ident A X) (o : Option String) : StoreOp A X → Option String
  | .put i l _ => if i.ident = k then some l.contentId else o
  | .dropContent cid => if o = some cid then none else o
  | .dropInfo i => if i.ident = k then none else o
  | .restart => o

/-- the library that a description has after a history: that put for it last, if neither was removed since -/
def assigned (h : List (StoreOp A X)) (k : Ident A X) : Option String := h.foldl (assign k) none

/-- no description is given another library while it has one -/
def Settled (h : List (StoreOp A X)) : Prop :=
  ∀ h1 h2 i l s, h = h1 ++ .put i l s :: h2 → assigned h1 i.ident = none ∨ assigned h1 i.ident = some l.contentId

/-- a library whose schemas can be told apart by the names of their files: every module and submodule that is listed has a schema and a revision, which is the same wherever it
is listed, modules that are imported only have no submodules, and names are without the sign that is before revisions -/
structure Tidy (l : Library) (schemas : List (String × String)) : Prop where
  listed : ∀ n r, Lists l n r → r.isSome ∧ (schemas.look n).isSome
  once : ∀ n r r', Lists l n r → Lists l n r' → r = r'
  named : Named l
  plain : Plain l
  names : ∀ x ∈ schemas, '@' ∉ x.1.toList
  uniq : Uniq schemas

/-- all libraries that are put are tidy -/
def AllTidy (h : List (StoreOp A X)) : Prop := ∀ i l s, StoreOp.put i l s ∈ h → Tidy l s

/-- a number of a peer has one description -/
def OneEach (h : List (StoreOp A X)) : Prop :=
  ∀ i l s i' l' s', StoreOp.put i l s ∈ h → StoreOp.put i' l' s' ∈ h → i.peer.ip = i'.peer.ip → i.id = i'.id → i.ident = i'.ident

/-- libraries are not removed by their content identifiers -/
def NoContentDrop (h : List (StoreOp A X)) : Prop := ∀ cid, StoreOp.dropContent cid ∉ h

end Verif.YangPush
