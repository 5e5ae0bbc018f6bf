import Verif.NetconfXml.YangLibReads
import Verif.NetconfXml.YangLibMaps
/-!
# The YANG library of a device is read back
-/
namespace Verif.Xml
open Verif.Collector (Text trim)

structure YImport.Ok (m : YImport) : Prop where
  name : trim m.name = m.name
  revision : ∀ t, m.revision = some t → trim t = t
  uri : trim m.uri = m.uri
  locations : ∀ t ∈ m.locations, trim t = t
  submodules : ∀ x ∈ m.submodules, x.Ok
  keys : Distinct YSubmodule.name m.submodules

def importRaws (m : YImport) : List Raw :=
  elem "import-only-module" (leafRaws "name" m.name ++ (optRaws (leafRaws "revision") m.revision ++ (leafRaws "namespace" m.uri ++ (m.locations.flatMap (leafRaws "location") ++
    m.submodules.flatMap submoduleRaws))))

theorem bal_import (m : YImport) : Bal (importRaws m) :=
  bal_elem (bal_append (bal_leafRaws _ _) (bal_append (bal_opt2 (bal_leafRaws _) _) (bal_append (bal_leafRaws _ _) (bal_append (bal_leafs _ _) (bal_flatMap _ fun x _ => bal_submodule x)))))

theorem reads_import {st : Stack} (h : InNs st nsYangLibrary) {m : YImport} (hm : m.Ok) : Reads readImport st (importRaws m) m := by
  intro R ps hR
  have h' : InNs ((⟨none, "import-only-module"⟩, st.scope) :: st) nsYangLibrary := h
  refine (bind_ok (skipText_next (next_elem _ _ _ _))).trans ?_
  rw [elem_append]
  simp only [List.append_assoc]
  refine (bind_ok (open_elem h (fine_leafRaws _ _ _ _))).trans ?_
  generalize hst : ((⟨none, "import-only-module"⟩, st.scope) :: st : Stack) = st' at h' ⊢
  have x0 : Next (annotate st' (.close ⟨none, "import-only-module"⟩ :: R)) := by rw [← hst]; exact next_close _ _ _ _
  have n0 : ∀ ns k, "import-only-module" ≠ k → isTagL ns k (annotate st' (.close ⟨none, "import-only-module"⟩ :: R)) = false := fun ns k hk => by rw [← hst]; exact other_close hk
  have x4 := next_flatMap (next_submodule st') m.submodules x0
  have x5 := next_flatMap (next_leafRaws st' "location") m.locations x4
  refine (bind_ok (reads_name h' "name" hm.name _ _ (next_opt2 (next_leafRaws _ _) _ (next_leafRaws _ _ _ _)))).trans ?_
  refine (bind_ok (reads_revision h' hm.revision _ (next_leafRaws _ _ _ _) (other_leafRaws _ (by decide) _ _))).trans ?_
  refine (bind_ok (reads_name h' "namespace" hm.uri _ _ x5)).trans ?_
  refine (bind_ok (reads_texts h' "location" hm.locations x4 (other_flatMap (other_submodule _ (by decide)) _ (n0 _ _ (by decide))) _)).trans ?_
  refine (bind_ok (reads_submodules h' hm.submodules x0 (n0 _ _ (by decide)) _)).trans ?_
  subst hst
  refine (bind_ok (close_here (next_fine hR))).trans ?_
  rw [mapOf_distinct _ hm.keys]; rfl

structure YSet.Ok (m : YSet) : Prop where
  name : trim m.name = m.name
  modules : ∀ x ∈ m.modules, x.Ok
  imports : ∀ g ∈ m.imports, ∀ x ∈ g.2, x.Ok
  keys : Distinct YModule.name m.modules
  groups : Grouped m.imports

def setRaws (m : YSet) : List Raw :=
  elem "module-set" (leafRaws "name" m.name ++ (m.modules.flatMap moduleRaws ++ (m.imports.flatMap Prod.snd).flatMap importRaws))

theorem bal_set (m : YSet) : Bal (setRaws m) :=
  bal_elem (bal_append (bal_leafRaws _ _) (bal_append (bal_flatMap _ fun x _ => bal_module x) (bal_flatMap _ fun x _ => bal_import x)))

theorem next_module (st : Stack) (m : YModule) (R : List Raw) : Next (annotate st (moduleRaws m ++ R)) := next_elem _ _ _ _
theorem next_import (st : Stack) (m : YImport) (R : List Raw) : Next (annotate st (importRaws m ++ R)) := next_elem _ _ _ _

theorem reads_set {st : Stack} (h : InNs st nsYangLibrary) {m : YSet} (hm : m.Ok) : Reads readSet st (setRaws m) m := by
  intro R ps hR
  have h' : InNs ((⟨none, "module-set"⟩, st.scope) :: st) nsYangLibrary := h
  refine (bind_ok (skipText_next (next_elem _ _ _ _))).trans ?_
  rw [elem_append]
  simp only [List.append_assoc]
  refine (bind_ok (open_elem h (fine_leafRaws _ _ _ _))).trans ?_
  generalize hst : ((⟨none, "module-set"⟩, st.scope) :: st : Stack) = st' at h' ⊢
  have x0 : Next (annotate st' (.close ⟨none, "module-set"⟩ :: R)) := by rw [← hst]; exact next_close _ _ _ _
  have n0 : ∀ ns k, "module-set" ≠ k → isTagL ns k (annotate st' (.close ⟨none, "module-set"⟩ :: R)) = false := fun ns k hk => by rw [← hst]; exact other_close hk
  have x1 := next_flatMap (next_import st') (m.imports.flatMap Prod.snd) x0
  have x2 := next_flatMap (next_module st') m.modules x1
  refine (bind_ok (reads_name h' "name" hm.name _ _ x2)).trans ?_
  refine (bind_ok (skipText_next x2)).trans ?_
  refine (bind_ok (reads_whileTag (next_module st') (fun a R => tag_elem h' _ _ _ []) bal_module (fun a => by simp [moduleRaws, elem]) (fun x hx => reads_module h' (hm.modules x hx)) x1
    (other_flatMap (fun a R => other_elem (by decide)) _ (n0 _ _ (by decide))) _)).trans ?_
  refine (bind_ok (reads_whileTag (next_import st') (fun a R => tag_elem h' _ _ _ []) bal_import (fun a => by simp [importRaws, elem]) (fun x hx => ?_) x0 (n0 _ _ (by decide)) _)).trans ?_
  · obtain ⟨g, hg, hx⟩ := List.mem_flatMap.1 hx
    exact reads_import h' (hm.imports g hg x hx)
  subst hst
  refine (bind_ok (close_here (next_fine hR))).trans ?_
  show (Res.ok (YSet.make m.name m.modules (m.imports.flatMap Prod.snd)), _) = _
  unfold YSet.make
  rw [mapOf_distinct _ hm.keys, importsOf_flatten hm.groups]

structure YSchema.Ok (m : YSchema) : Prop where
  name : trim m.name = m.name
  sets : ∀ t ∈ m.sets, trim t = t

def schemaRaws (m : YSchema) : List Raw := elem "schema" (leafRaws "name" m.name ++ m.sets.flatMap (leafRaws "module-set"))

theorem bal_schema (m : YSchema) : Bal (schemaRaws m) := bal_elem (bal_append (bal_leafRaws _ _) (bal_leafs _ _))

theorem reads_setName {st : Stack} (h : InNs st nsYangLibrary) {t : Text} (ht : trim t = t) : Reads readSetName st (leafRaws "module-set" t) t := by
  intro R ps hR
  obtain ⟨s, h1, h2⟩ := reads_textLeaf h "module-set" ht R ps hR
  exact (bind_ok h1).trans h2

theorem reads_schema {st : Stack} (h : InNs st nsYangLibrary) {m : YSchema} (hm : m.Ok) : Reads readSchema st (schemaRaws m) m := by
  intro R ps hR
  have h' : InNs ((⟨none, "schema"⟩, st.scope) :: st) nsYangLibrary := h
  refine (bind_ok (skipText_next (next_elem _ _ _ _))).trans ?_
  rw [elem_append]
  simp only [List.append_assoc]
  refine (bind_ok (open_elem h (fine_leafRaws _ _ _ _))).trans ?_
  generalize hst : ((⟨none, "schema"⟩, st.scope) :: st : Stack) = st' at h' ⊢
  have x0 : Next (annotate st' (.close ⟨none, "schema"⟩ :: R)) := by rw [← hst]; exact next_close _ _ _ _
  have n0 : ∀ ns k, "schema" ≠ k → isTagL ns k (annotate st' (.close ⟨none, "schema"⟩ :: R)) = false := fun ns k hk => by rw [← hst]; exact other_close hk
  have x1 := next_flatMap (next_leafRaws st' "module-set") m.sets x0
  refine (bind_ok (reads_name h' "name" hm.name _ _ x1)).trans ?_
  refine (bind_ok (skipText_next x1)).trans ?_
  refine (bind_ok (reads_whileTag (next_leafRaws st' "module-set") (fun a R => tag_elem h' _ _ _ []) (bal_leafRaws _) (fun a => by simp [leafRaws, elem]) (fun x hx => reads_setName h' (hm.sets x hx)) x0
    (n0 _ _ (by decide)) _)).trans ?_
  subst hst
  exact (bind_ok (close_here (next_fine hR))).trans rfl

/-- a name of a datastore that is read back: its namespace needs no references and there is no white space at its end, and it is not one of the well-known names -/
structure YStoreName.Ok (n : YStoreName) : Prop where
  known : YStoreName.of n.pair.1 n.pair.2 = n
  clear : escape n.pair.1 = n.pair.1
  some : n.pair.1 ≠ []
  ends : trim ("ds:".toList ++ n.pair.2) = "ds:".toList ++ n.pair.2

structure YStore.Ok (m : YStore) : Prop where
  name : m.name.Ok
  schema : trim m.schema = m.schema

def storeNameRaws (ns name : Text) : List Raw :=
  .start ⟨none, "name"⟩ [⟨⟨some "xmlns", "ds"⟩, some (escape ns)⟩] :: (written ("ds:".toList ++ name) ++ [.close ⟨none, "name"⟩])

def storeRaws (m : YStore) : List Raw := elem "datastore" (storeNameRaws m.name.pair.1 m.name.pair.2 ++ leafRaws "schema" m.schema)

theorem bal_store (m : YStore) : Bal (storeRaws m) := bal_elem (bal_append (Bal.tag _ _ (bal_flat (flat_written _)) .nil) (bal_leafRaws _ _))

theorem reads_store {st : Stack} (h : InNs st nsYangLibrary) {m : YStore} (hm : m.Ok) : Reads readStore st (storeRaws m) m := by
  intro R ps hR
  have h' : InNs ((⟨none, "datastore"⟩, st.scope) :: st) nsYangLibrary := h
  refine (bind_ok (skipText_next (next_elem _ _ _ _))).trans ?_
  rw [elem_append]
  simp only [List.append_assoc, storeNameRaws, List.cons_append, List.nil_append]
  refine (bind_ok (open_elem h (headBad_start _ _ _ _))).trans ?_
  refine (bind_ok (skipText_next (next_start _ _ _ _))).trans ?_
  generalize hns : m.name.pair.1 = ns
  generalize hnm : m.name.pair.2 = nm
  have hclear : escape ns = ns := hns ▸ hm.name.clear
  have hends : trim ("ds:".toList ++ nm) = "ds:".toList ++ nm := hnm ▸ hm.name.ends
  have hname : YStoreName.of ns nm = m.name := by rw [← hns, ← hnm]; exact hm.name.known
  have hsome : ns ≠ [] := hns ▸ hm.name.some
  have hopen : (declared [⟨⟨some "xmlns", "ds"⟩, some (escape ns)⟩] ++ Stack.scope ((⟨none, "datastore"⟩, st.scope) :: st)).resolve ⟨none, "name"⟩ = .bound nsYangLibrary := by
    have : (declared [⟨⟨some "xmlns", "ds"⟩, some (escape ns)⟩] : Scope) = [("ds", escape ns)] := rfl
    rw [this]
    have h2 := inNs_resolve h' "name"
    simp only [Scope.resolve, List.cons_append, List.nil_append, Scope.find] at h2 ⊢
    rw [if_neg (by decide)]
    exact h2
  refine (bind_ok (open_start hopen (fine_flat (flat_written _) _ (next_fine (next_close _ _ _ _))))).trans ?_
  refine (bind_ok (tagString_flat (flat_written _))).trans ?_
  rw [plain_written]
  have hid : ∀ sc' st' R' ps', resolveIdentity (trim ("ds:".toList ++ nm)) ⟨annotate ((⟨none, "name"⟩, declared [⟨⟨some "xmlns", "ds"⟩, some (escape ns)⟩] ++ sc') :: st') (.close ⟨none, "name"⟩ :: R'), ps'⟩ =
      (.ok (ns, nm), ⟨annotate ((⟨none, "name"⟩, declared [⟨⟨some "xmlns", "ds"⟩, some (escape ns)⟩] ++ sc') :: st') (.close ⟨none, "name"⟩ :: R'), ps'⟩) := by
    intro sc' st' R' ps'
    unfold resolveIdentity
    rw [hends, hends, annotate_close]
    have e1 : splitName ("ds:".toList ++ nm) = (⟨some "ds", String.ofList nm⟩, nm) := rfl
    have e2 : Scope.resolve (declared [⟨⟨some "xmlns", "ds"⟩, some (escape ns)⟩] ++ sc') ⟨some "ds", String.ofList nm⟩ = .bound ns := by
      rw [hclear]
      cases ns with
      | nil => exact absurd rfl hsome
      | cons c ns => rfl
    simp only [List.head?_cons, Option.map_some, Option.getD_some, e1, e2]
  refine (bind_ok (hid _ _ _ _)).trans ?_
  refine (bind_ok (close_here (fine_leafRaws _ _ _ _))).trans ?_
  refine (bind_ok (skipText_next (next_leafRaws _ _ _ _))).trans ?_
  obtain ⟨s, h1, h2⟩ := reads_textLeaf h' "schema" hm.schema (.close ⟨none, "datastore"⟩ :: R) (true :: ps) (next_close _ _ _ _)
  refine (bind_ok h1).trans ?_
  have h3 : (do let u ← tagString; close; close; return (⟨YStoreName.of ns nm, trim u⟩ : YStore) : P YStore) s =
      (do let u ← (do let t ← tagString; close; return trim t : P Text); close; return (⟨YStoreName.of ns nm, u⟩ : YStore) : P YStore) s := by
    simp only [bind, pure]
    rcases tagString s with ⟨_ | _ | _, s'⟩
    · simp only
      rcases close s' with ⟨_ | _ | _, s''⟩ <;> rfl
    · rfl
    · rfl
  refine h3.trans ?_
  refine (bind_ok h2).trans ?_
  refine (bind_ok (close_here (next_fine hR))).trans ?_
  rw [hname]; rfl

/-! ## The library -/

/-- a child of the element of a library -/
inductive YItem where
  | set (x : YSet)
  | schema (x : YSchema)
  | store (x : YStore)
  | contentId (t : Text)

def YItem.Ok : YItem → Prop
  | .set x => x.Ok
  | .schema x => x.Ok
  | .store x => x.Ok
  | .contentId t => trim t = t

def YItem.raws : YItem → List Raw
  | .set x => setRaws x
  | .schema x => schemaRaws x
  | .store x => storeRaws x
  | .contentId t => leafRaws "content-id" t

/-- what reading a child adds -/
def YParts.add (a : YParts) : YItem → YParts
  | .set x => { a with sets := a.sets ++ [x] }
  | .schema x => { a with schemas := a.schemas ++ [x] }
  | .store x => { a with stores := a.stores ++ [x] }
  | .contentId t => { a with contentId := some t }

theorem bal_item (i : YItem) : Bal i.raws := by
  cases i with
  | set x => exact bal_set x
  | schema x => exact bal_schema x
  | store x => exact bal_store x
  | contentId t => exact bal_leafRaws _ t

theorem next_item (st : Stack) (i : YItem) (R : List Raw) : Next (annotate st (i.raws ++ R)) := by
  cases i <;> exact next_elem _ _ _ _

theorem item_ne (i : YItem) : i.raws ≠ [] := by
  cases i <;> simp [YItem.raws, setRaws, schemaRaws, storeRaws, leafRaws, elem]

theorem not_end (st : Stack) (n : String) (c R : List Raw) (q : QName) (ps : List Bool) : ¬ ((St.mk (annotate st (elem n c ++ R)) ps).evs.head?.map Ev.raw = some (.close q)) := by
  show ¬ ((annotate st (elem n c ++ R)).head?.map Ev.raw = some (.close q))
  rw [elem_append, annotate_start]; simp

theorem reads_children {st : Stack} {q : QName} {sc : Scope} (h : InNs ((q, sc) :: st) nsYangLibrary) (R : List Raw) (ps : List Bool) :
    ∀ (l : List YItem) (n : Nat) (a : YParts), l.length < n → (∀ i ∈ l, i.Ok) →
      childrenF q n a ⟨annotate ((q, sc) :: st) (l.flatMap YItem.raws ++ .close q :: R), ps⟩ = (.ok (l.foldl YParts.add a), ⟨annotate ((q, sc) :: st) (.close q :: R), ps⟩) := by
  intro l
  induction l with
  | nil =>
    intro n a hn _
    obtain ⟨n, rfl⟩ : ∃ m, n = m + 1 := ⟨n - 1, by simp at hn; omega⟩
    unfold childrenF
    rw [if_pos (by simp [annotate_close])]; rfl
  | cons i l ih =>
    intro n a hn hi
    obtain ⟨n, rfl⟩ : ∃ m, n = m + 1 := ⟨n - 1, by simp at hn; omega⟩
    simp only [List.flatMap_cons, List.append_assoc]
    have hnext := next_flatMap (next_item ((q, sc) :: st)) l (next_close st q sc R)
    have hok := hi i List.mem_cons_self
    have rest := fun b => ih n b (by simp at hn; omega) fun j hj => hi j (List.mem_cons_of_mem _ hj)
    unfold childrenF
    cases i with
    | set x =>
      refine (if_neg (not_end _ _ _ _ _ _)).trans ?_
      refine (if_pos (tag_elem h _ _ _ _)).trans ?_
      refine (bind_ok (reads_set h hok _ _ hnext)).trans ?_
      exact (bind_ok (skipText_next hnext)).trans (rest _)
    | schema x =>
      refine (if_neg (not_end _ _ _ _ _ _)).trans ?_
      refine (if_neg (Bool.eq_false_iff.1 (other_elem (by decide)))).trans ?_
      refine (if_pos (tag_elem h _ _ _ _)).trans ?_
      refine (bind_ok (reads_schema h hok _ _ hnext)).trans ?_
      exact (bind_ok (skipText_next hnext)).trans (rest _)
    | store x =>
      refine (if_neg (not_end _ _ _ _ _ _)).trans ?_
      refine (if_neg (Bool.eq_false_iff.1 (other_elem (by decide)))).trans ?_
      refine (if_neg (Bool.eq_false_iff.1 (other_elem (by decide)))).trans ?_
      refine (if_pos (tag_elem h _ _ _ _)).trans ?_
      refine (bind_ok (reads_store h hok _ _ hnext)).trans ?_
      exact (bind_ok (skipText_next hnext)).trans (rest _)
    | contentId t =>
      refine (if_neg (not_end _ _ _ _ _ _)).trans ?_
      refine (if_neg (Bool.eq_false_iff.1 (other_elem (by decide)))).trans ?_
      refine (if_neg (Bool.eq_false_iff.1 (other_elem (by decide)))).trans ?_
      refine (if_neg (Bool.eq_false_iff.1 (other_elem (by decide)))).trans ?_
      refine (if_pos (tag_elem h _ _ _ _)).trans ?_
      have ht : trim t = t := hok
      obtain ⟨as, q', sc', ho⟩ := opens_text h "content-id" t (l.flatMap YItem.raws ++ .close q :: R) ps
      refine (bind_ok ho).trans ?_
      refine (bind_ok (tagString_flat (flat_written _))).trans ?_
      refine (bind_ok (close_here (next_fine hnext))).trans ?_
      refine (bind_ok (skipText_next hnext)).trans ?_
      rw [plain_written, ht]
      exact rest _

/-- the element of a library with children -/
def libraryRaws (items : List YItem) : List Raw :=
  .start ⟨none, "yang-library"⟩ [⟨⟨none, "xmlns"⟩, some nsYangLibrary⟩] :: (items.flatMap YItem.raws ++ [.close ⟨none, "yang-library"⟩])

/-- reading a library with children in any order -/
theorem reads_library (st : Stack) {items : List YItem} (hi : ∀ i ∈ items, i.Ok) {t : Text} (ht : (items.foldl YParts.add {}).contentId = some t) :
    Reads readYangLibrary st (libraryRaws items) (YLib.make t (items.foldl YParts.add {}).sets (items.foldl YParts.add {}).schemas (items.foldl YParts.add {}).stores) := by
  intro R ps hR
  unfold libraryRaws
  simp only [List.cons_append, List.append_assoc, List.nil_append]
  have hskip : ∀ q as X, skipDecl ⟨annotate st (.start q as :: X), ps⟩ = (.ok (), ⟨annotate st (.start q as :: X), ps⟩) := by
    intro q as X; rw [annotate_start]; rfl
  refine (bind_ok (hskip _ _ _)).trans ?_
  refine (bind_ok (skipText_next (next_start _ _ _ _))).trans ?_
  have hname : ∀ q as X, tagName ⟨annotate st (.start q as :: X), ps⟩ = (.ok q, ⟨annotate st (.start q as :: X), ps⟩) := by
    intro q as X; rw [annotate_start]; rfl
  refine (bind_ok (hname _ _ _)).trans ?_
  have hns : InNs ((⟨none, "yang-library"⟩, declared [⟨⟨none, "xmlns"⟩, some nsYangLibrary⟩] ++ st.scope) :: st) nsYangLibrary := rfl
  have hnext := next_flatMap (next_item ((⟨none, "yang-library"⟩, declared [⟨⟨none, "xmlns"⟩, some nsYangLibrary⟩] ++ st.scope) :: st)) items (next_close st ⟨none, "yang-library"⟩ (declared [⟨⟨none, "xmlns"⟩, some nsYangLibrary⟩] ++ st.scope) R)
  refine (bind_ok (open_start (ns := nsYangLibrary) (by rfl) (next_fine hnext))).trans ?_
  refine (bind_ok (skipText_next hnext)).trans ?_
  refine (bind_ok (reads_children hns R _ items _ {} (Nat.lt_succ_of_le (Nat.le_trans (flatMap_length items fun i _ => item_ne i) (bal_length (bal_flatMap items fun i _ => bal_item i) _ _))) hi)).trans ?_
  rw [ht]
  refine (bind_ok (lift_some _ _ _)).trans ?_
  exact (bind_ok (close_here (next_fine hR))).trans rfl

end Verif.Xml
