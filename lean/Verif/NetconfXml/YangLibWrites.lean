import Verif.NetconfXml.YangLibRound
/-!
# What is written of the YANG library of a device
-/
namespace Verif.Xml
open Verif.Collector (Text trim)

/-- the bindings inside of the element of a library -/
def libBindings : List (List (Text × String)) := [(nsYangLibrary, "")] :: plainBindings

theorem lib_prefix : nsPrefix nsYangLibrary libBindings = some "" := by decide +kernel
theorem lib_noPrefix : nsPrefix nsAugmentedBy libBindings = none := by decide +kernel
theorem plain_noPrefix : nsPrefix nsYangLibrary plainBindings = none := by decide +kernel

theorem writes_within {p : W Unit} {rs : List Raw} (h : Writes p libBindings rs) : Writes (within nsYangLibrary p) libBindings rs := by
  intro out
  unfold within
  simp only [lib_prefix]
  exact h out

theorem writes_aroundNs {n : String} {p : W Unit} {rs : List Raw} (h : Writes p libBindings rs) : Writes (aroundNs nsYangLibrary n p) libBindings (elem n rs) := by
  intro out
  refine (wbind (a := (⟨none, n⟩, [])) (w' := ⟨out, libBindings, true⟩) ?_).trans ?_
  · simp [createNs, lib_prefix, applyNs, bind, pure]
  refine (wbind (a := ()) (w' := ⟨out ++ [.start ⟨none, n⟩ []], libBindings, true⟩) rfl).trans ?_
  refine (wbind (h _)).trans ?_
  simp [write, elem]

theorem writes_text (n : String) (t : Text) : Writes (textNs nsYangLibrary n t) libBindings (leafRaws n t) := writes_leafNs lib_prefix n (written t)

theorem writes_texts (n : String) (l : List Text) : Writes (writeAll (textNs nsYangLibrary n) l) libBindings (l.flatMap (leafRaws n)) := writes_all (writes_text n) l

theorem writes_submodule (m : YSubmodule) : Writes (writeSubmodule m) libBindings (submoduleRaws m) :=
  writes_within (writes_aroundNs (writes_seq (writes_text _ _) (writes_seq (writes_opt (writes_text _) _) (writes_texts _ _))))

theorem writes_augmented (t : Text) : Writes (within nsAugmentedBy (textNs nsAugmentedBy "augmented-by" t)) libBindings (augmentedRaws t) := by
  intro out
  have hp : nsPrefix nsAugmentedBy ([(nsAugmentedBy, "")] :: libBindings) = some "" := by decide +kernel
  unfold within
  simp only [lib_noPrefix]
  simp [pushNs, distinctPrefixes, textNs, leafNs, createNs, hp, applyNs, write, popNs, declarations, bind, pure, augmentedRaws]

theorem writes_module (m : YModule) : Writes (writeModule m) libBindings (moduleRaws m) :=
  writes_within (writes_aroundNs (writes_seq (writes_text _ _) (writes_seq (writes_opt (writes_text _) _) (writes_seq (writes_text _ _) (writes_seq (writes_texts _ _)
    (writes_seq (writes_all writes_submodule _) (writes_seq (writes_texts _ _) (writes_seq (writes_texts _ _) (writes_all writes_augmented _)))))))))

theorem writes_import (m : YImport) : Writes (writeImport m) libBindings (importRaws m) :=
  writes_aroundNs (writes_seq (writes_text _ _) (writes_seq (writes_opt (writes_text _) _) (writes_seq (writes_text _ _) (writes_seq (writes_texts _ _) (writes_all writes_submodule _)))))

theorem flatMap_groups (l : List (Text × List YImport)) : l.flatMap (fun g => g.2.flatMap importRaws) = (l.flatMap Prod.snd).flatMap importRaws := by
  induction l with
  | nil => rfl
  | cons g l ih => simp [ih]

theorem writes_set (m : YSet) : Writes (writeSet m) libBindings (setRaws m) := by
  unfold setRaws
  rw [← flatMap_groups]
  exact writes_within (writes_aroundNs (writes_seq (writes_text _ _) (writes_seq (writes_all writes_module _) (writes_all (fun (g : Text × List YImport) => writes_all writes_import g.2) _))))

theorem writes_schema (m : YSchema) : Writes (writeSchema m) libBindings (schemaRaws m) :=
  writes_within (writes_aroundNs (writes_seq (writes_text _ _) (writes_texts _ _)))

theorem writes_store (m : YStore) : Writes (writeStore m) libBindings (storeRaws m) := by
  refine writes_within (writes_aroundNs (writes_seq ?_ (writes_text _ _)))
  intro out
  simp [createNs, lib_prefix, applyNs, write, bind, pure, storeNameRaws]

/-- the children of a library in the order in which they are written -/
def YLib.items (y : YLib) : List YItem := y.sets.map .set ++ (y.schemas.map .schema ++ (y.stores.map .store ++ [.contentId y.contentId]))

theorem items_raws (y : YLib) : y.items.flatMap YItem.raws = y.sets.flatMap setRaws ++ (y.schemas.flatMap schemaRaws ++ (y.stores.flatMap storeRaws ++ leafRaws "content-id" y.contentId)) := by
  simp only [YLib.items, List.flatMap_append, List.flatMap_map, List.flatMap_cons, List.flatMap_nil, List.append_nil]
  rfl

theorem writes_library (y : YLib) (out : List Raw) (b : Bool) : writeYangLibrary y ⟨out, plainBindings, b⟩ = some ((), ⟨out ++ libraryRaws y.items, plainBindings, true⟩) := by
  unfold writeYangLibrary within
  simp only [plain_noPrefix]
  refine (wbind (a := ()) (w' := ⟨out, libBindings, false⟩) (by simp [pushNs, distinctPrefixes, libBindings])).trans ?_
  have hbody : Writes (do writeAll writeSet y.sets; writeAll writeSchema y.schemas; writeAll writeStore y.stores; textNs nsYangLibrary "content-id" y.contentId) libBindings (y.items.flatMap YItem.raws) := by
    rw [items_raws]
    exact writes_seq (writes_all writes_set _) (writes_seq (writes_all writes_schema _) (writes_seq (writes_all writes_store _) (writes_text _ _)))
  refine (wbind (a := ()) (w' := ⟨out ++ libraryRaws y.items, libBindings, true⟩) ?_).trans ?_
  · refine (wbind (a := (⟨none, "yang-library"⟩, [⟨⟨none, "xmlns"⟩, some nsYangLibrary⟩])) (w' := ⟨out, libBindings, true⟩) ?_).trans ?_
    · simp only [createNs, lib_prefix]; rfl
    refine (wbind (a := ()) (w' := ⟨out ++ [.start ⟨none, "yang-library"⟩ [⟨⟨none, "xmlns"⟩, some nsYangLibrary⟩]], libBindings, true⟩) rfl).trans ?_
    refine (wbind (hbody _)).trans ?_
    simp [write, libraryRaws]
  · rfl

/-! ## What is read back -/

structure YLib.Ok (y : YLib) : Prop where
  contentId : trim y.contentId = y.contentId
  sets : ∀ x ∈ y.sets, x.Ok
  schemas : ∀ x ∈ y.schemas, x.Ok
  stores : ∀ x ∈ y.stores, x.Ok
  setKeys : Distinct YSet.name y.sets
  schemaKeys : Distinct YSchema.name y.schemas
  storeKeys : Distinct YStore.name y.stores

theorem items_ok {y : YLib} (h : y.Ok) : ∀ i ∈ y.items, i.Ok := by
  intro i hi
  simp only [YLib.items, List.mem_append, List.mem_map, List.mem_singleton] at hi
  rcases hi with ⟨x, hx, rfl⟩ | ⟨x, hx, rfl⟩ | ⟨x, hx, rfl⟩ | rfl
  · exact h.sets x hx
  · exact h.schemas x hx
  · exact h.stores x hx
  · exact h.contentId

theorem foldl_sets (l : List YSet) (a : YParts) : (l.map YItem.set).foldl YParts.add a = { a with sets := a.sets ++ l } := by
  induction l generalizing a with
  | nil => simp
  | cons x l ih => simp [ih, YParts.add]
theorem foldl_schemas (l : List YSchema) (a : YParts) : (l.map YItem.schema).foldl YParts.add a = { a with schemas := a.schemas ++ l } := by
  induction l generalizing a with
  | nil => simp
  | cons x l ih => simp [ih, YParts.add]
theorem foldl_stores (l : List YStore) (a : YParts) : (l.map YItem.store).foldl YParts.add a = { a with stores := a.stores ++ l } := by
  induction l generalizing a with
  | nil => simp
  | cons x l ih => simp [ih, YParts.add]

theorem items_parts (y : YLib) : y.items.foldl YParts.add {} = ⟨y.sets, y.schemas, y.stores, some y.contentId⟩ := by
  simp [YLib.items, List.foldl_append, foldl_sets, foldl_schemas, foldl_stores, YParts.add]

theorem make_self {y : YLib} (h : y.Ok) : YLib.make y.contentId y.sets y.schemas y.stores = y := by
  unfold YLib.make
  rw [mapOf_distinct _ h.setKeys, mapOf_distinct _ h.schemaKeys, mapOf_distinct _ h.storeKeys]

theorem reads_ylib (st : Stack) {y : YLib} (h : y.Ok) : Reads readYangLibrary st (libraryRaws y.items) y := by
  have := reads_library st (items_ok h) (t := y.contentId) (by rw [items_parts])
  rw [items_parts, make_self h] at this
  exact this

/-- the YANG library of a reply is read back -/
theorem library_ok {y : YLib} (h : y.Ok) : LibraryOk yangLib y (libraryRaws y.items) :=
  ⟨fun out => writes_library y out true, fun st _ => reads_ylib st h, ⟨_, _, _, rfl, fun sc => ⟨rfl, rfl⟩⟩⟩

/-- values that the constructors make of parts that are read back -/
theorem set_ok {name : Text} {modules : List YModule} {imports : List YImport} (hn : trim name = name) (hm : ∀ x ∈ modules, x.Ok) (hi : ∀ x ∈ imports, x.Ok) : (YSet.make name modules imports).Ok :=
  ⟨hn, fun x hx => hm x (mem_mapOf _ hx), fun g hg x hx => hi x (mem_importsOf hg hx), distinct_mapOf _ _, grouped_importsOf _⟩

theorem lib_ok {c : Text} {sets : List YSet} {schemas : List YSchema} {stores : List YStore} (hc : trim c = c) (h1 : ∀ x ∈ sets, x.Ok) (h2 : ∀ x ∈ schemas, x.Ok) (h3 : ∀ x ∈ stores, x.Ok) :
    (YLib.make c sets schemas stores).Ok :=
  ⟨hc, fun x hx => h1 x (mem_mapOf _ hx), fun x hx => h2 x (mem_mapOf _ hx), fun x hx => h3 x (mem_mapOf _ hx), distinct_mapOf _ _, distinct_mapOf _ _, distinct_mapOf _ _⟩

end Verif.Xml
