import Verif.NetconfXml.YangLibSkip
import Verif.NetconfXml.YangLibEnds
import Verif.NetconfXml.CapLemmas
import Verif.NetconfXml.WellFormedness
import Verif.Props.NetconfTermination
/-!
# C208, C221–C225: the YANG library of a device
-/
namespace Verif.Props
open Verif.Xml
open Verif.Collector (Text trim trimStart isSpace)

/-! ## C208 -/

/-- C208, in part, with the code for the YANG library: reading a message ends on every document in which some closing tag is behind each opening tag and whose attributes are UTF-8. -/
theorem c208_with_library_partial {D : Type} (dates : Dates D) {rs : List Raw}
    (h : ∀ pre q as post, rs = pre ++ .start q as :: post → (∃ p, Raw.close p ∈ post) ∧ ∀ a ∈ as, a.value.isSome = true) :
    (∃ m, run (readMessage dates yangLib) (annotate [] rs) = .ok m) ∨ ∃ e, run (readMessage dates yangLib) (annotate [] rs) = .err e :=
  c208_reading_ends_partial dates (lib := yangLib) safe_yangLibrary h

example : ∀ pre q as post, ([.start ⟨none, "rpc-reply"⟩ [], .start ⟨none, "data"⟩ [], .close ⟨none, "a"⟩] : List Raw) = pre ++ .start q as :: post →
    (∃ p, Raw.close p ∈ post) ∧ ∀ a ∈ as, a.value.isSome = true := by
  intro pre q as post h
  rcases pre with _ | ⟨x, _ | ⟨y, _ | ⟨z, pre⟩⟩⟩
  · simp at h; obtain ⟨⟨_, rfl⟩, rfl⟩ := h; exact ⟨⟨⟨none, "a"⟩, by simp⟩, by simp⟩
  · simp at h; obtain ⟨_, ⟨_, rfl⟩, rfl⟩ := h; exact ⟨⟨⟨none, "a"⟩, by simp⟩, by simp⟩
  · simp at h
  · simp at h

/-! ## C221 -/

/-- no white space at the ends -/
def Tight (t : Text) : Prop := ∀ c, t.head? = some c ∨ t.getLast? = some c → isSpace c = false

theorem tight_trim {t : Text} (h : Tight t) : trim t = t := by
  have hs : ∀ u : Text, (∀ c, u.head? = some c → isSpace c = false) → trimStart u = u := by
    intro u hu
    cases u with
    | nil => rfl
    | cons c u => simp [trimStart, hu c rfl]
  unfold trim
  rw [hs t fun c hc => h c (.inl hc), hs t.reverse fun c hc => h c (.inr (by rw [← List.head?_reverse]; exact hc)), List.reverse_reverse]

/-- the texts of a submodule -/
def submoduleTexts (m : YSubmodule) : List Text := m.name :: (m.revision.toList ++ m.locations)
/-- the texts of a module -/
def moduleTexts (m : YModule) : List Text := m.name :: m.uri :: (m.revision.toList ++ m.features ++ m.deviations ++ m.augmentedBy ++ m.locations ++ m.submodules.flatMap submoduleTexts)
/-- the texts of a module to import only -/
def importTexts (m : YImport) : List Text := m.name :: m.uri :: (m.revision.toList ++ m.locations ++ m.submodules.flatMap submoduleTexts)

/-- a datastore whose name can be told from the well-known ones and whose namespace has no characters that are written as references -/
def PlainStore : YStoreName → Prop
  | .unknown ns name => ns ≠ [] ∧ (∀ c ∈ ns, c ∉ ['<', '>', '&', '\'', '"']) ∧ (∀ c, name.getLast? = some c → isSpace c = false) ∧
      ¬ (ns = "urn:ietf:params:xml:ns:yang:ietf-datastores".toList ∧ name ∈ ["running".toList, "candidate".toList, "startup".toList, "intended".toList, "operational".toList])
  | _ => True

/-- what a module set is made of: its name, its modules and its modules to import only -/
structure SetParts where
  name : Text
  modules : List YModule
  imports : List YImport

/-- parts of a library whose texts have no white space at their ends -/
structure PlainParts (contentId : Text) (sets : List SetParts) (schemas : List YSchema) (stores : List YStore) : Prop where
  contentId : Tight contentId
  names : ∀ s ∈ sets, Tight s.name
  modules : ∀ s ∈ sets, ∀ m ∈ s.modules, ∀ t ∈ moduleTexts m, Tight t
  imports : ∀ s ∈ sets, ∀ m ∈ s.imports, ∀ t ∈ importTexts m, Tight t
  /-- submodules of a module to import only are in a map -/
  keys : ∀ s ∈ sets, ∀ m ∈ s.imports, m.submodules.Pairwise fun a b => a.name ≠ b.name
  schemas : ∀ s ∈ schemas, ∀ t ∈ s.name :: s.sets, Tight t
  stores : ∀ s ∈ stores, PlainStore s.name ∧ Tight s.schema

/-- the library of the parts -/
def libraryOf (contentId : Text) (sets : List SetParts) (schemas : List YSchema) (stores : List YStore) : YLib :=
  YLib.make contentId (sets.map fun s => YSet.make s.name s.modules s.imports) schemas stores

theorem submodule_tight {m : YSubmodule} (h : ∀ t ∈ submoduleTexts m, Tight t) : m.Ok :=
  ⟨tight_trim (h _ (by simp [submoduleTexts])), fun t ht => tight_trim (h t (by simp [submoduleTexts, ht])), fun t ht => tight_trim (h t (by simp [submoduleTexts, ht]))⟩

theorem module_tight {m : YModule} (h : ∀ t ∈ moduleTexts m, Tight t) : m.Ok :=
  ⟨tight_trim (h _ (by simp [moduleTexts])), fun t ht => tight_trim (h t (by simp [moduleTexts, ht])), tight_trim (h _ (by simp [moduleTexts])), fun t ht => tight_trim (h t (by simp [moduleTexts, ht])),
    fun t ht => tight_trim (h t (by simp [moduleTexts, ht])), fun x hx => submodule_tight fun t ht => h t (by simp only [moduleTexts, List.mem_cons, List.mem_append, List.mem_flatMap]; exact .inr (.inr (.inr ⟨x, hx, ht⟩))),
    fun t ht => tight_trim (h t (by simp [moduleTexts, ht])), fun t ht => tight_trim (h t (by simp [moduleTexts, ht]))⟩

theorem import_tight {m : YImport} (h : ∀ t ∈ importTexts m, Tight t) (hk : m.submodules.Pairwise fun a b => a.name ≠ b.name) : m.Ok :=
  ⟨tight_trim (h _ (by simp [importTexts])), fun t ht => tight_trim (h t (by simp [importTexts, ht])), tight_trim (h _ (by simp [importTexts])),
    fun t ht => tight_trim (h t (by simp [importTexts, ht])), fun x hx => submodule_tight fun t ht => h t (by simp only [importTexts, List.mem_cons, List.mem_append, List.mem_flatMap]; exact .inr (.inr (.inr ⟨x, hx, ht⟩))), hk⟩

theorem escape_plain {t : Text} (h : ∀ c ∈ t, c ∉ ['<', '>', '&', '\'', '"']) : escape t = t := by
  induction t with
  | nil => rfl
  | cons c t ih =>
    have hc := h c List.mem_cons_self
    simp at hc
    rw [escape_other _ hc.1 hc.2.1 hc.2.2.1 hc.2.2.2.1 hc.2.2.2.2, ih fun d hd => h d (List.mem_cons_of_mem _ hd)]

theorem store_plain {n : YStoreName} (h : PlainStore n) : n.Ok := by
  cases n with
  | unknown ns name =>
    obtain ⟨h1, h2, h3, h4⟩ := h
    refine ⟨?_, escape_plain h2, h1, tight_trim (t := "ds:".toList ++ name) fun c hc => ?_⟩
    · show YStoreName.of ns name = .unknown ns name
      unfold YStoreName.of
      split
      · next e =>
        have hn : name ∉ ["running".toList, "candidate".toList, "startup".toList, "intended".toList, "operational".toList] := fun hm => h4 ⟨e, hm⟩
        simp only [List.mem_cons, List.not_mem_nil, not_or, or_false] at hn
        rw [if_neg hn.1, if_neg hn.2.1, if_neg hn.2.2.1, if_neg hn.2.2.2.1, if_neg hn.2.2.2.2]
      · rfl
    · have hds : ("ds:".toList ++ name).head? = some 'd' := rfl
      rcases hc with hc | hc
      · rw [hds] at hc; simp at hc; subst hc; decide
      · rw [List.getLast?_append] at hc
        cases hl : name.getLast? with
        | none => rw [hl] at hc; have : some ':' = some c := hc; simp at this; subst this; decide
        | some d => rw [hl] at hc; simp at hc; subst hc; exact h3 d hl
  | _ => exact ⟨by decide +kernel, by decide +kernel, by decide +kernel, by decide +kernel⟩

theorem parts_ok {c : Text} {sets : List SetParts} {schemas : List YSchema} {stores : List YStore} (h : PlainParts c sets schemas stores) : (libraryOf c sets schemas stores).Ok := by
  refine lib_ok (tight_trim h.contentId) ?_ ?_ ?_
  · intro x hx
    obtain ⟨s, hs, rfl⟩ := List.mem_map.1 hx
    exact set_ok (tight_trim (h.names s hs)) (fun m hm => module_tight (h.modules s hs m hm)) fun m hm => import_tight (h.imports s hs m hm) (h.keys s hs m hm)
  · intro x hx
    exact ⟨tight_trim (h.schemas x hx _ (by simp)), fun t ht => tight_trim (h.schemas x hx t (by simp [ht]))⟩
  · intro x hx
    exact ⟨store_plain (h.stores x hx).1, tight_trim (h.stores x hx).2⟩

/-- a library on its own: written and read -/
def libraryAgain (y : YLib) : Option (Res PErr YLib) := (output (writeYangLibrary y) .new).map fun rs => run readYangLibrary (annotate [] rs)

/-- C221, in part: a YANG library whose texts have no white space at their ends, and whose datastores of other modules have names that can be told from the well-known ones and namespaces without
characters that are written as references, is read back from a reply, behind any number of errors, as it was written. -/
theorem c221_reply_partial {D : Type} (dates : Dates D) {c : Text} {sets : List SetParts} {schemas : List YSchema} {stores : List YStore} (h : PlainParts c sets schemas stores) {id : Text}
    (hid : OneLine id ∧ utf8Length id ≤ 4095) :
    again dates yangLib (.reply ⟨some id, .errorsAndData [] (.wellKnown (.yangLibrary (libraryOf c sets schemas stores)))⟩) =
      some (.ok (.reply ⟨some id, .errorsAndData [] (.wellKnown (.yangLibrary (libraryOf c sets schemas stores)))⟩)) :=
  again_reply dates yangLib ⟨fun i hi => by injection hi with hi; subst hi; exact hid, ⟨by simp, _, library_ok (parts_ok h)⟩⟩

/-- C221, in part: and so it is on its own. -/
theorem c221_alone_partial {c : Text} {sets : List SetParts} {schemas : List YSchema} {stores : List YStore} (h : PlainParts c sets schemas stores) :
    libraryAgain (libraryOf c sets schemas stores) = some (.ok (libraryOf c sets schemas stores)) := by
  unfold libraryAgain output WSt.new
  have e : ([[(nsNetconf, "")]] : List (List (Text × String))) = plainBindings := rfl
  rw [e, writes_library]
  simp only [Option.map_some, List.nil_append]
  have := reads_ylib [] (parts_ok h) [] [] trivial
  unfold run
  have hb : headBad (annotate [] (libraryRaws (libraryOf c sets schemas stores).items)) = false := headBad_start _ _ _ _
  rw [hb, ← List.append_nil (libraryRaws (libraryOf c sets schemas stores).items), this]
  rfl

/-- a library with two modules, one of which is listed twice, a module to import only, a schema and two datastores -/
def someParts : List SetParts :=
  [⟨"all".toList, [⟨"a".toList, some "2020-01-01".toList, "urn:a".toList, ["f".toList], ["b".toList], [⟨"s".toList, none, []⟩], ["b".toList], ["http://x/?a=1&b=2".toList]⟩,
      ⟨"b".toList, none, "urn:b".toList, [], [], [], [], []⟩, ⟨"a".toList, none, "urn:a".toList, [], [], [], [], []⟩],
    [⟨"i".toList, none, "urn:i".toList, [], []⟩]⟩]

example : PlainParts "1".toList someParts [⟨"s".toList, ["all".toList]⟩] [⟨.running, "s".toList⟩, ⟨.unknown "urn:x".toList "y".toList, "s".toList⟩] := by
  have tight : ∀ t : Text, (match t.head? with | some c => !isSpace c | none => true) && (match t.getLast? with | some c => !isSpace c | none => true) = true → Tight t := by
    intro t h c hc
    simp only [Bool.and_eq_true] at h
    rcases hc with hc | hc
    · rw [hc] at h; simpa using h.1
    · rw [hc] at h; simpa using h.2
  refine ⟨tight _ (by decide), fun s hs => tight _ ?_, fun s hs m hm t ht => tight _ ?_, fun s hs m hm t ht => tight _ ?_, ?_, fun s hs t ht => tight _ ?_, ?_⟩
  · revert s hs; decide
  · revert s hs m hm t ht; decide +kernel
  · revert s hs m hm t ht; decide +kernel
  · decide +kernel
  · revert s hs t ht; decide +kernel
  · intro s hs
    simp only [List.mem_cons, List.not_mem_nil, or_false] at hs
    rcases hs with rfl | rfl
    · exact ⟨trivial, tight _ (by decide)⟩
    · refine ⟨⟨by decide, by decide, ?_, by decide +kernel⟩, tight _ (by decide)⟩
      intro c hc; simp at hc; subst hc; decide

/-- C221 does not hold of texts with white space at their ends. -/
theorem c221_white_space_disproved : (match libraryAgain (libraryOf " 1".toList [] [] []) with | some (.ok y) => decide (y = libraryOf "1".toList [] [] []) | _ => false) = true := by decide +kernel

/-- Nor of a datastore whose namespace has an ampersand: it is read as it is written in the attribute. -/
theorem c221_ampersand_disproved : (match libraryAgain (libraryOf "1".toList [] [] [⟨.unknown "urn:x?a&b".toList "y".toList, "s".toList⟩]) with
    | some (.ok y) => decide (y = libraryOf "1".toList [] [] [⟨.unknown "urn:x?a&amp;b".toList "y".toList, "s".toList⟩]) | _ => false) = true := by decide +kernel

/-- And a datastore without namespace that is written cannot be read at all. -/
theorem c221_no_namespace_disproved : (match libraryAgain (libraryOf "1".toList [] [] [⟨.unknown [] "y".toList, "s".toList⟩]) with | some (.err .invalidValue) => true | _ => false) = true := by decide +kernel

/-! ## C219 -/

/-- C219, in part, of the YANG library: what is written of any library, on its own or in a reply whose errors have no `&` and `<` in their texts, is a well formed document. -/
theorem c219_library_partial (y : YLib) :
    (∃ rs, output (writeYangLibrary y) .new = some rs ∧ WellFormed rs) ∧
    ∀ (id : Option Text) (es : List RpcError), (∀ e ∈ es, ErrorClear e) → ∃ rs, output (writeReply yangLib ⟨id, .errorsAndData es (.wellKnown (.yangLibrary y))⟩) .new = some rs ∧ WellFormed rs := by
  have hb : Bal (libraryRaws y.items) := Bal.tag _ _ (bal_flatMap _ fun i _ => bal_item i) .nil
  refine ⟨⟨libraryRaws y.items, ?_, ?_⟩, ?_⟩
  · unfold output WSt.new
    have e : ([[(nsNetconf, "")]] : List (List (Text × String))) = plainBindings := rfl
    rw [e, writes_library]; rfl
  · exact ⟨_, _, _, rfl, balanced_of_bal (bal_flatMap _ fun i _ => bal_item i)⟩
  · intro id es he
    refine ⟨replyRaws id (es.flatMap errorRaws ++ elem "data" (libraryRaws y.items)), ?_, _, _, _, rfl, balanced_of_bal (bal_append (bal_flatMap es fun e h => bal_error (he e h)) (bal_elem hb))⟩
    unfold output
    have e : writeReply yangLib ⟨id, .errorsAndData es (.wellKnown (.yangLibrary y))⟩ .new =
        some ((), ⟨replyRaws id (es.flatMap errorRaws ++ elem "data" (libraryRaws y.items)), plainBindings, true⟩) := by
      refine (wbind (a := (⟨none, "rpc-reply"⟩, [⟨⟨none, "xmlns"⟩, some nsNetconf⟩])) (w' := ⟨[], plainBindings, true⟩) rfl).trans ?_
      refine (wbind (a := ()) (w' := ⟨[.start ⟨none, "rpc-reply"⟩ (topAttrs id)], plainBindings, true⟩) (by cases id <;> rfl)).trans ?_
      refine (wbind (writes_all (fun e => writes_error e _) es _)).trans ?_
      refine (wbind (writes_around (n := "data") (fun out => writes_library y out true) _)).trans ?_
      simp [write, replyRaws]
    rw [e]; rfl

/-! ## C222 -/

/-- the document of a library with children in some order -/
def libraryDoc (items : List YItem) : List Raw := libraryRaws items

def itemSets (items : List YItem) : List YSet := items.filterMap fun | .set x => some x | _ => none
def itemSchemas (items : List YItem) : List YSchema := items.filterMap fun | .schema x => some x | _ => none
def itemStores (items : List YItem) : List YStore := items.filterMap fun | .store x => some x | _ => none
def itemIds (items : List YItem) : List Text := items.filterMap fun | .contentId x => some x | _ => none

theorem foldl_items (items : List YItem) : ∀ a : YParts, items.foldl YParts.add a =
    ⟨a.sets ++ itemSets items, a.schemas ++ itemSchemas items, a.stores ++ itemStores items, (itemIds items).getLast?.or a.contentId⟩ := by
  induction items with
  | nil => intro a; simp [itemSets, itemSchemas, itemStores, itemIds]
  | cons i l ih =>
    intro a
    rw [List.foldl_cons, ih]
    cases i with
    | set x => simp [itemSets, itemSchemas, itemStores, itemIds, YParts.add]
    | schema x => simp [itemSets, itemSchemas, itemStores, itemIds, YParts.add]
    | store x => simp [itemSets, itemSchemas, itemStores, itemIds, YParts.add]
    | contentId t =>
      simp only [itemSets, itemSchemas, itemStores, itemIds, YParts.add, List.filterMap_cons]
      rw [List.getLast?_cons]
      cases (List.filterMap (fun | .contentId x => some x | _ => none) l : List Text).getLast? <;> rfl

/-- C222: the module sets, schemas, datastores and the content-id of a library are read in whatever order they come: of each kind all are taken, in the order in which they come, and the last content-id. -/
theorem c222_any_order {items : List YItem} (h : ∀ i ∈ items, i.Ok) {t : Text} (ht : (itemIds items).getLast? = some t) :
    run readYangLibrary (annotate [] (libraryDoc items)) = .ok (YLib.make t (itemSets items) (itemSchemas items) (itemStores items)) := by
  have hf := foldl_items items {}
  have := reads_library [] h (t := t) (by rw [hf]; simp [ht]) [] [] trivial
  unfold run libraryDoc
  have hb : headBad (annotate [] (libraryRaws items)) = false := headBad_start _ _ _ _
  rw [hb, ← List.append_nil (libraryRaws items), this, hf]
  simp

/-- So two documents that have the same children of each kind are read alike. -/
theorem c222_rearranged {a b : List YItem} (ha : ∀ i ∈ a, i.Ok) (hb : ∀ i ∈ b, i.Ok) (h1 : itemSets a = itemSets b) (h2 : itemSchemas a = itemSchemas b) (h3 : itemStores a = itemStores b)
    (h4 : itemIds a = itemIds b) (h5 : itemIds a ≠ []) : run readYangLibrary (annotate [] (libraryDoc a)) = run readYangLibrary (annotate [] (libraryDoc b)) := by
  cases ht : (itemIds a).getLast? with
  | none => rw [List.getLast?_eq_none_iff] at ht; exact absurd ht h5
  | some t => rw [c222_any_order ha ht, c222_any_order hb (h4 ▸ ht), h1, h2, h3]

example : ∃ a b : List YItem, a ≠ b ∧ (∀ i ∈ a, i.Ok) ∧ (∀ i ∈ b, i.Ok) ∧ itemSets a = itemSets b ∧ itemSchemas a = itemSchemas b ∧ itemStores a = itemStores b ∧ itemIds a = itemIds b ∧ itemIds a ≠ [] :=
  ⟨[.contentId ['1'], .schema ⟨['s'], []⟩], [.schema ⟨['s'], []⟩, .contentId ['1']], by simp, by
    intro i hi; simp at hi; rcases hi with rfl | rfl
    · exact (by decide : trim ['1'] = ['1'])
    · exact ⟨by decide, by simp⟩, by
    intro i hi; simp at hi; rcases hi with rfl | rfl
    · exact ⟨by decide, by simp⟩
    · exact (by decide : trim ['1'] = ['1']), rfl, rfl, rfl, rfl, by simp [itemIds]⟩

/-! ## C223 -/


/-- a document with a module set of certain content -/
def setDoc (content : List Raw) : List Raw :=
  .start ⟨none, "yang-library"⟩ [⟨⟨none, "xmlns"⟩, some "urn:ietf:params:xml:ns:yang:ietf-yang-library".toList⟩] ::
    (elem "module-set" (elem "name" [.text ['s']] ++ content) ++ (elem "content-id" [.text ['1']] ++ [.close ⟨none, "yang-library"⟩]))

/-- C223, in part: elements that the code does not know at the end of a module are passed over, and nothing of the module is lost. -/
theorem c223_more_at_end_partial {m : YModule} (h : ∀ t ∈ moduleTexts m, Tight t) {more : List Raw} (hb : Bal more) (hf : Begins ["location", "submodule", "feature", "deviation", "augmented-by"] more)
    {st : Stack} (hs : InNs st "urn:ietf:params:xml:ns:yang:ietf-yang-library".toList) (R : List Raw) (hR : Next (annotate st R)) (ps : List Bool) :
    readYModule ⟨annotate st (moduleRawsMore m more ++ R), ps⟩ = (.ok m, ⟨annotate st R, ps⟩) :=
  reads_moduleMore hs (module_tight h) hb (fun sc R => (begins_next hf st ⟨none, "module"⟩ sc R (by decide)).1)
    (fun k hk ns sc R => (begins_next hf st ⟨none, "module"⟩ sc R (by decide)).2 k hk ns) R ps hR

example : Bal (elem "checksum" [.text ['1']]) ∧ Begins ["location", "submodule", "feature", "deviation", "augmented-by"] (elem "checksum" [.text ['1']]) :=
  ⟨bal_elem (.single rfl .nil), by simp [Begins, elem]⟩

/-- C223 does not hold of a module set whose modules to import only come first: its modules are lost, and nothing is reported. -/
theorem c223_imports_first_disproved :
    (match run readYangLibrary (annotate [] (setDoc (elem "import-only-module" (elem "name" [.text ['i']] ++ elem "namespace" [.text ['n']]) ++ elem "module" (elem "name" [.text ['m']] ++ elem "namespace" [.text ['n']])))) with
      | .ok y => decide (y = YLib.make ['1'] [YSet.make ['s'] [] [⟨['i'], none, ['n'], [], []⟩]] [] []) | _ => false) = true := by decide +kernel

/-- Nor of a module whose namespace comes before its revision: the revision is lost. -/
theorem c223_revision_late_disproved :
    (match run readYangLibrary (annotate [] (setDoc (elem "module" (elem "name" [.text ['m']] ++ (elem "namespace" [.text ['n']] ++ elem "revision" [.text ['r']]))))) with
      | .ok y => decide (y = YLib.make ['1'] [YSet.make ['s'] [⟨['m'], none, ['n'], [], [], [], [], []⟩] []] [] []) | _ => false) = true := by decide +kernel

/-- Nor of a module in which an element of another module comes before a feature: the feature is lost. -/
theorem c223_unknown_between_disproved :
    (match run readYangLibrary (annotate [] (setDoc (elem "module" (elem "name" [.text ['m']] ++ (elem "namespace" [.text ['n']] ++ (elem "checksum" [.text ['x']] ++ elem "feature" [.text ['f']])))))) with
      | .ok y => decide (y = YLib.make ['1'] [YSet.make ['s'] [⟨['m'], none, ['n'], [], [], [], [], []⟩] []] [] []) | _ => false) = true := by decide +kernel

/-- While such an element between the children of the library makes all of it unreadable. -/
theorem c223_unknown_child_disproved :
    (match run readYangLibrary (annotate [] (.start ⟨none, "yang-library"⟩ [⟨⟨none, "xmlns"⟩, some "urn:ietf:params:xml:ns:yang:ietf-yang-library".toList⟩] ::
      (elem "content-id" [.text ['1']] ++ (.start ⟨none, "checksum"⟩ [⟨⟨none, "xmlns"⟩, some "urn:x".toList⟩] :: .close ⟨none, "checksum"⟩ :: [.close ⟨none, "yang-library"⟩])))) with
      | .err (.wrongToken _) => true | _ => false) = true := by decide +kernel

/-! ## C224 -/

/-- a `datastore` element whose name has declarations of prefixes and a text -/
def storeElement (decls : List (String × Text)) (name schema : Text) : List Raw :=
  elem "datastore" (.start ⟨none, "name"⟩ (decls.map fun d => ⟨⟨some "xmlns", d.1⟩, some d.2⟩) :: (written name ++ [.close ⟨none, "name"⟩]) ++ leafRaws "schema" schema)

/-- the namespace that a prefix stands for: the last declaration at the name itself, else what is declared around it -/
def standsFor (decls : List (String × Text)) (outside : Scope) (p : String) : Option Text :=
  match decls.reverse.find? fun d => d.1 = p with
  | some d => some d.2
  | none => (outside.find? fun d => d.1 = p).map (·.2)

/-- the datastores of RFC 8342; all others are known by namespace and name -/
def storeCalled (ns name : Text) : YStoreName :=
  match (if ns = "urn:ietf:params:xml:ns:yang:ietf-datastores".toList then
      [("running", YStoreName.running), ("candidate", .candidate), ("startup", .startup), ("intended", .intended), ("operational", .operational)].find? fun d => d.1.toList = name else none) with
  | some d => d.2
  | none => .unknown ns name

theorem storeCalled_of (ns name : Text) : YStoreName.of ns name = storeCalled ns name := by
  unfold YStoreName.of storeCalled
  show (if ns = nsDatastores then _ else _) = _
  by_cases h : ns = nsDatastores
  · have h' : ns = "urn:ietf:params:xml:ns:yang:ietf-datastores".toList := h
    rw [if_pos h, if_pos h']
    simp only [List.find?_cons, List.find?_nil]
    by_cases h1 : name = "running".toList
    · subst h1; simp
    by_cases h2 : name = "candidate".toList
    · subst h2; simp
    by_cases h3 : name = "startup".toList
    · subst h3; simp
    by_cases h4 : name = "intended".toList
    · subst h4; simp
    by_cases h5 : name = "operational".toList
    · subst h5; simp
    rw [if_neg h1, if_neg h2, if_neg h3, if_neg h4, if_neg h5]
    simp only [eq_comm (b := name), h1, h2, h3, h4, h5, decide_false]
  · have h' : ns ≠ "urn:ietf:params:xml:ns:yang:ietf-datastores".toList := h
    rw [if_neg h, if_neg h']

theorem declared_decls (decls : List (String × Text)) : declared (decls.map fun d => ⟨⟨some "xmlns", d.1⟩, some d.2⟩) = decls.reverse := by
  induction decls with
  | nil => rfl
  | cons d l ih => rw [List.map_cons, List.reverse_cons, ← ih]; rfl

theorem find_scope (s : Scope) (p : String) : s.find p = (s.find? fun d => d.1 = p).map (·.2) := by
  induction s with
  | nil => rfl
  | cons d l ih =>
    obtain ⟨a, b⟩ := d
    simp only [Scope.find, List.find?_cons]
    by_cases h : a = p
    · simp [h]
    · simp [h, ih]

theorem stands_find (decls : List (String × Text)) (outside : Scope) (p : String) : Scope.find (decls.reverse ++ outside) p = standsFor decls outside p := by
  rw [find_scope, List.find?_append]
  unfold standsFor
  cases decls.reverse.find? fun d => decide (d.1 = p) <;> rfl

theorem split_colon {p : Text} (h : ':' ∉ p) (n : Text) : splitName (p ++ ':' :: n) = (⟨some (String.ofList p), String.ofList n⟩, n) := by
  have e : (p ++ ':' :: n).span (· ≠ ':') = (p, ':' :: n) := by
    have loop : ∀ (p acc : Text), ':' ∉ p → List.span.loop (fun x : Char => decide (x ≠ ':')) (p ++ ':' :: n) acc = (acc.reverse ++ p, ':' :: n) := by
      intro p
      induction p with
      | nil => intro acc _; simp [List.span.loop]
      | cons c p ih =>
        intro acc h
        have hc : c ≠ ':' := fun e => h (e ▸ List.mem_cons_self)
        rw [List.cons_append, List.span.loop]
        simp only [ne_eq, hc, not_false_eq_true, decide_true]
        refine (ih (c :: acc) fun hm => h (List.mem_cons_of_mem _ hm)).trans ?_
        simp
    exact loop p [] h
  unfold splitName
  simp only [e]

/-- the state in which the name of a datastore is looked at: the element is open and its text is read -/
theorem store_opens {st : Stack} (h : InNs st nsYangLibrary) {decls : List (String × Text)} (hd : ∀ d ∈ decls, d.1 ≠ "") (name schema : Text) (R : List Raw) (ps : List Bool) (f : Text → P YStore) :
    (do skipText; let _ ← openTag nsYangLibrary "datastore"; skipText; let _ ← openTag nsYangLibrary "name"; let t ← tagString; f t : P YStore) ⟨annotate st (storeElement decls name schema ++ R), ps⟩ =
      f name ⟨annotate ((⟨none, "name"⟩, decls.reverse ++ st.scope) :: (⟨none, "datastore"⟩, st.scope) :: st) (.close ⟨none, "name"⟩ :: (leafRaws "schema" schema ++ .close ⟨none, "datastore"⟩ :: R)), true :: true :: ps⟩ := by
  refine (bind_ok (skipText_next (next_elem _ _ _ _))).trans ?_
  rw [elem_append]
  simp only [List.append_assoc, List.cons_append, List.nil_append]
  refine (bind_ok (open_elem h (headBad_start _ _ _ _))).trans ?_
  refine (bind_ok (skipText_next (next_start _ _ _ _))).trans ?_
  have hopen : (declared (decls.map fun d => (⟨⟨some "xmlns", d.1⟩, some d.2⟩ : Attr)) ++ Stack.scope ((⟨none, "datastore"⟩, st.scope) :: st)).resolve ⟨none, "name"⟩ = .bound nsYangLibrary := by
    have h2 := inNs_resolve h "name"
    rw [declared_decls]
    show Scope.resolve (decls.reverse ++ st.scope) _ = _
    simp only [Scope.resolve] at h2 ⊢
    rw [stands_find]
    have : standsFor decls st.scope "" = Scope.find st.scope "" := by
      unfold standsFor
      have hn : (decls.reverse.find? fun d => decide (d.1 = "")) = none := by
        rw [List.find?_eq_none]; intro d hm; simpa using hd d (by simpa using hm)
      rw [hn, find_scope]
    rw [this]; exact h2
  refine (bind_ok (open_start hopen (fine_flat (flat_written _) _ (next_fine (next_close _ _ _ _))))).trans ?_
  refine (bind_ok (tagString_flat (flat_written _))).trans ?_
  rw [plain_written, declared_decls]; rfl

theorem resolve_prefix {p : Text} (hp : p ≠ "xml".toList) (hn : p ≠ []) (l : String) (s : Scope) {r : Resolved}
    (h : r = match s.find (String.ofList p) with | some [] => .unknown | some n => .bound n | none => .unknown) : s.resolve ⟨some (String.ofList p), l⟩ = r := by
  have hx : String.ofList p ≠ "xml" := by
    intro e
    apply hp
    rw [← e, String.toList_ofList]
  subst h
  unfold Scope.resolve
  generalize String.ofList p = q at hx
  split
  · next e => exact absurd e (by simp)
  · next e => exact absurd (by simpa using e) hx
  · next e => simp only [Option.some.injEq] at e; subst e; rfl

/-- C224: the name of a datastore is understood by the namespace that its prefix stands for, whatever the prefix is and wherever it is declared: `running`, `candidate`, `startup`, `intended` and `operational`
of the module of RFC 8342 are known, all others are kept with their namespace. -/
theorem c224_by_namespace {st : Stack} (h : InNs st "urn:ietf:params:xml:ns:yang:ietf-yang-library".toList) {decls : List (String × Text)} (hd : ∀ d ∈ decls, d.1 ≠ "") {p n schema ns : Text}
    (hp : p ≠ [] ∧ ':' ∉ p ∧ p ≠ "xml".toList) (ht : Tight (p ++ ':' :: n)) (hs : Tight schema) (hns : standsFor decls st.scope (String.ofList p) = some ns) (hne : ns ≠ [])
    (R : List Raw) (hR : Next (annotate st R)) (ps : List Bool) :
    readStore ⟨annotate st (storeElement decls (p ++ ':' :: n) schema ++ R), ps⟩ = (.ok ⟨storeCalled ns n, schema⟩, ⟨annotate st R, ps⟩) := by
  have h : InNs st nsYangLibrary := h
  refine (store_opens h hd _ _ R ps _).trans ?_
  have hid : resolveIdentity (trim (p ++ ':' :: n)) ⟨annotate ((⟨none, "name"⟩, decls.reverse ++ st.scope) :: (⟨none, "datastore"⟩, st.scope) :: st) (.close ⟨none, "name"⟩ :: (leafRaws "schema" schema ++ .close ⟨none, "datastore"⟩ :: R)), true :: true :: ps⟩ =
      (.ok (ns, n), ⟨annotate ((⟨none, "name"⟩, decls.reverse ++ st.scope) :: (⟨none, "datastore"⟩, st.scope) :: st) (.close ⟨none, "name"⟩ :: (leafRaws "schema" schema ++ .close ⟨none, "datastore"⟩ :: R)), true :: true :: ps⟩) := by
    unfold resolveIdentity
    rw [tight_trim ht, tight_trim ht, annotate_close, split_colon hp.2.1]
    have e : Scope.resolve (decls.reverse ++ st.scope) ⟨some (String.ofList p), String.ofList n⟩ = .bound ns :=
      resolve_prefix hp.2.2 hp.1 _ _ (by rw [stands_find, hns]; cases ns with | nil => exact absurd rfl hne | cons c l => rfl)
    simp only [List.head?_cons, Option.map_some, Option.getD_some, e]
  refine (bind_ok hid).trans ?_
  refine (bind_ok (close_here (fine_leafRaws _ _ _ _))).trans ?_
  refine (bind_ok (skipText_next (next_leafRaws _ _ _ _))).trans ?_
  have h' : InNs ((⟨none, "datastore"⟩, st.scope) :: st) nsYangLibrary := h
  obtain ⟨s, h1, h2⟩ := reads_textLeaf h' "schema" (tight_trim hs) (.close ⟨none, "datastore"⟩ :: R) (true :: ps) (next_close _ _ _ _)
  refine (bind_ok h1).trans ?_
  have h3 : (do let u ← tagString; close; close; return (⟨YStoreName.of ns n, trim u⟩ : YStore) : P YStore) s =
      (do let u ← (do let t ← tagString; close; return trim t : P Text); close; return (⟨YStoreName.of ns n, u⟩ : YStore) : P YStore) s := by
    simp only [bind, pure]
    rcases tagString s with ⟨_ | _ | _, s'⟩
    · simp only
      rcases close s' with ⟨_ | _ | _, s''⟩ <;> rfl
    · rfl
    · rfl
  refine h3.trans ?_
  refine (bind_ok h2).trans ?_
  refine (bind_ok (close_here (next_fine hR))).trans ?_
  rw [storeCalled_of]; rfl

/-- C224: a prefix that stands for nothing is an error, and no datastore is made up. -/
theorem c224_unbound {st : Stack} (h : InNs st "urn:ietf:params:xml:ns:yang:ietf-yang-library".toList) {decls : List (String × Text)} (hd : ∀ d ∈ decls, d.1 ≠ "") {p n schema : Text}
    (hp : p ≠ [] ∧ ':' ∉ p ∧ p ≠ "xml".toList) (ht : Tight (p ++ ':' :: n)) (hns : standsFor decls st.scope (String.ofList p) = none)
    (R : List Raw) (ps : List Bool) :
    (readStore ⟨annotate st (storeElement decls (p ++ ':' :: n) schema ++ R), ps⟩).1 = .err .invalidValue := by
  have h : InNs st nsYangLibrary := h
  have hs := store_opens h hd (p ++ ':' :: n) schema R ps fun t => do
    let id ← resolveIdentity (trim t)
    close
    skipText
    let _ ← openTag nsYangLibrary "schema"
    let u ← tagString
    close
    close
    return ⟨YStoreName.of id.1 id.2, trim u⟩
  refine (congrArg Prod.fst hs).trans ?_
  have hid : ∀ s : St, s.evs.head?.map Ev.scope = some (decls.reverse ++ st.scope) → resolveIdentity (trim (p ++ ':' :: n)) s = (.err .invalidValue, s) := by
    intro s hs
    unfold resolveIdentity
    rw [tight_trim ht, tight_trim ht, split_colon hp.2.1, hs]
    have e : Scope.resolve (decls.reverse ++ st.scope) ⟨some (String.ofList p), String.ofList n⟩ = .unknown :=
      resolve_prefix hp.2.2 hp.1 _ _ (by rw [stands_find, hns])
    simp only [Option.getD_some, e]
  exact congrArg Prod.fst (bind_err (hid _ (by rw [annotate_close]; rfl)))

example : standsFor [("x", "urn:a".toList), ("x", "urn:ietf:params:xml:ns:yang:ietf-datastores".toList)] [("", "urn:ietf:params:xml:ns:yang:ietf-yang-library".toList)] (String.ofList ['x']) =
    some "urn:ietf:params:xml:ns:yang:ietf-datastores".toList ∧ storeCalled "urn:ietf:params:xml:ns:yang:ietf-datastores".toList "intended".toList = .intended ∧
    standsFor [] [("", "urn:ietf:params:xml:ns:yang:ietf-yang-library".toList)] (String.ofList ['x']) = none := by decide +kernel

/-! ## C225 -/

/-- C225: what a module set has under a name is the module of that name that was listed last, whichever way the set came about; and under a name and a revision the module to import only. -/
theorem c225_found_by_name (name : Text) (modules : List YModule) (imports : List YImport) (n : Text) (r : Option Text) :
    (YSet.make name modules imports).modules.find? (fun m => m.name = n) = modules.reverse.find? (fun m => m.name = n) ∧
    findImport (YSet.make name modules imports).imports n r = imports.reverse.find? fun m => m.name = n ∧ m.revision = r :=
  ⟨find_mapOf _ _ _, find_importsOf _ _ _⟩

/-- C225: the same of the module sets, schemas and datastores of a library. -/
theorem c225_found_in_library (c : Text) (sets : List YSet) (schemas : List YSchema) (stores : List YStore) (n : Text) (d : YStoreName) :
    (YLib.make c sets schemas stores).sets.find? (fun m => m.name = n) = sets.reverse.find? (fun m => m.name = n) ∧
    (YLib.make c sets schemas stores).schemas.find? (fun m => m.name = n) = schemas.reverse.find? (fun m => m.name = n) ∧
    (YLib.make c sets schemas stores).stores.find? (fun m => m.name = d) = stores.reverse.find? (fun m => m.name = d) :=
  ⟨find_mapOf _ _ _, find_mapOf _ _ _, find_mapOf _ _ _⟩

example : ((YSet.make ['s'] [⟨['a'], none, ['n'], [], [], [], [], []⟩, ⟨['a'], none, ['m'], [], [], [], [], []⟩] []).modules.find? (fun m => m.name = ['a'])).map (·.uri) = some ['m'] := by decide

end Verif.Props
