import Verif.Flow.Elements
import Verif.Props.Registries
/-!
# Elements of registries (C289–C291)
-/
namespace Verif.Props
open Verif.Registry
open Verif.Collector (Text trim trimStart isSpace parseNat)

/-! ## C289: descriptions -/

/-- what a description is made of -/
inductive Part where
  | paragraph (t : Text)
  | artwork (t : Text)
  | between (t : Text)

/-- a part as an element; between elements there is white space, as in documents that are set out by lines -/
def Part.node : Part → Node
  | .paragraph t => leaf "paragraph" t
  | .artwork t => leaf "artwork" t
  | .between t => .text t

/-- the text of a part -/
def Part.shown : Part → Text
  | .paragraph t => trim t
  | .artwork t => "\n\n```text\n".toList ++ trim t ++ "\n```\n".toList
  | .between _ => []

/-- a record with a description, behind other elements -/
def withDescription (front : List Node) (parts : List Part) (back : List Node) : Node := .elem (some "record") [] (front ++ .elem (some "description") [] (parts.map Part.node) :: back)

theorem trim_again (t : Text) : trim (trim t) = trim t := by
  have h1 : ∀ (u : Text) c, (u.dropWhile isSpace).head? = some c → isSpace c = false := by
    intro u c h
    have := List.head?_dropWhile_not isSpace u
    rw [h] at this
    simpa using this
  apply tight_trim
  intro c hc
  unfold trim trimStart at hc
  rcases hc with hc | hc
  · rw [List.head?_reverse] at hc
    obtain ⟨p, hp⟩ := List.dropWhile_suffix isSpace (l := (t.dropWhile isSpace).reverse)
    have hl := congrArg List.getLast? hp
    rw [List.getLast?_append, hc, List.getLast?_reverse] at hl
    exact h1 t c hl.symm
  · rw [List.getLast?_reverse] at hc
    exact h1 _ c hc

theorem description_step (t : Text) (p : Part) : descriptionStep (true, t) p.node = (true, t ++ p.shown) := by
  cases p with
  | paragraph u =>
    show _ = (true, t ++ trim u)
    simp only [descriptionStep, Part.node, leaf, Node.tag, Node.body, trim_again]
    by_cases h : trim u = [] <;> simp [h]
  | artwork u =>
    show _ = (true, t ++ (fenceOpen ++ trim u ++ fenceClose))
    simp [descriptionStep, Part.node, leaf, Node.tag, Node.body]
  | between u =>
    show _ = (true, t ++ [])
    simp [descriptionStep, Part.node, Node.tag]

theorem description_fold (ps : List Part) (t : Text) : (ps.map Part.node).foldl descriptionStep (true, t) = (true, t ++ ps.flatMap Part.shown) := by
  induction ps generalizing t with
  | nil => simp
  | cons p ps ih => rw [List.map_cons, List.foldl_cons, description_step, ih, List.flatMap_cons, List.append_assoc]

theorem find_front {front : List Node} {key : String} (h : ∀ x ∈ front, x.tag ≠ some key) (x : Node) (hx : x.tag = some key) (back : List Node) : (front ++ x :: back).find? (fun y => y.tag = some key) = some x := by
  rw [List.find?_append, List.find?_eq_none.mpr (by simpa using h), Option.none_or, List.find?_cons_of_pos (by simpa using hx)]

/-- C289, in part: a description has the texts of its paragraphs and its artwork in their order, without white space around each, artwork between marks. -/
theorem c289_parts_partial (links : Text → Text) (front back : List Node) (h : ∀ x ∈ front, x.tag ≠ some "description") (ps : List Part) :
    elementDescription links (withDescription front ps back) = some (links (ps.flatMap Part.shown)) := by
  unfold elementDescription withDescription
  simp only [Node.children]
  rw [find_front h _ rfl]
  simp only [Option.map_some, description_fold, List.nil_append]

/-- C289 is false: two paragraphs are put together without anything between them. -/
theorem c289_paragraphs_disproved (links : Text → Text) (a b : Text) (s : Text) : elementDescription links (withDescription [] [.paragraph a, .between s, .paragraph b] []) = some (links (trim a ++ trim b)) := by
  rw [c289_parts_partial links [] [] (by intro x hx; cases hx)]
  show some (links (trim a ++ ([] ++ (trim b ++ [])))) = _
  rw [List.append_nil, List.nil_append]

example : elementDescription id (withDescription [.text "\n".toList, leaf "name" "octetDeltaCount".toList] [.paragraph "one of\n ".toList, .between "\n".toList, .paragraph "the octets".toList] []) = some "one ofthe octets".toList := by
  rw [c289_parts_partial]
  · decide
  · simp [leaf, Node.tag]

/-! ## C290: elements -/

/-- the first child of a name has a text -/
def HasChild (n : Node) (key : String) (t : Text) : Prop := ∃ a as cs b, n.children = a ++ .elem (some key) as (.text t :: cs) :: b ∧ ∀ x ∈ a, x.tag ≠ some key

/-- there is no child of a name -/
def LacksChild (n : Node) (key : String) : Prop := ∀ x ∈ n.children, x.tag ≠ some key

theorem has_child {n : Node} {key : String} {t : Text} (h : HasChild n key t) : stringChild n key = some (trim t) := by
  obtain ⟨a, as, cs, b, h1, h2⟩ := h
  unfold stringChild
  rw [h1, find_front h2 _ rfl]
  rfl

theorem lacks_child {n : Node} {key : String} (h : LacksChild n key) : stringChild n key = none := by
  unfold stringChild
  rw [List.find?_eq_none.mpr (by simpa [LacksChild] using h)]
  rfl

theorem stands_digits {bound : Nat} {t : Text} {n : Nat} (h : Stands 10 t n) (hn : n < bound) : Verif.Collector.digits bound 0 t = some n := by
  induction h with
  | one hd => simp [Verif.Collector.digits, ((digit_in hd).2.2.2 hd.1).2, hn]
  | @more t n c v ht hd ih =>
    rw [digits_append, ih (by omega)]
    simp [Verif.Collector.digits, ((digit_in hd).2.2.2 hd.1).2, hn]

theorem parse_decimal {bound : Nat} {t : Text} {n : Nat} (h : Stands 10 t n) (hn : n < bound) : parseNat bound t = some n := by
  have hd := stands_digits h hn
  have hm := stands_mem h
  have hne := stands_ne h
  unfold parseNat
  split
  · exact absurd rfl hne
  · obtain ⟨v, hv⟩ := hm '+' (by simp); exact absurd rfl (digit_in hv).2.1
  · obtain ⟨v, hv⟩ := hm '+' (by simp); exact absurd rfl (digit_in hv).2.1
  · exact hd

/-- C288: the number and the name of an entry are those that come first in its record, wherever they are; without a value the number is the id. -/
theorem c288_first (links : Text → Text) {n : Node} {v t : Text} {k : Nat} (hv : HasChild n "value" v ∨ LacksChild n "value" ∧ HasChild n "id" v) (ht : HasChild n "name" t) (hk : entryValue (trim v) = some k) (h255 : k < 255)
    (h1 : Taken (trim t)) (h2 : ∀ d, HasChild n "description" d → Taken (links (trim d))) (h3 : LacksChild n "description" ∨ ∃ d, HasChild n "description" d) :
    (readEntry links n).map (fun e => (e.value, e.display)) = some (k, trim t) ∧
    (∀ d, HasChild n "description" d → (readEntry links n).map (·.description) = some (links (trim d))) ∧ (LacksChild n "description" → (readEntry links n).map (·.description) = some (trim t)) := by
  have hd : ∀ d, HasChild n "description" d → simpleDescription links n = some (links (trim d)) := by
    rintro d ⟨a, as, cs, b, e1, e2⟩
    unfold simpleDescription
    rw [e1, find_front e2 _ rfl]
    rfl
  have hl : LacksChild n "description" → simpleDescription links n = none := by
    intro h
    unfold simpleDescription
    rw [List.find?_eq_none.mpr (by simpa [LacksChild] using h)]
    rfl
  have hp : passed (simpleDescription links n) = false := by
    rcases h3 with h | ⟨d, h⟩
    · rw [hl h]; rfl
    · rw [hd d h]; exact (passed_iff _).mpr (h2 d h)
  have hr : ∃ a, readEntry links n = some ⟨k, a, trim t, (simpleDescription links n).getD (trim t), stringChild n "comments", stringChild n "parameters", xrefs n⟩ := by
    refine ⟨apart k (enumName (trim t)).2, ?_⟩
    unfold readEntry
    rcases hv with hv | ⟨hv, hi⟩
    · rw [has_child hv, has_child ht]
      simp only [(passed_iff _).mpr h1, hp, hk, Bool.false_eq_true, if_false, if_neg (show ¬ k = 255 by omega), entryNames]
    · rw [lacks_child hv, has_child hi, has_child ht]
      simp only [(passed_iff _).mpr h1, hp, Option.map_some, hk, Bool.false_eq_true, if_false, if_neg (show ¬ k = 255 by omega), entryNames]
  obtain ⟨a, hr⟩ := hr
  rw [hr]
  refine ⟨rfl, fun d h => ?_, fun h => ?_⟩
  · rw [Option.map_some, hd d h]; rfl
  · rw [Option.map_some, hl h]; rfl

example : HasChild (recordNode "1".toList "idle".toList none) "name" "idle".toList ∧ HasChild (recordNode "1".toList "idle".toList none) "value" "1".toList ∧ LacksChild (recordNode "1".toList "idle".toList none) "description" :=
  ⟨⟨[leaf "value" "1".toList], [], [], [], rfl, by simp [leaf, Node.tag]⟩, ⟨[], [], [], [leaf "name" "idle".toList], rfl, by intro x hx; cases hx⟩, by simp [LacksChild, recordNode, Node.children, leaf, Node.tag]⟩

/-- names of elements that there are -/
def ElementName (t : Text) : Prop := t ≠ "Assigned for NetFlow v9 compatibility".toList ∧ t ≠ "Unassigned".toList ∧ t ≠ "Reserved".toList

theorem no_element (t : Text) : noElement t = false ↔ ElementName t := by
  unfold noElement ElementName
  simp only [Bool.or_eq_false_iff, decide_eq_false_iff_not, ne_eq, and_assoc]

/-- an element of a record with all that must be there, in any order -/
structure WholeRecord (links : Text → Text) (n : Node) (name type status date description : Text) (id revision : Nat) : Prop where
  hasName : HasChild n "name" name
  real : ElementName (trim name)
  hasType : HasChild n "dataType" type
  hasId : ∃ t, HasChild n "elementId" t ∧ Stands 10 (trim t) id
  small : id < 65536
  hasStatus : HasChild n "status" status
  hasDescription : elementDescription links n = some description
  hasRevision : ∃ t, HasChild n "revision" t ∧ Stands 10 (trim t) revision
  small' : revision < 4294967296
  hasDate : HasChild n "date" date

theorem whole_read {links : Text → Text} {n : Node} {name type status date description : Text} {id revision : Nat} (h : WholeRecord links n name type status date description id revision) (pen : Nat) (subs : List (Nat × Values)) :
    readElement links pen subs n = some { pen := pen, name := trim name, type := elementType (trim name) (trim type), group := stringChild n "group", semantics := stringChild n "dataTypeSemantics", id := id, applicability := stringChild n "applicability", status := trim status, description := description, revision := revision, date := trim date, reference := (n.children.find? fun x => x.tag = some "references").bind fun r => stringChild r "paragraph", xrefs := xrefs n, units := (stringChild n "units").map fun u => if u = "4-octet words".toList then "fourOctetWords".toList else u, range := stringChild n "range", values := latest subs id } := by
  obtain ⟨t, ht, hs⟩ := h.hasId
  obtain ⟨r, hr, hv⟩ := h.hasRevision
  unfold readElement
  rw [has_child h.hasName, has_child h.hasType, has_child ht, has_child h.hasStatus, h.hasDescription, has_child hr, has_child h.hasDate]
  simp only [Option.bind_eq_bind, Option.bind_some, (no_element _).mpr h.real, Option.map_some, parse_decimal hs h.small, parse_decimal hv h.small', Bool.false_eq_true, if_false]

/-- C290: a record with a name, a type, a number, a status, a description, a revision and a date is an element with these; elements that report samplers and forwarding have a type of their own. -/
theorem c290_element {links : Text → Text} {n : Node} {name type status date description : Text} {id revision : Nat} (h : WholeRecord links n name type status date description id revision) (pen : Nat) (subs : List (Nat × Values)) :
    ∃ e, readElement links pen subs n = some e ∧ e.pen = pen ∧ e.name = trim name ∧ e.id = id ∧ e.status = trim status ∧ e.description = description ∧ e.revision = revision ∧ e.date = trim date ∧
      (trim name ≠ "samplerId".toList → (trim name).map Char.toLower ≠ "forwardingstatus".toList → e.type = trim type) ∧
      (trim name = "samplerId".toList ∨ (trim name).map Char.toLower = "forwardingstatus".toList → e.type = "unsigned32".toList) := by
  refine ⟨_, whole_read h pen subs, rfl, rfl, rfl, rfl, rfl, rfl, rfl, fun h1 h2 => ?_, fun h1 => ?_⟩
  · exact if_neg (fun h => h.elim h1 h2)
  · exact if_pos h1

/-- C290: what may be there or not is read if it is. -/
theorem c290_optional {links : Text → Text} {n : Node} {name type status date description : Text} {id revision : Nat} (h : WholeRecord links n name type status date description id revision) (pen : Nat) (subs : List (Nat × Values)) {e : Element} (he : readElement links pen subs n = some e) (t : Text) :
    (HasChild n "group" t → e.group = some (trim t)) ∧ (LacksChild n "group" → e.group = none) ∧
    (HasChild n "dataTypeSemantics" t → e.semantics = some (trim t)) ∧ (LacksChild n "dataTypeSemantics" → e.semantics = none) ∧
    (HasChild n "applicability" t → e.applicability = some (trim t)) ∧ (LacksChild n "applicability" → e.applicability = none) ∧
    (HasChild n "range" t → e.range = some (trim t)) ∧ (LacksChild n "range" → e.range = none) ∧
    (HasChild n "units" t → trim t ≠ "4-octet words".toList → e.units = some (trim t)) ∧ (HasChild n "units" t → trim t = "4-octet words".toList → e.units = some "fourOctetWords".toList) ∧ (LacksChild n "units" → e.units = none) := by
  rw [whole_read h] at he
  injection he with he
  subst he
  refine ⟨has_child, lacks_child, has_child, lacks_child, has_child, lacks_child, has_child, lacks_child, fun h h' => ?_, fun h h' => ?_, fun h => ?_⟩
  · show (stringChild n "units").map _ = _
    rw [has_child h, Option.map_some, if_neg h']
  · show (stringChild n "units").map _ = _
    rw [has_child h, Option.map_some, if_pos h']
  · show (stringChild n "units").map _ = _
    rw [lacks_child h]; rfl

/-- C290: a record is passed over if something that must be there is not, if its name is that of no element, or if its number is none. -/
theorem c290_passed (links : Text → Text) (pen : Nat) (subs : List (Nat × Values)) {n : Node}
    (h : (∃ k ∈ ["name", "dataType", "elementId", "status", "description", "revision", "date"], LacksChild n k) ∨ (∃ t, HasChild n "name" t ∧ ¬ ElementName (trim t)) ∨ (∃ t, HasChild n "elementId" t ∧ parseNat 65536 (trim t) = none)) :
    readElement links pen subs n = none := by
  cases e : readElement links pen subs n with
  | none => rfl
  | some x =>
    exfalso
    unfold readElement at e
    simp only [Option.bind_eq_bind, Option.bind_eq_some_iff] at e
    obtain ⟨name, h1, e⟩ := e
    split at e
    · cases e
    · rename_i hn
      simp only [Option.bind_eq_some_iff, Option.map_eq_some_iff] at e
      obtain ⟨ty, ⟨ty', h2, -⟩, id, ⟨i, h3, h3'⟩, st, h4, d, h5, r, ⟨r', h6, -⟩, dt, h7, -⟩ := e
      rcases h with ⟨k, hk, hl⟩ | ⟨t, ht, hr⟩ | ⟨t, ht, hp⟩
      · have hc := lacks_child hl
        simp only [List.mem_cons, List.not_mem_nil, or_false] at hk
        rcases hk with rfl | rfl | rfl | rfl | rfl | rfl | rfl
        · rw [hc] at h1; cases h1
        · rw [hc] at h2; cases h2
        · rw [hc] at h3; cases h3
        · rw [hc] at h4; cases h4
        · unfold elementDescription at h5
          rw [List.find?_eq_none.mpr (by simpa [LacksChild] using hl)] at h5
          cases h5
        · rw [hc] at h6; cases h6
        · rw [hc] at h7; cases h7
      · rw [has_child ht] at h1
        injection h1 with h1
        subst h1
        exact hr ((no_element _).mp (by simpa using hn))
      · rw [has_child ht] at h3
        injection h3 with h3
        subst h3
        rw [hp] at h3'; cases h3'

/-- C290: the elements of a registry are those of its records, in their order, with the registries of values of the document, and behind them those from outside. -/
theorem c290_elements (links : Text → Text) (pen : Nat) (ext subs : List (Nat × Values)) {n : Node} (h : subregistries links n = some subs) :
    readElements links pen ext n = some ((n.children.filter fun x => x.tag = some "record").flatMap fun x => (readElement links pen (subs ++ ext) x).toList) := by
  unfold readElements
  rw [h, Option.map_some, Node.named]
  congr 1
  induction (n.children.filter fun x => x.tag = some "record") with
  | nil => rfl
  | cons x xs ih =>
    rw [List.filterMap_cons, List.flatMap_cons, ← ih]
    cases readElement links pen (subs ++ ext) x <;> rfl

/-- a record of an element -/
def octets : Node := .elem (some "record") [] [.text "\n".toList, leaf "name" "octetDeltaCount".toList, leaf "dataType" "unsigned64".toList, leaf "elementId" "1".toList, leaf "status" "current".toList,
  .elem (some "description") [] [leaf "paragraph" "The octets".toList], leaf "revision" "0".toList, leaf "date" "2013-02-18".toList, leaf "units" "octets".toList]

theorem child_at {n : Node} {key : String} {t : Text} (a b : List Node) (h : n.children = a ++ leaf key t :: b) (ha : ∀ x ∈ a, x.tag ≠ some key) : HasChild n key t := ⟨a, [], [], b, h, ha⟩

example : WholeRecord id octets "octetDeltaCount".toList "unsigned64".toList "current".toList "2013-02-18".toList "The octets".toList 1 0 := by
  refine ⟨child_at (octets.children.take 1) (octets.children.drop 2) rfl ?_, ?_, child_at (octets.children.take 2) (octets.children.drop 3) rfl ?_, ⟨_, child_at (octets.children.take 3) (octets.children.drop 4) rfl ?_, .one ⟨by decide, by decide, .inl rfl⟩⟩, by decide,
    child_at (octets.children.take 4) (octets.children.drop 5) rfl ?_, ?_, ⟨_, child_at (octets.children.take 6) (octets.children.drop 7) rfl ?_, .one ⟨by decide, by decide, .inl rfl⟩⟩, by decide, child_at (octets.children.take 7) (octets.children.drop 8) rfl ?_⟩
  case refine_2 => exact (no_element _).mp (by decide)
  case refine_6 => decide
  all_goals simp [octets, Node.children, leaf, Node.tag]

/-! ## C291: registries of values -/

/-- C291: an element has the values of the registry that is given for it from outside, whatever the document has. -/
theorem c291_external {links : Text → Text} {n : Node} {name type status date description : Text} {id revision : Nat} (h : WholeRecord links n name type status date description id revision) (pen : Nat) (subs a b : List (Nat × Values)) (v : Values)
    (hb : ∀ p ∈ b, p.1 ≠ id) : ∃ e, readElement links pen (subs ++ (a ++ (id, v) :: b)) n = some e ∧ e.values = some v := by
  refine ⟨_, whole_read h pen _, ?_⟩
  show latest _ _ = _
  unfold latest
  rw [List.reverse_append, List.reverse_append, List.reverse_cons, List.find?_append, List.find?_append, List.find?_append, List.find?_eq_none.mpr (by simpa using hb)]
  simp

/-- C291: without one from outside it has the values of the last registry of the document for its number, and none if there is no such registry. -/
theorem c291_document {links : Text → Text} {n : Node} {name type status date description : Text} {id revision : Nat} (h : WholeRecord links n name type status date description id revision) (pen : Nat) (ext : List (Nat × Values)) (he : ∀ p ∈ ext, p.1 ≠ id) :
    (∀ a b v, (∀ p ∈ b, p.1 ≠ id) → ∃ e, readElement links pen ((a ++ (id, v) :: b) ++ ext) n = some e ∧ e.values = some v) ∧
    ∀ subs, (∀ p ∈ subs, p.1 ≠ id) → ∃ e, readElement links pen (subs ++ ext) n = some e ∧ e.values = none := by
  refine ⟨fun a b v hb => ?_, fun subs hs => ?_⟩
  · have := c291_external h pen [] a (b ++ ext) v (by
      intro p hp
      rcases List.mem_append.mp hp with hp | hp
      · exact hb p hp
      · exact he p hp)
    simpa using this
  · refine ⟨_, whole_read h pen _, ?_⟩
    show latest _ _ = _
    unfold latest
    rw [List.find?_eq_none.mpr]
    · rfl
    · intro p hp
      rw [List.mem_reverse] at hp
      rcases List.mem_append.mp hp with hp | hp
      · simpa using hs p hp
      · simpa using he p hp

theorem mapM_mem {α β : Type} {f : α → Option β} {l : List α} {r : List β} (h : l.mapM f = some r) : ∀ x ∈ r, ∃ e ∈ l, f e = some x := by
  induction l generalizing r with
  | nil => simp only [List.mapM_nil, Option.pure_def, Option.some.injEq] at h; subst h; intro x hx; cases hx
  | cons a l ih =>
    simp only [List.mapM_cons, Option.bind_eq_bind, Option.bind_eq_some_iff, Option.pure_def, Option.some.injEq] at h
    obtain ⟨b, hb, s, hs, rfl⟩ := h
    intro x hx
    rcases List.mem_cons.mp hx with rfl | hx
    · exact ⟨a, List.mem_cons_self, hb⟩
    · obtain ⟨e, he, h⟩ := ih hs x hx
      exact ⟨e, List.mem_cons_of_mem _ he, h⟩

theorem mapM_all {α β : Type} {f : α → Option β} {l : List α} {r : List β} (h : l.mapM f = some r) : ∀ e ∈ l, ∃ x, f e = some x := by
  induction l generalizing r with
  | nil => intro e he; cases he
  | cons a l ih =>
    simp only [List.mapM_cons, Option.bind_eq_bind, Option.bind_eq_some_iff, Option.pure_def, Option.some.injEq] at h
    obtain ⟨b, hb, s, hs, rfl⟩ := h
    intro x hx
    rcases List.mem_cons.mp hx with rfl | hx
    · exact ⟨b, hb⟩
    · exact ih hs x hx

theorem mapM_map {α β γ : Type} {f : α → Option β} {g : β → γ} {k : α → γ} (hf : ∀ a b, f a = some b → g b = k a) {l : List α} {r : List β} (h : l.mapM f = some r) : r.map g = l.map k := by
  induction l generalizing r with
  | nil => simp only [List.mapM_nil, Option.pure_def, Option.some.injEq] at h; subst h; rfl
  | cons a l ih =>
    simp only [List.mapM_cons, Option.bind_eq_bind, Option.bind_eq_some_iff, Option.pure_def, Option.some.injEq] at h
    obtain ⟨b, hb, s, hs, rfl⟩ := h
    rw [List.map_cons, List.map_cons, hf a b hb, ih hs]

theorem nested_entries {links : Text → Text} {n : Node} {l : List Nested} (h : readNested links n = some l) : l.map (·.entry) = (readEntries links n).map shifted := by
  refine mapM_map (fun e x hx => ?_) h
  simp only [Option.map_eq_some_iff] at hx
  obtain ⟨r, -, rfl⟩ := hx
  rfl

theorem title_digits {d r : Text} (hd : d ≠ []) (hn : ∀ c ∈ d, c.isDigit = true) (hr : ∀ c, r.head? = some c → c.isDigit = false) (a : Text)
    (ha : ∀ x y, a ++ "Value ".toList ++ d ++ r = x ++ "Value ".toList ++ y → x.length < a.length → ∀ c, y.head? = some c → c.isDigit = false) : titleDigits (a ++ "Value ".toList ++ d ++ r) = some d := by
  have ht : (d ++ r).takeWhile Char.isDigit = d := by
    rw [List.takeWhile_append_of_pos hn]
    cases r with
    | nil => simp
    | cons c r => rw [List.takeWhile_cons_of_neg (by simp [hr c rfl])]; simp
  induction a with
  | nil =>
    show titleDigits ('V' :: ("alue ".toList ++ d ++ r)) = _
    unfold titleDigits
    have e : ('V' :: ("alue ".toList ++ d ++ r)).drop 6 = d ++ r := rfl
    rw [e, ht, if_pos]
    exact ⟨rfl, hd⟩
  | cons c a ih =>
    show titleDigits (c :: (a ++ "Value ".toList ++ d ++ r)) = _
    unfold titleDigits
    rw [if_neg]
    · refine ih fun x y e hx => ha (c :: x) y ?_ (by simpa using hx)
      simp only [List.cons_append, e]
    · rintro ⟨h1, h2⟩
      obtain ⟨y, hy⟩ := List.isPrefixOf_iff_prefix.mp h1
      rw [← hy] at h2
      have e : ("Value ".toList ++ y).drop 6 = y := rfl
      rw [e] at h2
      apply h2
      have hz := ha [] y (by rw [List.nil_append, hy]; rfl) (by simp)
      cases y with
      | nil => rfl
      | cons z y => rw [List.takeWhile_cons_of_neg (by simp [hz z rfl])]

/-- C291: a registry is for the element whose number is behind the first `Value` in its title that a number follows. -/
theorem c291_title {n : Node} {t a d r : Text} {k : Nat} (ht : HasChild n "title" t) (e : trim t = a ++ "Value ".toList ++ d ++ r) (hd : Stands 10 d k) (hk : k < 65536) (hr : ∀ c, r.head? = some c → c.isDigit = false)
    (ha : ∀ x y, trim t = x ++ "Value ".toList ++ y → x.length < a.length → ∀ c, y.head? = some c → c.isDigit = false) : titleNumber n = k := by
  have hn : ∀ c ∈ d, c.isDigit = true := by
    intro c hc
    obtain ⟨v, hv⟩ := stands_mem hd c hc
    have := ((digit_in hv).2.2.2 hv.1).2
    unfold Verif.Collector.digit at this
    split at this
    · assumption
    · cases this
  rw [e] at ha
  unfold titleNumber
  rw [has_child ht, Option.getD_some, e, title_digits (stands_ne hd) hn hr a ha, Option.bind_some, parse_decimal hd hk]
  rfl

/-- C291: the registries of values of a document are those of its children with an id that has `ipfix-` in it, in their order, each with the number of its title; that of classifications and that of forwarding come behind them. -/
theorem c291_registries (links : Text → Text) {n : Node} {subs : List (Nat × Values)} (h : subregistries links n = some subs) :
    ∃ more, subs = ((n.children.filter fun x => (x.attr "id").any (hasText "ipfix-".toList)).map fun x => (titleNumber x, Values.plain (readEntries links x))) ++ more ∧
      ∀ p ∈ more, (∃ x ∈ n.descendants, x.attr "id" = some "classification-engine-ids".toList ∧ p = (titleNumber x, .plain (readEntries links x))) ∨
        ∃ x ∈ n.descendants, x.attr "id" = some "forwarding-status".toList ∧ p.1 = titleNumber x ∧ ∃ l, p.2 = .nested l ∧ l.map (·.entry) = (readEntries links x).map shifted := by
  have hid : ∀ {k x}, byId n k = some x → x ∈ n.descendants ∧ x.attr "id" = some k.toList := fun h => ⟨List.mem_of_find?_eq_some h, by simpa using List.find?_some h⟩
  have hc : ∀ p ∈ (byId n "classification-engine-ids").toList.map (fun x => (titleNumber x, Values.plain (readEntries links x))), ∃ x ∈ n.descendants, x.attr "id" = some "classification-engine-ids".toList ∧ p = (titleNumber x, .plain (readEntries links x)) := by
    intro p hp
    obtain ⟨x, hx, rfl⟩ := List.mem_map.mp hp
    rw [Option.mem_toList] at hx
    exact ⟨x, (hid hx).1, (hid hx).2, rfl⟩
  unfold subregistries at h
  simp only [List.map_append] at h
  cases e : byId n "forwarding-status" with
  | none =>
    rw [e] at h
    injection h with h
    exact ⟨_, h.symm, fun p hp => .inl (hc p hp)⟩
  | some f =>
    rw [e] at h
    simp only [Option.map_eq_some_iff] at h
    obtain ⟨l, hl, h⟩ := h
    refine ⟨_, by rw [← h, List.append_assoc]; rfl, fun p hp => ?_⟩
    rcases List.mem_append.mp hp with hp | hp
    · exact .inl (hc p hp)
    · simp only [List.mem_singleton] at hp
      subst hp
      refine .inr ⟨f, (hid e).1, (hid e).2, rfl, l, rfl, nested_entries hl⟩

/-- C291: the reasons of an entry of forwarding are those of the first registry below whose id has its two bits between a dash and `b`. Without one for each entry there are no elements at all. -/
theorem c291_reasons (links : Text → Text) (n : Node) :
    (∀ l, readNested links n = some l → ∀ x ∈ l, ∃ e ∈ readEntries links n, ∃ r ∈ n.children, x.entry = shifted e ∧ x.reasons = readEntries links r ∧ ∃ i a b, r.attr "id" = some i ∧ i = a ++ ('-' :: binaryText e.value ++ ['b']) ++ b) ∧
    ∀ e ∈ readEntries links n, (∀ r ∈ n.children, ∀ i, r.attr "id" = some i → ∀ a b, i ≠ a ++ ('-' :: binaryText e.value ++ ['b']) ++ b) → readNested links n = none := by
  refine ⟨fun l hl x hx => ?_, fun e he hn => ?_⟩
  · obtain ⟨e, he, hx⟩ := mapM_mem hl x hx
    simp only [Option.map_eq_some_iff] at hx
    obtain ⟨r, hr, rfl⟩ := hx
    have hr := List.mem_of_mem_head? hr
    unfold childrenWith at hr
    obtain ⟨h1, h2⟩ := List.mem_filter.mp hr
    cases ea : r.attr "id" with
    | none => rw [ea] at h2; cases h2
    | some i =>
      rw [ea] at h2
      obtain ⟨a, b, h⟩ := (hasText_iff _ _).mp h2
      exact ⟨e, he, r, h1, rfl, rfl, i, a, b, ea, h⟩
  · cases hl : readNested links n with
    | none => rfl
    | some l =>
      obtain ⟨x, hx⟩ := mapM_all hl e he
      simp only [Option.map_eq_some_iff] at hx
      obtain ⟨r, hr, -⟩ := hx
      have hr := List.mem_of_mem_head? hr
      unfold childrenWith at hr
      obtain ⟨h1, h2⟩ := List.mem_filter.mp hr
      cases ea : r.attr "id" with
      | none => rw [ea] at h2; cases h2
      | some i =>
        rw [ea] at h2
        obtain ⟨a, b, h⟩ := (hasText_iff _ _).mp h2
        exact absurd h (hn r h1 i ea a b)

/-- a registry of forwarding with one entry -/
def forwarding : Node := .elem (some "registry") [("id", "forwarding-status".toList)] [leaf "title" "forwardingStatus (Value 89)".toList, recordNode "01b".toList "Forwarded".toList none,
  .elem (some "registry") [("id", "forwarding-status-01b".toList)] [recordNode "64".toList "Unknown".toList none, recordNode "65".toList "Fragmented".toList none]]

example : (subregistries id (.elem (some "registry") [] [.elem (some "registry") [("id", "ipfix-flow-end".toList)] [leaf "title" "x (Value 136)".toList, recordNode "1".toList "idle".toList none], forwarding])) =
    some [(136, .plain [plainEntry 1 "idle"]), (89, .nested [⟨plainEntry 64 "Forwarded", [plainEntry 64 "Unknown", plainEntry 65 "Fragmented"]⟩])] := by decide +kernel

example : titleNumber (.elem (some "registry") [] [leaf "title" "flowEndReason (Value 136)".toList]) = 136 := by decide

end Verif.Props
