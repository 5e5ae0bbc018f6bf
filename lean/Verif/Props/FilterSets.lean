import Verif.NetconfXml.Filters
import Verif.Props.SubtreeFilters
/-!
# Sets of filters (C282)
-/
namespace Verif.Props
open Verif.Xml Verif.Collector

/-- a filter by a path or by a subtree -/
def PlainSpec : FilterSpec → Prop
  | .xpath f => PlainPath f
  | .subtree f => PlainSubtree f

/-- a filter with a name that has no white space at its ends -/
structure PlainFilter (f : NamedFilter) : Prop where
  name : Tight f.name
  spec : PlainSpec f.spec

/-- what is in a document of filters: filters of streams, filters of datastores, and other elements -/
inductive FilterItem where
  | stream (f : NamedFilter)
  | selection (f : NamedFilter)
  | other (q : QName) (as : List Attr) (c : List Raw)

def FilterItem.raws : FilterItem → List Raw
  | .stream f => streamRaws f
  | .selection f => selectionRaws f
  | .other q as c => .start q as :: (c ++ [.close q])

def FilterItem.Plain : FilterItem → Prop
  | .stream f => PlainFilter f
  | .selection f => PlainFilter f
  | .other q _ c => Bal c ∧ q.loc ≠ "stream-filter" ∧ q.loc ≠ "selection-filter"

/-- the filters of streams, and of datastores, of a document -/
def streamsOf (l : List FilterItem) : List NamedFilter := l.filterMap fun | .stream f => some f | _ => none
def selectionsOf (l : List FilterItem) : List NamedFilter := l.filterMap fun | .selection f => some f | _ => none

/-- the filters by name: of those with the same name the last counts -/
def ByName (l : List NamedFilter) (m : List (Text × NamedFilter)) : Prop :=
  (∀ f, (∃ n, (n, f) ∈ m) ↔ ∃ a b, l = a ++ f :: b ∧ ∀ g ∈ b, g.name ≠ f.name) ∧ (∀ b ∈ m, b.1 = b.2.name) ∧ m.Pairwise fun a b => a.1 ≠ b.1

theorem insert_keys (m : List (Text × NamedFilter)) (f : NamedFilter) : ∀ b ∈ insertFilter m f, b = (f.name, f) ∨ (b ∈ m ∧ b.1 ≠ f.name) ∨ (b ∈ m ∧ ¬ m.Pairwise fun a b => a.1 ≠ b.1) := by
  induction m with
  | nil => intro b hb; simp [insertFilter] at hb; exact .inl hb
  | cons x m ih =>
    intro b hb
    unfold insertFilter at hb
    by_cases e : x.1 = f.name
    · rw [if_pos e] at hb
      rcases List.mem_cons.mp hb with rfl | hb
      · exact .inl (by rw [e])
      · by_cases hx : b.1 = f.name
        · refine .inr (.inr ⟨List.mem_cons_of_mem _ hb, fun hp => ?_⟩)
          exact (List.pairwise_cons.mp hp).1 b hb (e.trans hx.symm)
        · exact .inr (.inl ⟨List.mem_cons_of_mem _ hb, hx⟩)
    · rw [if_neg e] at hb
      rcases List.mem_cons.mp hb with rfl | hb
      · exact .inr (.inl ⟨List.mem_cons_self, e⟩)
      · rcases ih b hb with h | ⟨h1, h2⟩ | ⟨h1, h2⟩
        · exact .inl h
        · exact .inr (.inl ⟨List.mem_cons_of_mem _ h1, h2⟩)
        · exact .inr (.inr ⟨List.mem_cons_of_mem _ h1, fun hp => h2 (List.pairwise_cons.mp hp).2⟩)

theorem insert_there (m : List (Text × NamedFilter)) (f : NamedFilter) : (f.name, f) ∈ insertFilter m f := by
  induction m with
  | nil => simp [insertFilter]
  | cons x m ih =>
    unfold insertFilter
    by_cases e : x.1 = f.name
    · rw [if_pos e, e]; exact List.mem_cons_self
    · rw [if_neg e]; exact List.mem_cons_of_mem _ ih

theorem insert_others {m : List (Text × NamedFilter)} {f : NamedFilter} {b : Text × NamedFilter} (hb : b ∈ m) (hn : b.1 ≠ f.name) : b ∈ insertFilter m f := by
  induction m with
  | nil => cases hb
  | cons x m ih =>
    unfold insertFilter
    by_cases e : x.1 = f.name
    · rw [if_pos e]
      rcases List.mem_cons.mp hb with rfl | hb
      · exact absurd e hn
      · exact List.mem_cons_of_mem _ hb
    · rw [if_neg e]
      rcases List.mem_cons.mp hb with rfl | hb
      · exact List.mem_cons_self
      · exact List.mem_cons_of_mem _ (ih hb)

theorem insert_distinct {m : List (Text × NamedFilter)} (f : NamedFilter) (h : m.Pairwise fun a b => a.1 ≠ b.1) : (insertFilter m f).Pairwise fun a b => a.1 ≠ b.1 := by
  induction m with
  | nil => simp [insertFilter]
  | cons x m ih =>
    obtain ⟨h1, h2⟩ := List.pairwise_cons.mp h
    unfold insertFilter
    by_cases e : x.1 = f.name
    · rw [if_pos e]
      exact List.pairwise_cons.mpr ⟨fun b hb => h1 b hb, h2⟩
    · rw [if_neg e]
      refine List.pairwise_cons.mpr ⟨fun b hb => ?_, ih h2⟩
      rcases insert_keys m f b hb with rfl | ⟨hb, _⟩ | ⟨hb, _⟩
      · exact e
      · exact h1 b hb
      · exact h1 b hb

theorem byName_snoc {l : List NamedFilter} {m : List (Text × NamedFilter)} (h : ByName l m) (f : NamedFilter) : ByName (l ++ [f]) (insertFilter m f) := by
  obtain ⟨h1, h2, h3⟩ := h
  have hk : ∀ b ∈ insertFilter m f, b = (f.name, f) ∨ (b ∈ m ∧ b.1 ≠ f.name) := by
    intro b hb
    rcases insert_keys m f b hb with h | h | ⟨_, h⟩
    · exact .inl h
    · exact .inr h
    · exact absurd h3 h
  refine ⟨fun g => ⟨?_, ?_⟩, ?_, insert_distinct f h3⟩
  · rintro ⟨n, hn⟩
    rcases hk _ hn with e | ⟨hm, hne⟩
    · injection e with _ e; subst e
      exact ⟨l, [], rfl, by simp⟩
    · obtain ⟨a, b, e, hb⟩ := (h1 g).mp ⟨n, hm⟩
      refine ⟨a, b ++ [f], by rw [e]; simp, fun x hx => ?_⟩
      rcases List.mem_append.mp hx with hx | hx
      · exact hb x hx
      · simp at hx; subst hx
        have := h2 _ hm
        simp only at this hne
        rw [← this]; exact Ne.symm hne
  · rintro ⟨a, b, e, hb⟩
    rcases List.eq_nil_or_concat b with rfl | ⟨b', y, rfl⟩
    · have := List.append_inj' e rfl
      injection this.2 with e2
      subst e2
      exact ⟨_, insert_there m f⟩
    · have e' : l ++ [f] = (a ++ g :: b') ++ [y] := by rw [e]; simp
      obtain ⟨e1, e2⟩ := List.append_inj' e' rfl
      injection e2 with e2
      subst e2
      obtain ⟨n, hn⟩ := (h1 g).mpr ⟨a, b', e1, fun x hx => hb x (by simp [hx])⟩
      refine ⟨n, insert_others hn ?_⟩
      have := h2 _ hn
      simp only at this ⊢
      rw [this]
      exact Ne.symm (hb f (by simp))
  · intro b hb
    rcases hk b hb with rfl | ⟨hm, _⟩
    · rfl
    · exact h2 b hm

theorem byName_fold (l : List NamedFilter) : ByName l (l.foldl insertFilter []) := by
  have : ∀ (l k : List NamedFilter) (m : List (Text × NamedFilter)), ByName k m → ByName (k ++ l) (l.foldl insertFilter m) := by
    intro l
    induction l with
    | nil => intro k m h; rw [List.append_nil]; exact h
    | cons f l ih =>
      intro k m h
      have := ih (k ++ [f]) (insertFilter m f) (byName_snoc h f)
      rw [List.append_assoc] at this
      exact this
  have h0 : ByName [] [] := ⟨fun f => ⟨fun ⟨_, h⟩ => (by cases h), fun ⟨a, b, e, _⟩ => (by cases a <;> cases e)⟩, by simp, .nil⟩
  exact this l [] [] h0

theorem plainSpec_ok {f : FilterSpec} (h : PlainSpec f) {k : FilterKind} (hk : k = dsKind ∨ k = streamKind) : f.Ok k := by
  cases f with
  | xpath f => exact path_ok h
  | subtree f => exact subtree_ok h (by rcases hk with rfl | rfl; exact .inl rfl; exact .inr rfl)

/-- a child of a set, and what it adds -/
def itemKid : FilterItem → List Raw × (List NamedFilter × List NamedFilter → List NamedFilter × List NamedFilter)
  | .stream f => (streamRaws f, fun a => (a.1 ++ [f], a.2))
  | .selection f => (selectionRaws f, fun a => (a.1, a.2 ++ [f]))
  | .other q as c => (.start q as :: (c ++ [.close q]), id)

theorem itemKid_ok {st : Stack} (hst : InNs st nsSub) {i : FilterItem} (h : i.Plain) : Heads (itemKid i).1 ∧ Bal (itemKid i).1 ∧ ∀ a, Xml.Reads (stepOf filterTable a) st (itemKid i).1 ((itemKid i).2 a) := by
  cases i with
  | stream f => have := child_stream hst (tight_trim h.name) (plainSpec_ok h.spec (.inr rfl)); exact ⟨this.heads, this.bal, this.reads⟩
  | selection f => have := child_selection st (tight_trim h.name) (plainSpec_ok h.spec (.inl rfl)); exact ⟨this.heads, this.bal, this.reads⟩
  | other q as c =>
    obtain ⟨hb, h1, h2⟩ := h
    have : Foreign filterTable st (tagRaws q as c) := foreign_tag hb (by
      simp only [Table.lacks, filterTable, List.all_cons, List.all_nil, Bool.and_true]
      simp [Ne.symm h1, Ne.symm h2])
    exact ⟨this.heads, this.bal, this.reads⟩

theorem itemKids_run (l : List FilterItem) (a : List NamedFilter × List NamedFilter) : Kids.run (l.map itemKid) a = (a.1 ++ streamsOf l, a.2 ++ selectionsOf l) := by
  induction l generalizing a with
  | nil => simp [Kids.run, streamsOf, selectionsOf]
  | cons i l ih =>
    show Kids.run (l.map itemKid) ((itemKid i).2 a) = _
    rw [ih]
    cases i <;> simp [itemKid, streamsOf, selectionsOf]

theorem itemKids_raws (l : List FilterItem) : Kids.raws (l.map itemKid) = l.flatMap FilterItem.raws := by
  induction l with
  | nil => rfl
  | cons i l ih =>
    show (itemKid i).1 ++ Kids.raws (l.map itemKid) = i.raws ++ l.flatMap FilterItem.raws
    rw [ih]; cases i <;> rfl

/-- C282: a document with filters in any order, with other elements anywhere between them, is read as the filters in it by name. -/
theorem c282_read_partial {l : List FilterItem} (h : ∀ i ∈ l, i.Plain) :
    ∃ s, run readFilters (annotate [] (tagRaws ⟨none, "filters"⟩ [⟨⟨none, "xmlns"⟩, some nsSub⟩] (l.flatMap FilterItem.raws))) = .ok s ∧ ByName (streamsOf l) s.streams ∧ ByName (selectionsOf l) s.selections := by
  have := reads_filters (st := []) (px := none) (as := [⟨⟨none, "xmlns"⟩, some nsSub⟩]) (by rfl) (k := l.map itemKid) (by
    intro x hx
    obtain ⟨i, hi, rfl⟩ := List.mem_map.mp hx
    exact itemKid_ok (by rfl) (h i hi))
  rw [itemKids_run, itemKids_raws] at this
  refine ⟨_, run_of_reads this rfl, ?_, ?_⟩
  · simpa [FilterSet.of] using byName_fold (streamsOf l)
  · simpa [FilterSet.of] using byName_fold (selectionsOf l)

/-- a set of filters by their names -/
structure PlainSet (s : FilterSet) : Prop where
  streams : ∀ b ∈ s.streams, b.1 = b.2.name ∧ PlainFilter b.2
  selections : ∀ b ∈ s.selections, b.1 = b.2.name ∧ PlainFilter b.2
  streamNames : s.streams.Pairwise fun a b => a.1 ≠ b.1
  selectionNames : s.selections.Pairwise fun a b => a.1 ≠ b.1

theorem fold_same : ∀ (m k : List (Text × NamedFilter)), (∀ b ∈ m, b.1 = b.2.name) → (k ++ m).Pairwise (fun a b => a.1 ≠ b.1) → (m.map Prod.snd).foldl insertFilter k = k ++ m := by
  intro m
  induction m with
  | nil => intro k _ _; simp
  | cons b m ih =>
    intro k hm hp
    have hb := hm b List.mem_cons_self
    have hins : insertFilter k b.2 = k ++ [b] := by
      have hk : ∀ x ∈ k, x.1 ≠ b.2.name := fun x hx => by rw [← hb]; exact (List.pairwise_append.mp hp).2.2 x hx b List.mem_cons_self
      clear ih hp hm
      induction k with
      | nil => simp [insertFilter, ← hb]
      | cons x k ih =>
        unfold insertFilter
        rw [if_neg (hk x List.mem_cons_self), ih fun y hy => hk y (List.mem_cons_of_mem _ hy)]
        rfl
    show List.foldl insertFilter (insertFilter k b.2) _ = _
    rw [hins, ih (k ++ [b]) (fun x hx => hm x (List.mem_cons_of_mem _ hx)) (by simpa using hp)]
    simp

/-- C282: a set of filters is written, and what is written is read as the same set. -/
theorem c282_read_back_partial {s : FilterSet} (h : PlainSet s) {bs : List (List (Text × String))} (hb : NoneOf bs) (b : Bool) :
    ∃ rs, output (writeFilters s) ⟨[], bs, b⟩ = some rs ∧ run readFilters (annotate [] rs) = .ok s := by
  have hfree := noneOf_free hb
  have hw := writes_filters (bs := bs) hfree.1 hfree.2 (f := s) (fun x hx => plainSpec_ok (h.streams x hx).2.spec (.inr rfl)) (fun x hx => plainSpec_ok (h.selections x hx).2.spec (.inl rfl))
  refine ⟨filterSetRaws s, by unfold output; rw [hw [] b]; simp, ?_⟩
  let l : List FilterItem := (s.streams.map fun x => .stream x.2) ++ (s.selections.map fun x => .selection x.2)
  have hl : ∀ i ∈ l, i.Plain := by
    intro i hi
    rcases List.mem_append.mp hi with hi | hi
    · obtain ⟨x, hx, rfl⟩ := List.mem_map.mp hi; exact (h.streams x hx).2
    · obtain ⟨x, hx, rfl⟩ := List.mem_map.mp hi; exact (h.selections x hx).2
  have := reads_filters (st := []) (px := none) (as := [defaultNs nsSub]) (by rfl) (k := l.map itemKid) (by
    intro x hx
    obtain ⟨i, hi, rfl⟩ := List.mem_map.mp hx
    exact itemKid_ok (by rfl) (hl i hi))
  rw [itemKids_run, itemKids_raws] at this
  have e1 : streamsOf l = s.streams.map Prod.snd := by
    simp [l, streamsOf, List.filterMap_append, List.filterMap_map, Function.comp_def]
  have e2 : selectionsOf l = s.selections.map Prod.snd := by
    simp [l, selectionsOf, List.filterMap_append, List.filterMap_map, Function.comp_def]
  have e3 : tagRaws ⟨none, "filters"⟩ [defaultNs nsSub] (l.flatMap FilterItem.raws) = filterSetRaws s := by
    simp only [l, filterSetRaws, List.flatMap_append, List.flatMap_map]
    rfl
  rw [e1, e2, e3] at this
  have hs : FilterSet.of (s.streams.map Prod.snd) (s.selections.map Prod.snd) = s := by
    unfold FilterSet.of
    rw [fold_same s.streams [] (fun b hb => (h.streams b hb).1) h.streamNames, fold_same s.selections [] (fun b hb => (h.selections b hb).1) h.selectionNames]
    rfl
  simp only [List.nil_append] at this
  rw [hs] at this
  exact run_of_reads this rfl

def someFilter : NamedFilter := ⟨"a".toList, .xpath twoModules⟩
def otherFilter : NamedFilter := ⟨"a".toList, .subtree someTree⟩

theorem someFilter_plain : PlainFilter someFilter := ⟨tight_of (by decide +kernel) (by decide +kernel), twoModules_plain⟩
theorem otherFilter_plain : PlainFilter otherFilter := ⟨tight_of (by decide +kernel) (by decide +kernel), someTree_plain⟩

example : ∀ i ∈ [FilterItem.selection someFilter, .other ⟨some "v", "extra"⟩ [] [.text "x".toList], .stream otherFilter, .selection otherFilter], i.Plain := by
  intro i hi
  simp only [List.mem_cons, List.not_mem_nil, or_false] at hi
  rcases hi with rfl | rfl | rfl | rfl
  · exact someFilter_plain
  · exact ⟨.single rfl .nil, by decide, by decide⟩
  · exact otherFilter_plain
  · exact otherFilter_plain

example : PlainSet ⟨[("a".toList, otherFilter)], [("a".toList, someFilter)]⟩ ∧ NoneOf [] :=
  ⟨⟨by intro b hb; simp at hb; subst hb; exact ⟨rfl, otherFilter_plain⟩, by intro b hb; simp at hb; subst hb; exact ⟨rfl, someFilter_plain⟩, by simp, by simp⟩, by intro l hl; cases hl⟩

/-- C282 is false: a set without filters that is given as an empty tag is refused, alone or in the data of a reply, where the same set as a pair of tags is read. -/
theorem c282_empty_disproved :
    run readFilters (annotate [] [.empty ⟨none, "filters"⟩ [⟨⟨none, "xmlns"⟩, some nsSub⟩]]) = .err .eof ∧
    run (do let _ ← openTag nsNetconf "data"; readFilters : P FilterSet) (annotate [] [.start ⟨none, "data"⟩ [⟨⟨none, "xmlns"⟩, some nsNetconf⟩], .empty ⟨none, "filters"⟩ [⟨⟨none, "xmlns"⟩, some nsSub⟩], .close ⟨none, "data"⟩]) = .err .skipError ∧
    run readFilters (annotate [] [.start ⟨none, "filters"⟩ [⟨⟨none, "xmlns"⟩, some nsSub⟩], .close ⟨none, "filters"⟩]) = .ok ⟨[], []⟩ := by
  refine ⟨by decide +kernel, by decide +kernel, by decide +kernel⟩

end Verif.Props
