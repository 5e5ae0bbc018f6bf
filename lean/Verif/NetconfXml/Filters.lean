import Verif.NetconfXml.SubOut
/-!
# The container of filters

`F` is `crates/netconf-proto/src/yang_push/filters.rs`. The rest is as in `Subscription.lean`.
-/
namespace Verif.Xml
open Verif.Collector (Text trim)

/-- `Filters`, F:37-43: the maps by name are lists of what is in them, in order -/
structure FilterSet where
  streams : List (Text × NamedFilter)
  selections : List (Text × NamedFilter)
  deriving DecidableEq, Repr

/-- `IndexMap::insert`: a value with a key that is there takes the place of what was there -/
def insertFilter (m : List (Text × NamedFilter)) (f : NamedFilter) : List (Text × NamedFilter) :=
  match m with
  | [] => [(f.name, f)]
  | b :: m => if b.1 = f.name then (b.1, f) :: m else b :: insertFilter m f

/-- `Filters::new`, F:46-62 -/
def FilterSet.of (streams selections : List NamedFilter) : FilterSet := ⟨streams.foldl insertFilter [], selections.foldl insertFilter []⟩

/-- `Filters::xml_serialize`, F:65-95 -/
def writeFilters (f : FilterSet) : W Unit := within nsSub (aroundNs nsSub "filters" (do
  writeAll writeStreamFilter (f.streams.map Prod.snd)
  writeAll writeSelectionFilter (f.selections.map Prod.snd)))

/-- the branches of the loop of `Filters::xml_deserialize`, F:112-118 -/
def filterTable : Table (List NamedFilter × List NamedFilter) := [
  (nsSub, "stream-filter", fun a => do let f ← readStreamFilter; return (a.1 ++ [f], a.2)),
  (nsPush, "selection-filter", fun a => do let f ← readSelectionFilter; return (a.1, a.2 ++ [f]))]

/-- the loop of `Filters::xml_deserialize`, F:111-124, with a bound for the steps: it ends at the closing tag of the element that was opened -/
def filtersLoopF (q : QName) : Nat → List NamedFilter × List NamedFilter → P (List NamedFilter × List NamedFilter)
  | 0, _ => fun s => (.fault .hang, s)
  | n + 1, a => fun s =>
    if s.evs.head?.map Ev.raw = some (.close q) then (.ok a, s)
    else
      (do
        let b ← stepOf filterTable a
        skipText
        filtersLoopF q n b) s

/-- the name of the tag that comes next -/
def headName (evs : List Ev) : QName :=
  match evs.head?.map Ev.raw with
  | some (.start q _) => q
  | some (.empty q _) => q
  | _ => ⟨none, ""⟩

/-- `Filters::xml_deserialize`, F:97-129 -/
def readFilters : P FilterSet := do
  skipText
  let q ← (fun s => (.ok (headName s.evs), s) : P QName)
  let _ ← expectTag nsSub "filters"
  skipText
  let a ← (fun s => filtersLoopF q (s.evs.length + 1) ([], []) s : P (List NamedFilter × List NamedFilter))
  skipText
  close
  return FilterSet.of a.1 a.2

/-! ## What is read -/

theorem reads_filtersLoopF {st : Stack} {q : QName} {sc : Scope} (R : List Raw) (ps : List Bool) :
    ∀ (k : Kids (List NamedFilter × List NamedFilter)) (n : Nat) (a : List NamedFilter × List NamedFilter), k.length < n → (∀ x ∈ k, Heads x.1 ∧ ∀ a, Reads (stepOf filterTable a) ((q, sc) :: st) x.1 (x.2 a)) →
      filtersLoopF q n a ⟨annotate ((q, sc) :: st) (k.raws ++ .close q :: R), ps⟩ = (.ok (k.run a), ⟨annotate ((q, sc) :: st) (.close q :: R), ps⟩) := by
  intro k
  induction k with
  | nil =>
    intro n a hn _
    obtain ⟨n, rfl⟩ : ∃ m, n = m + 1 := ⟨n - 1, by simp at hn; omega⟩
    show filtersLoopF q (n + 1) a ⟨annotate ((q, sc) :: st) (.close q :: R), ps⟩ = _
    unfold filtersLoopF
    rw [if_pos (by simp only [annotate_close, List.head?_cons, Option.map_some])]
    rfl
  | cons x k ih =>
    intro n a hn hk
    obtain ⟨n, rfl⟩ : ∃ m, n = m + 1 := ⟨n - 1, by simp at hn; omega⟩
    obtain ⟨hx, hstep⟩ := hk x List.mem_cons_self
    have hk' := fun y hy => hk y (List.mem_cons_of_mem _ hy)
    have hnext : Next (annotate ((q, sc) :: st) (Kids.raws k ++ .close q :: R)) := next_kids (fun y hy => (hk' y hy).1) _ (next_close _ _ _ _)
    have e : Kids.raws (x :: k) ++ .close q :: R = x.1 ++ (Kids.raws k ++ .close q :: R) := by simp [Kids.raws]
    rw [e]
    have hr := hstep a (Kids.raws k ++ .close q :: R) ps hnext
    have hrest := ih n (x.2 a) (by simp at hn; omega) hk'
    have hhead : ((annotate ((q, sc) :: st) (x.1 ++ (Kids.raws k ++ .close q :: R))).head?.map Ev.raw) ≠ some (.close q) := by
      obtain ⟨p, as, rest, h | h⟩ := hx
      · rw [h, List.cons_append, annotate_start]; simp
      · rw [h, List.cons_append, annotate_empty]; simp
    unfold filtersLoopF
    rw [if_neg hhead]
    refine (bind_ok hr).trans ?_
    refine (bind_ok (skipText_next hnext)).trans ?_
    exact hrest.trans rfl

theorem reads_filters {st : Stack} {px : Option String} {as : List Attr} (hr : (declared as ++ st.scope).resolve ⟨px, "filters"⟩ = .bound nsSub) {k : Kids (List NamedFilter × List NamedFilter)}
    (hk : ∀ x ∈ k, Heads x.1 ∧ Bal x.1 ∧ ∀ a, Reads (stepOf filterTable a) ((⟨px, "filters"⟩, declared as ++ st.scope) :: st) x.1 (x.2 a)) :
    Reads readFilters st (tagRaws ⟨px, "filters"⟩ as k.raws) (FilterSet.of (k.run ([], [])).1 (k.run ([], [])).2) := by
  intro R ps hR
  have hnext : Next (annotate ((⟨px, "filters"⟩, declared as ++ st.scope) :: st) (k.raws ++ .close ⟨px, "filters"⟩ :: R)) := next_kids (fun x hx => (hk x hx).1) _ (next_close _ _ _ _)
  refine (bind_ok (skipText_next (next_tagRaws _ _ _ _ _))).trans ?_
  refine (bind_ok (a := ⟨px, "filters"⟩) (s' := ⟨annotate st (tagRaws ⟨px, "filters"⟩ as k.raws ++ R), ps⟩) (by rw [tagRaws_append, annotate_start]; rfl)).trans ?_
  have hexp : expectTag nsSub "filters" ⟨annotate st (tagRaws ⟨px, "filters"⟩ as k.raws ++ R), ps⟩ =
      (.ok as, ⟨annotate ((⟨px, "filters"⟩, declared as ++ st.scope) :: st) (k.raws ++ .close ⟨px, "filters"⟩ :: R), true :: ps⟩) := by
    refine (bind_ok (skipText_next (next_tagRaws _ _ _ _ _))).trans ?_
    refine (bind_ok (isTag_run (b := true) (by rw [tagRaws_append, isTagL_start, hr]; simp))).trans ?_
    rw [if_pos rfl, tagRaws_append]
    exact open_start hr (next_fine hnext)
  refine (bind_ok hexp).trans ?_
  refine (bind_ok (skipText_next hnext)).trans ?_
  refine (bind_ok (reads_filtersLoopF R _ k _ ([], []) (Nat.lt_succ_of_le (kids_length (fun x hx => (hk x hx).1) (fun x hx => (hk x hx).2.1) _ _)) fun x hx => ⟨(hk x hx).1, (hk x hx).2.2⟩)).trans ?_
  refine (bind_ok (skipText_next (next_close _ _ _ _))).trans ?_
  exact (bind_ok (close_here (next_fine hR))).trans rfl

/-- a filter that is written and read back, of a kind -/
def FilterSpec.Ok (k : FilterKind) : FilterSpec → Prop
  | .xpath f => f.Ok
  | .subtree f => f.Ok k.subtree

/-- what a filter is written as where its namespace is the default one -/
def specRaws (k : FilterKind) : FilterSpec → List Raw
  | .xpath f => filterRaws' k.ns k.xpath (newBindings k.ns f.namespaces true) (written f.path)
  | .subtree f => filterRaws' k.ns k.subtree (newBindings k.ns f.namespaces true) f.xml

theorem find_of_inNs {st : Stack} {ns : Text} (h : InNs st ns) : st.scope.find "" = some ns := by
  unfold InNs Scope.resolve at h
  simp only at h
  split at h
  · cases h
  · rename_i e; injection h with h; rw [e, h]
  · cases h

theorem reads_specRaws {k : FilterKind} (hk : k.xpath ≠ k.subtree) (hne : k.ns ≠ []) {st : Stack} (hst : InNs st k.ns) {f : FilterSpec} (h : f.Ok k) : Reads (readSpec k) st (specRaws k f) f := by
  cases f with
  | xpath f =>
    have hr := filter_resolves (ns := k.ns) hne h (bound := true) (st := st) (fun _ => find_of_inNs hst) k.xpath
    have := reads_specXPath hk (st := st) hr (flat_written f.path)
    rw [plain_written, kept_written h, XPathFilter.Ok.trimmed h] at this
    exact this
  | subtree f =>
    have hr := filter_resolves' (ns := k.ns) hne h.ns (bound := true) (st := st) (fun _ => find_of_inNs hst) k.subtree
    have := reads_specSubtree (k := k) (st := st) hr h.content
    rw [notes_written h] at this
    exact this

theorem next_specRaws (k : FilterKind) (f : FilterSpec) (st : Stack) (R : List Raw) : Next (annotate st (specRaws k f ++ R)) := by
  cases f <;> exact next_tagRaws _ _ _ _ _

theorem bal_specRaws {k : FilterKind} {f : FilterSpec} (h : f.Ok k) : Bal (specRaws k f) := by
  cases f with
  | xpath f => exact bal_tagRaws _ _ (bal_flat (flat_written _))
  | subtree f => exact bal_tagRaws _ _ h.content.bal

def streamRaws (f : NamedFilter) : List Raw := tagRaws ⟨none, "stream-filter"⟩ [] (leafRaws "name" f.name ++ specRaws streamKind f.spec)
def selectionRaws (f : NamedFilter) : List Raw := tagRaws ⟨none, "selection-filter"⟩ [defaultNs nsPush] (leafRaws "filter-id" f.name ++ specRaws dsKind f.spec)

theorem reads_nameRaws {ns : Text} {st : Stack} (hst : InNs st ns) (key : String) {t : Text} (ht : trim t = t) : Reads (trimmedLeaf ns key) st (leafRaws key t) t := by
  have := reads_trimmed (st := st) (ns := ns) (px := none) (key := key) (as := []) (inNs_resolve hst _) (flat_written t)
  rw [plain_written, ht] at this
  exact this

theorem next_leafRawsIn (key : String) (t : Text) (st : Stack) (R : List Raw) : Next (annotate st (leafRaws key t ++ R)) := next_tagRaws st ⟨none, key⟩ [] (written t) R

theorem isTag_leafRaws {ns : Text} {st : Stack} (hst : InNs st ns) (key : String) (t : Text) (R : List Raw) : isTagL ns key (annotate st (leafRaws key t ++ R)) = true := by
  show isTagL ns key (annotate st (elem key (written t) ++ R)) = true
  rw [elem_append, isTagL_start]
  show (key == key && st.scope.resolve ⟨none, key⟩ == .bound ns) = true
  rw [inNs_resolve hst]; simp

theorem expect_tagRaws {st : Stack} {ns : Text} {px : Option String} {key : String} {as : List Attr} {c R : List Raw} {ps : List Bool} (hr : (declared as ++ st.scope).resolve ⟨px, key⟩ = .bound ns)
    (hn : Next (annotate ((⟨px, key⟩, declared as ++ st.scope) :: st) (c ++ .close ⟨px, key⟩ :: R))) :
    expectTag ns key ⟨annotate st (tagRaws ⟨px, key⟩ as c ++ R), ps⟩ = (.ok as, ⟨annotate ((⟨px, key⟩, declared as ++ st.scope) :: st) (c ++ .close ⟨px, key⟩ :: R), true :: ps⟩) := by
  refine (bind_ok (skipText_next (next_tagRaws _ _ _ _ _))).trans ?_
  refine (bind_ok (isTag_run (b := true) (by rw [tagRaws_append, isTagL_start, hr]; simp))).trans ?_
  rw [if_pos rfl, tagRaws_append]
  exact open_start hr (next_fine hn)

theorem reads_streamRaws {st : Stack} (hst : InNs st nsSub) {f : NamedFilter} (hn : trim f.name = f.name) (hf : f.spec.Ok streamKind) : Reads readStreamFilter st (streamRaws f) f := by
  intro R ps hR
  have hin : InNs ((⟨none, "stream-filter"⟩, declared [] ++ st.scope) :: st) nsSub := hst
  refine (bind_ok (expect_tagRaws (ns := nsSub) (px := none) (key := "stream-filter") (as := []) (st := st) (inNs_resolve hst _) (by rw [List.append_assoc]; exact next_leafRawsIn _ _ _ _))).trans ?_
  rw [List.append_assoc]
  refine (bind_ok (skipText_next (next_leafRawsIn _ _ _ _))).trans ?_
  refine (bind_ok (isTag_run (b := true) (isTag_leafRaws hin _ _ _))).trans ?_
  rw [if_pos rfl]
  refine (bind_ok (reads_nameRaws hin "name" hn _ _ (next_specRaws _ _ _ _))).trans ?_
  refine (bind_ok (skipText_next (next_specRaws _ _ _ _))).trans ?_
  refine (bind_ok (reads_specRaws (k := streamKind) (by decide) (by decide) hin hf _ _ (next_close _ _ _ _))).trans ?_
  refine (bind_ok (p := pure _) rfl).trans ?_
  refine (bind_ok (skipText_next (next_close _ _ _ _))).trans ?_
  exact (bind_ok (close_here (next_fine hR))).trans rfl

theorem reads_selectionRaws (st : Stack) {f : NamedFilter} (hn : trim f.name = f.name) (hf : f.spec.Ok dsKind) : Reads readSelectionFilter st (selectionRaws f) f := by
  intro R ps hR
  have hin : InNs ((⟨none, "selection-filter"⟩, declared [defaultNs nsPush] ++ st.scope) :: st) nsPush := rfl
  refine (bind_ok (expect_tagRaws (ns := nsPush) (px := none) (key := "selection-filter") (as := [defaultNs nsPush]) (st := st) (by rfl) (by rw [List.append_assoc]; exact next_leafRawsIn _ _ _ _))).trans ?_
  rw [List.append_assoc]
  refine (bind_ok (skipText_next (next_leafRawsIn _ _ _ _))).trans ?_
  refine (bind_ok (isTag_run (b := true) (isTag_leafRaws hin _ _ _))).trans ?_
  rw [if_pos rfl]
  refine (bind_ok (reads_nameRaws hin "filter-id" hn _ _ (next_specRaws _ _ _ _))).trans ?_
  refine (bind_ok (skipText_next (next_specRaws _ _ _ _))).trans ?_
  refine (bind_ok (reads_specRaws (k := dsKind) (by decide) (by decide) hin hf _ _ (next_close _ _ _ _))).trans ?_
  refine (bind_ok (p := pure _) rfl).trans ?_
  refine (bind_ok (skipText_next (next_close _ _ _ _))).trans ?_
  exact (bind_ok (close_here (next_fine hR))).trans rfl

theorem child_stream {st : Stack} (hst : InNs st nsSub) {f : NamedFilter} (hn : trim f.name = f.name) (hf : f.spec.Ok streamKind) :
    Child filterTable st (streamRaws f) (fun a => (a.1 ++ [f], a.2)) :=
  child_of (ns := nsSub) (bal_append (bal_leafRaws _ _) (bal_specRaws hf)) (inNs_resolve hst _) (by rfl) fun _ R ps hR => (bind_ok (reads_streamRaws hst hn hf R ps hR)).trans rfl

theorem child_selection (st : Stack) {f : NamedFilter} (hn : trim f.name = f.name) (hf : f.spec.Ok dsKind) :
    Child filterTable st (selectionRaws f) (fun a => (a.1, a.2 ++ [f])) :=
  child_of (ns := nsPush) (bal_append (bal_leafRaws _ _) (bal_specRaws hf)) (by rfl) (by rfl) fun _ R ps hR => (bind_ok (reads_selectionRaws st hn hf R ps hR)).trans rfl

/-! ## What is written -/

theorem writes_spec {k : FilterKind} {bs : Bindings} (h : nsPrefix k.ns bs = some "") {f : FilterSpec} (hf : f.Ok k) : Writes (writeSpec k f) bs (specRaws k f) := by
  cases f with
  | xpath f =>
    have := writes_selection (k := k) (bs := bs) (.inr h) hf
    rw [h] at this
    exact this
  | subtree f =>
    have := writes_subtree (k := k) (bs := bs) (.inr h) hf.ns
    rw [h] at this
    exact this

theorem writes_aroundIn {ns : Text} {bs : Bindings} (h : nsPrefix ns bs = some "") {n : String} {p : W Unit} {rs : List Raw} (hp : Writes p bs rs) : Writes (aroundNs ns n p) bs (elem n rs) := by
  intro out
  refine (wbind (a := (⟨none, n⟩, [])) (w' := ⟨out, bs, true⟩) ?_).trans ?_
  · simp [createNs, h, applyNs, bind, pure]
  refine (wbind (a := ()) (w' := ⟨out ++ [.start ⟨none, n⟩ []], bs, true⟩) rfl).trans ?_
  refine (wbind (hp _)).trans ?_
  simp [write, elem]

theorem writes_streamFilter {bs : Bindings} (h : nsPrefix nsSub bs = some "") {f : NamedFilter} (hf : f.spec.Ok streamKind) : Writes (writeStreamFilter f) bs (streamRaws f) :=
  writes_here h (writes_aroundIn h (writes_seq (writes_leafNs h _ _) (writes_spec (k := streamKind) h hf)))

theorem writes_selectionFilter {bs : Bindings} (h : nsPrefix nsPush bs = none) {f : NamedFilter} (hf : f.spec.Ok dsKind) : Writes (writeSelectionFilter f) bs (selectionRaws f) :=
  (fresh_aroundW h (writes_seq (writes_leafNs (pfx_head nsPush bs) _ _) (writes_spec (k := dsKind) (pfx_head nsPush bs) hf))).writes

theorem writes_allOf {α : Type} {f : α → W Unit} {g : α → List Raw} {bs : Bindings} (l : List α) (h : ∀ a ∈ l, Writes (f a) bs (g a)) : Writes (writeAll f l) bs (l.flatMap g) := by
  induction l with
  | nil => intro out; simp [writeAll, pure]
  | cons a l ih => exact writes_seq (h a List.mem_cons_self) (ih fun b hb => h b (List.mem_cons_of_mem _ hb))

/-- what a set of filters is written as -/
def filterSetRaws (f : FilterSet) : List Raw := tagRaws ⟨none, "filters"⟩ [defaultNs nsSub] ((f.streams.map Prod.snd).flatMap streamRaws ++ (f.selections.map Prod.snd).flatMap selectionRaws)

theorem writes_filters {bs : Bindings} (h1 : nsPrefix nsSub bs = none) (h2 : nsPrefix nsPush bs = none) {f : FilterSet} (hs : ∀ x ∈ f.streams, x.2.spec.Ok streamKind) (hd : ∀ x ∈ f.selections, x.2.spec.Ok dsKind) :
    Fresh (writeFilters f) bs (filterSetRaws f) := by
  refine fresh_aroundW h1 (writes_seq (writes_allOf _ fun x hx => ?_) (writes_allOf _ fun x hx => ?_))
  · obtain ⟨y, hy, rfl⟩ := List.mem_map.mp hx
    exact writes_streamFilter (pfx_head _ _) (hs y hy)
  · obtain ⟨y, hy, rfl⟩ := List.mem_map.mp hx
    exact writes_selectionFilter (by rw [pfx_skip (by decide)]; exact h2) (hd y hy)

end Verif.Xml
