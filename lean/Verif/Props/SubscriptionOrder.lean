import Verif.Props.SubscriptionParts
/-!
# C275–C277: versions of modules, identities, and filters with names
-/
namespace Verif.Props
open Verif.Xml
open Verif.Collector (Text trim trimStart isSpace parseNat)

/-! ## C275 -/

/-- a version of a module with the elements in it -/
def versionElem (inner : List Raw) : List Raw := .start ⟨none, "module-version"⟩ [⟨⟨none, "xmlns"⟩, some nsRevision⟩] :: (inner ++ [.close ⟨none, "module-version"⟩])

/-- an element with a text, if there is one -/
def maybeElem (n : String) : Option Text → List Raw
  | some t => textElem n t
  | none => []

def versionNames : List (Text × String) := [(nsRevision, "revision"), (nsRevision, "version")]

theorem stranger_not {names : List (Text × String)} {st : Stack} {x : List Raw} (h : Stranger names st.scope x) {ns : Text} {key : String} (hk : (ns, key) ∈ names) (R : List Raw) : isTagL ns key (annotate st (x ++ R)) = false := by
  cases h with
  | @tag q as c hc hn =>
    show isTagL ns key (annotate st (.start q as :: (c ++ [.close q] ++ R))) = false
    rw [isTagL_start]
    have := hn _ hk
    by_cases e : q.loc = key
    · simp [this e]
    · simp [e]
  | @empty q as hn =>
    show isTagL ns key (annotate st (.empty q as :: R)) = false
    rw [isTagL_empty]
    have := hn _ hk
    by_cases e : q.loc = key
    · simp [this e]
    · simp [e]

theorem stranger_next {names : List (Text × String)} {sc : Scope} {x : List Raw} (h : Stranger names sc x) (st : Stack) (R : List Raw) : Next (annotate st (x ++ R)) := by
  cases h with
  | tag _ _ => exact next_start _ _ _ _
  | empty _ => exact next_empty _ _ _ _

/-- C275, in part: a version whose name, revision and version are in this order is read with all of them, whatever elements that are not known come behind them. -/
theorem c275_in_order_partial {v : ModuleVersion} (hn : Tight v.name) (hr : ∀ t ∈ v.revision, Tight t) (hv : ∀ t ∈ v.version, Tight t) {more : List Raw}
    (hm : more = [] ∨ ∃ x rest, more = x ++ rest ∧ Stranger versionNames [("", nsRevision)] x ∧ Bal rest) :
    run readVersion (annotate [] (versionElem (textElem "name" v.name ++ (maybeElem "revision" v.revision ++ (maybeElem "version" v.version ++ more))))) = .ok v := by
  have hok : v.Ok := ⟨tight_trim hn, fun t e => tight_trim (hr t e), fun t e => tight_trim (hv t e)⟩
  have hR : Xml.Reads readVersion [] (versionRaws v more) v := by
    rcases hm with rfl | ⟨x, rest, rfl, hx, hb⟩
    · refine reads_version hok .nil (fun R => next_close _ _ _ _) (fun _ _ R => ?_) (fun _ R => ?_) <;>
      · rw [List.nil_append, isTagL_close]; rfl
    · refine reads_version hok (bal_append (bal_stranger hx) hb) (fun R => ?_) (fun _ _ R => ?_) (fun _ R => ?_)
      · rw [List.append_assoc]; exact stranger_next hx _ _
      · rw [List.append_assoc]; exact stranger_not (st := versionStack []) hx (by decide) _
      · rw [List.append_assoc]; exact stranger_not (st := versionStack []) hx (by decide) _
  have := run_of_reads hR rfl
  have e : versionRaws v more = versionElem (textElem "name" v.name ++ (maybeElem "revision" v.revision ++ (maybeElem "version" v.version ++ more))) := by
    obtain ⟨a, b, d⟩ := v
    cases b <;> cases d <;> rfl
  rw [e] at this
  exact this

/-- C275 is false: of a version whose version is before its revision, the revision is lost. -/
theorem c275_order_disproved {n r t : Text} (hn : Tight n) (ht : Tight t) :
    run readVersion (annotate [] (versionElem (textElem "name" n ++ (textElem "version" t ++ textElem "revision" r)))) = .ok ⟨n, none, some t⟩ := by
  have hok : (⟨n, none, some t⟩ : ModuleVersion).Ok := ⟨tight_trim hn, fun t e => (by cases e), fun t e => (by cases e; exact tight_trim ht)⟩
  have hR : Xml.Reads readVersion [] (versionRaws ⟨n, none, some t⟩ (leafRaws "revision" r)) ⟨n, none, some t⟩ :=
    reads_version hok (bal_leafRaws _ _) (fun R => next_leafRaws _ _ _ _) (fun _ e => by cases e) (fun e => by cases e)
  exact run_of_reads hR rfl

example : Tight "ietf-interfaces".toList ∧ Tight "1.0.0".toList ∧ Stranger versionNames [("", nsRevision)] vendorElem :=
  ⟨tight_of (by decide +kernel) (by decide +kernel), tight_of (by decide +kernel) (by decide +kernel), vendor_stranger _ (by decide) _⟩

/-! ## C276 -/

/-- an identity of a namespace, for which there is a prefix -/
def identityElem (n : String) (p : String) (ns : Text) (name : Text) : List Raw :=
  .start ⟨none, n⟩ [⟨⟨none, "xmlns"⟩, some nsSub⟩, ⟨⟨some "xmlns", p⟩, some ns⟩] :: (written (p.toList ++ ':' :: name) ++ [.close ⟨none, n⟩])

/-- what can be a prefix here -/
structure GoodPrefix (p : String) : Prop where
  some : p ≠ ""
  xml : p ≠ "xml"
  colon : ':' ∉ p.toList
  tight : Tight p.toList

theorem tight_identity {p : String} (hp : GoodPrefix p) {name : Text} (h : Tight name) : Tight (p.toList ++ ':' :: name) := by
  intro c hc
  rcases hc with hc | hc
  · cases e : p.toList with
    | nil => exact absurd (String.ext (by rw [e]; rfl)) hp.some
    | cons a l => rw [e] at hc; exact hp.tight c (.inl (by rw [e]; exact hc))
  · cases name with
    | nil => rw [List.getLast?_append] at hc; simp at hc; subst hc; decide +kernel
    | cons a l =>
      refine h c (.inr ?_)
      rw [List.getLast?_append, List.getLast?_cons_cons] at hc
      cases e : (a :: l).getLast? with
      | none => simp at e
      | some x => rw [e] at hc; simpa using hc

theorem reads_identityElem {key p : String} (hp : GoodPrefix p) {ns name : Text} (hns : ns ≠ []) (h : Tight name) : Xml.Reads (readIdentity nsSub key) [] (identityElem key p ns name) (ns, name) := by
  have hd : declared [⟨⟨none, "xmlns"⟩, some nsSub⟩, ⟨⟨some "xmlns", p⟩, some ns⟩] ++ Stack.scope [] = [(p, ns), ("", nsSub)] := rfl
  have ht := tight_trim (tight_identity hp h)
  have hs : splitName (p.toList ++ ':' :: name) = (⟨some p, String.ofList name⟩, name) := by rw [split_colon hp.colon, String.ofList_toList]
  have := reads_identity (st := []) (ns := nsSub) (px := none) (key := key) (as := [⟨⟨none, "xmlns"⟩, some nsSub⟩, ⟨⟨some "xmlns", p⟩, some ns⟩]) ?_ (flat_written (p.toList ++ ':' :: name)) (n := ns) ?_
  · rw [plain_written, ht, ht, hs] at this
    exact this
  · rw [hd]
    have : Scope.find [(p, ns), ("", nsSub)] "" = some nsSub := by simp [Scope.find, hp.some]
    unfold Scope.resolve
    simp only [this]
    rfl
  · rw [plain_written, ht, ht, hs, hd]; exact resolve_some (by simp [Scope.find]) hns hp.xml _

/-- the transports and the encodings by the names of their identities -/
def transportNamed (t : Text) : SubTransport := ([("udp-notif".toList, SubTransport.udp), ("https".toList, .https)].lookup t).getD .unknown
def encodingNamed (t : Text) : SubEncoding := ([("encode-xml".toList, SubEncoding.xml), ("encode-json".toList, .json), ("encode-cbor".toList, .cbor)].lookup t).getD .unknown

/-- C276, in part: transports and encodings are read by the names of their identities, whatever prefix they have. -/
theorem c276_by_name_partial {p : String} (hp : GoodPrefix p) {ns name : Text} (hns : ns ≠ []) (h : Tight name) :
    run readTransport (annotate [] (identityElem "transport" p ns name)) = .ok (transportNamed name) ∧
    run readEncoding (annotate [] (identityElem "encoding" p ns name)) = .ok (encodingNamed name) := by
  constructor
  · refine run_of_reads ?_ rfl
    intro R ps hR
    refine (bind_ok (reads_identityElem hp hns h R ps hR)).trans ?_
    show (Res.ok _, _) = _
    congr 2
    unfold transportNamed
    by_cases e1 : name = "udp-notif".toList
    · subst e1; rfl
    · by_cases e2 : name = "https".toList
      · subst e2; rfl
      · simp only [if_neg e1, if_neg e2, List.lookup_cons, beq_eq_false_iff_ne.mpr e1, beq_eq_false_iff_ne.mpr e2, List.lookup_nil]; rfl
  · refine run_of_reads ?_ rfl
    intro R ps hR
    refine (bind_ok (reads_identityElem hp hns h R ps hR)).trans ?_
    show (Res.ok _, _) = _
    congr 2
    unfold encodingNamed
    by_cases e1 : name = "encode-xml".toList
    · subst e1; rfl
    · by_cases e2 : name = "encode-json".toList
      · subst e2; rfl
      · by_cases e3 : name = "encode-cbor".toList
        · subst e3; rfl
        · simp only [if_neg e1, if_neg e2, if_neg e3, List.lookup_cons, beq_eq_false_iff_ne.mpr e1, beq_eq_false_iff_ne.mpr e2, beq_eq_false_iff_ne.mpr e3, List.lookup_nil]; rfl

/-- C276 is false: identities of any other module count as those that are known, if only they have the same name. -/
theorem c276_namespace_disproved {ns : Text} (hns : ns ≠ []) :
    run readTransport (annotate [] (identityElem "transport" "v" ns "https".toList)) = .ok .https ∧
    run readEncoding (annotate [] (identityElem "encoding" "v" ns "encode-cbor".toList)) = .ok .cbor := by
  have hp : GoodPrefix "v" := ⟨by decide, by decide, by decide, tight_of (by decide +kernel) (by decide +kernel)⟩
  exact ⟨(c276_by_name_partial hp hns (name := "https".toList) (tight_of (by decide +kernel) (by decide +kernel))).1,
    (c276_by_name_partial hp hns (name := "encode-cbor".toList) (tight_of (by decide +kernel) (by decide +kernel))).2⟩

example : GoodPrefix "hnt" ∧ Tight "udp-notif".toList ∧ transportNamed "udp-notif".toList = .udp ∧ encodingNamed "xml".toList = .unknown :=
  ⟨⟨by decide, by decide, by decide, tight_of (by decide +kernel) (by decide +kernel)⟩, tight_of (by decide +kernel) (by decide +kernel), rfl, by decide⟩

/-! ## C277 -/

/-- a filter of a datastore, and one of a stream, with the elements in it -/
def selectionElem (inner : List Raw) : List Raw := .start ⟨none, "selection-filter"⟩ [⟨⟨none, "xmlns"⟩, some nsPush⟩] :: (inner ++ [.close ⟨none, "selection-filter"⟩])
def streamElem (inner : List Raw) : List Raw := .start ⟨none, "stream-filter"⟩ [⟨⟨none, "xmlns"⟩, some nsSub⟩] :: (inner ++ [.close ⟨none, "stream-filter"⟩])

theorem kept_none {path : Text} (h : xpathPrefixes .out path = []) (sc : Scope) : keptBy path sc = [] := by simp [keptBy, h]

theorem reads_plainPath {k : FilterKind} (hk : k.xpath ≠ k.subtree) {st : Stack} (hst : InNs st k.ns) {path : Text} (ht : Tight path) (hp : xpathPrefixes .out path = []) :
    Xml.Reads (readSpec k) st (textElem k.xpath path) (.xpath ⟨[], path⟩) := by
  have := reads_specXPath hk (st := st) (px := none) (as := []) (inNs_resolve hst _) (flat_written path)
  rw [plain_written, kept_none hp, tight_trim ht] at this
  exact this

theorem reads_nameElem {ns : Text} {st : Stack} (hst : InNs st ns) (key : String) {t : Text} (ht : Tight t) : Xml.Reads (trimmedLeaf ns key) st (textElem key t) t := by
  have := reads_trimmed (st := st) (ns := ns) (px := none) (key := key) (as := []) (inNs_resolve hst _) (flat_written t)
  rw [plain_written, tight_trim ht] at this
  exact this

theorem next_textElem (st : Stack) (n : String) (t : Text) (R : List Raw) : Next (annotate st (textElem n t ++ R)) := next_tagRaws st ⟨none, n⟩ [] (written t) R

theorem is_textElem (ns : Text) (key : String) (st : Stack) (n : String) (t : Text) (R : List Raw) : isTagL ns key (annotate st (textElem n t ++ R)) = (n == key && st.scope.resolve ⟨none, n⟩ == .bound ns) := by
  show isTagL ns key (annotate st (.start ⟨none, n⟩ [] :: _)) = _
  rw [isTagL_start]; rfl

theorem expect_here {ns : Text} {key : String} {X : List Raw} {ps : List Bool} (hns : ns ≠ []) (hX : Next (annotate [(⟨none, key⟩, [("", ns)])] X)) :
    expectTag ns key ⟨annotate [] (.start ⟨none, key⟩ [⟨⟨none, "xmlns"⟩, some ns⟩] :: X), ps⟩ = (.ok [⟨⟨none, "xmlns"⟩, some ns⟩], ⟨annotate [(⟨none, key⟩, [("", ns)])] X, true :: ps⟩) := by
  have hr : (declared [⟨⟨none, "xmlns"⟩, some ns⟩] ++ Stack.scope []).resolve ⟨none, key⟩ = .bound ns := by
    cases ns with
    | nil => exact absurd rfl hns
    | cons a l => rfl
  refine (bind_ok (skipText_next (next_start _ _ _ _))).trans ?_
  refine (bind_ok (isTag_run (b := true) (by rw [isTagL_start, hr]; simp))).trans ?_
  rw [if_pos rfl]
  exact open_start hr (next_fine hX)

/-- C277, in part: a filter of a datastore is read with its name before or behind it, and a filter of a stream with its name before it. -/
theorem c277_filters_partial {name path : Text} (hn : Tight name) (ht : Tight path) (hp : xpathPrefixes .out path = []) :
    run readSelectionFilter (annotate [] (selectionElem (textElem "filter-id" name ++ textElem "datastore-xpath-filter" path))) = .ok ⟨name, .xpath ⟨[], path⟩⟩ ∧
    run readSelectionFilter (annotate [] (selectionElem (textElem "datastore-xpath-filter" path ++ textElem "filter-id" name))) = .ok ⟨name, .xpath ⟨[], path⟩⟩ ∧
    run readStreamFilter (annotate [] (streamElem (textElem "name" name ++ textElem "stream-xpath-filter" path))) = .ok ⟨name, .xpath ⟨[], path⟩⟩ := by
  refine ⟨run_of_reads (fun R ps hR => ?_) rfl, run_of_reads (fun R ps hR => ?_) rfl, run_of_reads (fun R ps hR => ?_) rfl⟩
  · show readSelectionFilter ⟨annotate [] (.start ⟨none, "selection-filter"⟩ _ :: ((_ ++ [_]) ++ R)), ps⟩ = _
    simp only [List.append_assoc, List.cons_append, List.nil_append]
    refine (bind_ok (expect_here (by decide) (next_textElem _ _ _ _))).trans ?_
    refine (bind_ok (skipText_next (next_textElem _ _ _ _))).trans ?_
    refine (bind_ok (isTag_run (b := true) (by rw [is_textElem]; rfl))).trans ?_
    rw [if_pos rfl]
    have e1 := reads_nameElem (ns := nsPush) (st := [(⟨none, "selection-filter"⟩, [("", nsPush)])]) rfl "filter-id" hn (textElem "datastore-xpath-filter" path ++ .close ⟨none, "selection-filter"⟩ :: R) (true :: ps) (next_textElem _ _ _ _)
    have e2 := reads_plainPath (k := dsKind) (by decide) (st := [(⟨none, "selection-filter"⟩, [("", nsPush)])]) rfl ht hp (.close ⟨none, "selection-filter"⟩ :: R) (true :: ps) (next_close _ _ _ _)
    refine (bind_ok e1).trans ((bind_ok (skipText_next (next_textElem _ _ _ _))).trans ((bind_ok e2).trans ?_))
    refine (bind_ok (p := pure _) rfl).trans ?_
    refine (bind_ok (skipText_next (next_close _ _ _ _))).trans ?_
    exact (bind_ok (close_here (next_fine hR))).trans rfl
  · show readSelectionFilter ⟨annotate [] (.start ⟨none, "selection-filter"⟩ _ :: ((_ ++ [_]) ++ R)), ps⟩ = _
    simp only [List.append_assoc, List.cons_append, List.nil_append]
    refine (bind_ok (expect_here (by decide) (next_textElem _ _ _ _))).trans ?_
    refine (bind_ok (skipText_next (next_textElem _ _ _ _))).trans ?_
    refine (bind_ok (isTag_run (b := false) (by rw [is_textElem]; rfl))).trans ?_
    rw [if_neg (by simp)]
    have e1 := reads_plainPath (k := dsKind) (by decide) (st := [(⟨none, "selection-filter"⟩, [("", nsPush)])]) rfl ht hp (textElem "filter-id" name ++ .close ⟨none, "selection-filter"⟩ :: R) (true :: ps) (next_textElem _ _ _ _)
    have e2 := reads_nameElem (ns := nsPush) (st := [(⟨none, "selection-filter"⟩, [("", nsPush)])]) rfl "filter-id" hn (.close ⟨none, "selection-filter"⟩ :: R) (true :: ps) (next_close _ _ _ _)
    refine (bind_ok e1).trans ((bind_ok (skipText_next (next_textElem _ _ _ _))).trans ((bind_ok e2).trans ?_))
    refine (bind_ok (p := pure _) rfl).trans ?_
    refine (bind_ok (skipText_next (next_close _ _ _ _))).trans ?_
    exact (bind_ok (close_here (next_fine hR))).trans rfl
  · show readStreamFilter ⟨annotate [] (.start ⟨none, "stream-filter"⟩ _ :: ((_ ++ [_]) ++ R)), ps⟩ = _
    simp only [List.append_assoc, List.cons_append, List.nil_append]
    refine (bind_ok (expect_here (by decide) (next_textElem _ _ _ _))).trans ?_
    refine (bind_ok (skipText_next (next_textElem _ _ _ _))).trans ?_
    refine (bind_ok (isTag_run (b := true) (by rw [is_textElem]; rfl))).trans ?_
    rw [if_pos rfl]
    have e1 := reads_nameElem (ns := nsSub) (st := [(⟨none, "stream-filter"⟩, [("", nsSub)])]) rfl "name" hn (textElem "stream-xpath-filter" path ++ .close ⟨none, "stream-filter"⟩ :: R) (true :: ps) (next_textElem _ _ _ _)
    have e2 := reads_plainPath (k := streamKind) (by decide) (st := [(⟨none, "stream-filter"⟩, [("", nsSub)])]) rfl ht hp (.close ⟨none, "stream-filter"⟩ :: R) (true :: ps) (next_close _ _ _ _)
    refine (bind_ok e1).trans ((bind_ok (skipText_next (next_textElem _ _ _ _))).trans ((bind_ok e2).trans ?_))
    refine (bind_ok (p := pure _) rfl).trans ?_
    refine (bind_ok (skipText_next (next_close _ _ _ _))).trans ?_
    exact (bind_ok (close_here (next_fine hR))).trans rfl

/-- C277 is false: a filter of a stream whose name is behind it is refused. -/
theorem c277_stream_disproved {name path : Text} (ht : Tight path) (hp : xpathPrefixes .out path = []) :
    ∃ e, run readStreamFilter (annotate [] (streamElem (textElem "stream-xpath-filter" path ++ textElem "name" name))) = .err e := by
  refine ⟨.wrongToken "<name>", ?_⟩
  unfold run
  rw [if_neg (by simp [streamElem, annotate_start, headBad])]
  have : ∃ s, readStreamFilter ⟨annotate [] (streamElem (textElem "stream-xpath-filter" path ++ textElem "name" name)), []⟩ = (.err (.wrongToken "<name>"), s) := by
    show ∃ s, readStreamFilter ⟨annotate [] (.start ⟨none, "stream-filter"⟩ _ :: (_ ++ [_])), []⟩ = _
    simp only [List.append_assoc]
    refine ⟨⟨annotate [(⟨none, "stream-filter"⟩, [("", nsSub)])] (textElem "name" name ++ [.close ⟨none, "stream-filter"⟩]), [true]⟩, ?_⟩
    refine (bind_ok (expect_here (by decide) (next_textElem _ _ _ _))).trans ?_
    refine (bind_ok (skipText_next (next_textElem _ _ _ _))).trans ?_
    refine (bind_ok (isTag_run (b := false) (by rw [is_textElem]; rfl))).trans ?_
    rw [if_neg (by simp)]
    have e1 := reads_plainPath (k := streamKind) (by decide) (st := [(⟨none, "stream-filter"⟩, [("", nsSub)])]) rfl ht hp (textElem "name" name ++ [.close ⟨none, "stream-filter"⟩]) [true] (next_textElem _ _ _ _)
    refine (bind_ok e1).trans ((bind_ok (skipText_next (next_textElem _ _ _ _))).trans (bind_err (bind_err ?_)))
    have hh : isTagL nsPush "name" (annotate [(⟨none, "stream-filter"⟩, [("", nsSub)])] (textElem "name" name ++ [.close ⟨none, "stream-filter"⟩])) = false := by rw [is_textElem]; decide
    change isTagL nsPush "name" (annotate _ (.start ⟨none, "name"⟩ [] :: _)) = false at hh
    show openTag nsPush "name" ⟨annotate _ (.start ⟨none, "name"⟩ [] :: _), _⟩ = (_, ⟨annotate _ (.start ⟨none, "name"⟩ [] :: _), _⟩)
    rw [annotate_start] at hh ⊢
    simp only [openTag]
    rw [if_neg (by rw [hh]; simp)]
    rfl
  obtain ⟨s, hs⟩ := this
  rw [hs]

example : Tight "f1".toList ∧ Tight "/interfaces/interface[name='a:b']".toList ∧ xpathPrefixes .out "/interfaces/interface[name='a:b']".toList = [] :=
  ⟨tight_of (by decide +kernel) (by decide +kernel), tight_of (by decide +kernel) (by decide +kernel), by decide +kernel⟩

end Verif.Props
