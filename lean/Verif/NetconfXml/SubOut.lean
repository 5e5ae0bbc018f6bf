import Verif.NetconfXml.SubMain
/-!
# What `writeSubscription` writes
-/
namespace Verif.Xml
open Verif.Collector (Text trim parseNat)

/-- none of the namespaces of subscriptions has a prefix yet -/
structure Free (bs : Bindings) : Prop where
  sub : nsPrefix nsSub bs = none
  push : nsPrefix nsPush bs = none
  distributed : nsPrefix nsDistributed bs = none
  revision : nsPrefix nsRevision bs = none

theorem pfx_skip {ns ns' : Text} (h : ns' ≠ ns) {p : String} {bs : Bindings} : nsPrefix ns ([(ns', p)] :: bs) = nsPrefix ns bs := by simp [nsPrefix, prefixIn, h]

theorem writes_selection {bs : Bindings} {k : FilterKind} (h : nsPrefix k.ns bs = none ∨ nsPrefix k.ns bs = some "") {f : XPathFilter} (hf : f.Ok) :
    Writes (writeSpec k (.xpath f)) bs (filterRaws' k.ns k.xpath (newBindings k.ns f.namespaces (nsPrefix k.ns bs).isSome) (written f.path)) :=
  writes_filterElem h _ (distinct_prefixes (newBindings_distinct hf _))

theorem writes_subtree {bs : Bindings} {k : FilterKind} (h : nsPrefix k.ns bs = none ∨ nsPrefix k.ns bs = some "") {f : SubtreeFilter} (hf : NsOk f.namespaces) :
    Writes (writeSpec k (.subtree f)) bs (filterRaws' k.ns k.subtree (newBindings k.ns f.namespaces (nsPrefix k.ns bs).isSome) f.xml) :=
  writes_filterElem h _ (distinct_prefixes (newBindings_distinct' hf _))

theorem writes_target (c : Clock) {bs : Bindings} (h1 : nsPrefix nsSub bs = some "") (h2 : nsPrefix nsPush bs = none) {t : SubTarget} (ht : t.Ok c) : Writes (writeSubTarget c t) bs (targetKids c t).raws := by
  cases t with
  | datastore d f =>
    show Writes _ _ ((identityRaws "datastore" "ds" [defaultNs nsPush] d.pair.1 d.pair.2) ++ (selectionKids f).raws)
    refine writes_seq (fresh_identity h2 _ _ _ _).writes ?_
    match f, ht.2 with
    | .byReference n, _ =>
      have := (fresh_leaf h2 "selection-filter-ref" (written n)).writes
      simp only [selectionKids, Kids.raws, List.flatMap_cons, List.flatMap_nil, List.append_nil]
      exact this
    | .inline (.xpath f), hf =>
      have := writes_selection (k := dsKind) (bs := bs) (.inl h2) hf
      have e : (nsPrefix dsKind.ns bs).isSome = false := by show (nsPrefix nsPush bs).isSome = false; rw [h2]; rfl
      rw [e] at this
      simp only [selectionKids, Kids.raws, List.flatMap_cons, List.flatMap_nil, List.append_nil]
      exact this
    | .inline (.subtree f), hf =>
      have := writes_subtree (k := dsKind) (bs := bs) (.inl h2) hf.1.ns
      have e : (nsPrefix dsKind.ns bs).isSome = false := by show (nsPrefix nsPush bs).isSome = false; rw [h2]; rfl
      rw [e] at this
      simp only [selectionKids, Kids.raws, List.flatMap_cons, List.flatMap_nil, List.append_nil]
      exact this
  | stream n f r b =>
    have e0 : (targetKids c (.stream n f r b)).raws = leafRaws "stream" n ++ ((streamKids f).raws ++ (optRaws (fun t => leafRaws "replay-start-time" (c.format t.secs)) r ++
        (if b then [([.empty ⟨none, "configured-replay"⟩ []] : List Raw)] else []).flatten)) := by
      show leafRaws "stream" n ++ Kids.raws _ = _
      rw [raws_append, raws_append, raws_optKid]
      cases b <;> simp [Kids.raws]
    rw [e0]
    refine writes_here h1 (writes_seq (writes_leafNs h1 _ _) (writes_seq ?_ (writes_seq (writes_opt (fun _ => writes_leafNs h1 _ _) _) ?_)))
    · match f, ht.2.1 with
      | .byReference n, _ =>
        have := writes_here (ns := nsSub) h1 (writes_leafNs h1 "stream-filter-name" (written n))
        simp only [streamKids, Kids.raws, List.flatMap_cons, List.flatMap_nil, List.append_nil]
        exact this
      | .inline (.xpath f), hf =>
        have := writes_selection (k := streamKind) (bs := bs) (.inr h1) hf
        have e : (nsPrefix streamKind.ns bs).isSome = true := by show (nsPrefix nsSub bs).isSome = true; rw [h1]; rfl
        rw [e] at this
        simp only [streamKids, Kids.raws, List.flatMap_cons, List.flatMap_nil, List.append_nil]
        exact this
      | .inline (.subtree f), hf =>
        have := writes_subtree (k := streamKind) (bs := bs) (.inr h1) hf.1.ns
        have e : (nsPrefix streamKind.ns bs).isSome = true := by show (nsPrefix nsSub bs).isSome = true; rw [h1]; rfl
        rw [e] at this
        simp only [streamKids, Kids.raws, List.flatMap_cons, List.flatMap_nil, List.append_nil]
        exact this
    · intro out
      cases b
      · simp [pure]
      · simp [createNs, h1, applyNs, write, bind, pure]

theorem writes_transport {bs : Bindings} (h : nsPrefix nsSub bs = some "") (x : Option SubTransport) : Writes (writeOpt writeTransport x) bs (optRaws transportRaws (x.filter (· ≠ .unknown))) := by
  cases x with
  | none => intro out; simp [writeOpt, optRaws, pure]
  | some t =>
    cases t with
    | unknown => intro out; show some ((), _) = some ((), _); simp [optRaws]; rfl
    | udp => exact writes_identity h _ _ _ _
    | https => exact writes_identity h _ _ _ _

theorem writes_encoding {bs : Bindings} (h : nsPrefix nsSub bs = some "") (x : Option SubEncoding) : Writes (writeOpt writeEncoding x) bs (optRaws encodingRaws (x.filter (· ≠ .unknown))) := by
  cases x with
  | none => intro out; simp [writeOpt, optRaws, pure]
  | some t =>
    cases t with
    | unknown => intro out; show some ((), _) = some ((), _); simp [optRaws]; rfl
    | xml => exact writes_identity h _ _ _ _
    | json => exact writes_identity h _ _ _ _
    | cbor => exact writes_identity h _ _ _ _

theorem fresh_version {bs : Bindings} (h : nsPrefix nsRevision bs = none) (v : ModuleVersion) : Fresh (writeVersion v) bs (versionRaws v []) := by
  refine fresh_aroundW h ?_
  rw [List.append_nil]
  exact writes_seq (writes_leafNs (pfx_head _ _) _ _) (writes_seq (writes_opt (fun _ => writes_leafNs (pfx_head _ _) _ _) _) (writes_opt (fun _ => writes_leafNs (pfx_head _ _) _ _) _))

theorem raws_publishers (l : List Nat) : (publisherKids l).raws = publisherRaws l := by
  cases l with
  | nil => rfl
  | cons n l => simp [publisherKids, publisherRaws, Kids.raws, List.flatMap_map]

theorem any_subscription (c : Clock) {bs : Bindings} (h : Free bs) {s : Subscription} (hs : s.target.Ok c) : WritesAny (writeSubscription c s) bs (subRaws c s) := by
  refine fresh_around h.sub ?_
  have h1 : nsPrefix nsSub ([(nsSub, "")] :: bs) = some "" := pfx_head _ _
  have h2 : nsPrefix nsPush ([(nsSub, "")] :: bs) = none := by rw [pfx_skip (by decide)]; exact h.push
  have h3 : nsPrefix nsDistributed ([(nsSub, "")] :: bs) = none := by rw [pfx_skip (by decide)]; exact h.distributed
  have h4 : nsPrefix nsRevision ([(nsSub, "")] :: bs) = none := by rw [pfx_skip (by decide)]; exact h.revision
  unfold subKids
  rw [raws_append, raws_append, raws_append, raws_append, raws_append, raws_append, raws_append, raws_append, raws_append, raws_append, raws_append, raws_append, raws_append,
    raws_optKid, raws_optKid, raws_optKid, raws_optKid, raws_optKid, raws_optKid, raws_optKid, raws_optKid, raws_optKid, raws_optKid, raws_publishers]
  have e0 : Kids.raws [(leafRaws "id" (decimal s.id), fun a : SubParts => { a with id := some s.id })] = leafRaws "id" (decimal s.id) := by simp [Kids.raws]
  rw [e0]
  refine end_seq (writes_leafNs h1 _ _) (end_seq (writes_target c h1 h2 hs) (end_seq (writes_opt (fun _ => writes_leafNs h1 _ _) _) (end_seq (writes_opt (fun _ => writes_leafNs h1 _ _) _)
    (end_seq (writes_opt (fun _ => writes_leafNs h1 _ _) _) (end_seq (writes_opt (fun _ => writes_leafNs h1 _ _) _) (end_seq (writes_transport h1 _) (end_seq (writes_encoding h1 _)
    (end_seq (writes_opt (fun _ => writes_leafNs h1 _ _) _) (end_seq (writes_opt (fun _ => writes_leafNs h1 _ _) _) (WritesAny.ends (any_seq ?_ (any_seq (any_opt _ fun t _ => (fresh_trigger c h2 t).any)
    (any_seq ?_ (any_opt _ fun t _ => any_contentId h4 t))))))))))))))
  · cases s.publishers with
    | none => intro out b; exact ⟨b, by simp [writeOpt, pure, publisherRaws]⟩
    | some l => exact any_publishers h3 l
  · cases s.versions with
    | none => intro out b; exact ⟨b, by simp [writeOpt, pure, versionKids, Kids.raws]⟩
    | some l =>
      have : (versionKids ((some l).getD [])).raws = l.flatMap fun v => versionRaws v [] := by simp [versionKids, Kids.raws, List.flatMap_map]
      rw [this]
      exact any_all (fun v => (fresh_version h4 v).any) l

end Verif.Xml
