import Verif.NetconfXml.SubAll
/-!
# A subscription that was written is read back, as far as it is kept
-/
namespace Verif.Xml
open Verif.Collector (Text trim parseNat)

/-- a child of a subscription that is read or skipped -/
abbrev SubKid (c : Clock) (st : Stack) (x : List Raw × (SubParts → SubParts)) : Prop := Heads x.1 ∧ Bal x.1 ∧ ∀ a, Reads (stepOf (subTable c) a) st x.1 (x.2 a)

theorem Child.sub {c : Clock} {st : Stack} {rs : List Raw} {u : SubParts → SubParts} (h : Child (subTable c) st rs u) : SubKid c st (rs, u) := ⟨h.heads, h.bal, h.reads⟩
theorem Foreign.sub {c : Clock} {st : Stack} {rs : List Raw} (h : Foreign (subTable c) st rs) : SubKid c st (rs, id) := ⟨h.heads, h.bal, h.reads⟩

section
variable (c : Clock) {st : Stack} (hin : InNs st nsSub)
include hin

theorem kid_id {n : Nat} (h : n < 2 ^ 32) : Child (subTable c) st (leafRaws "id" (decimal n)) (fun a => { a with id := some n }) :=
  child_leafIn (f := fun t => parseNat (2 ^ 32) (trim t)) (set := fun (a : SubParts) v => { a with id := some v }) hin (named_id c) (parse_decimal h)
theorem kid_stop {x : Text} {t : Time} (h : c.read x = some t) : Child (subTable c) st (leafRaws "stop-time" x) (fun a => { a with stop := some t }) :=
  child_leafIn (f := c.read) (set := fun (a : SubParts) v => { a with stop := some v }) hin (named_stop c) h
theorem kid_dscp {n : Nat} (h : n < 2 ^ 8) : Child (subTable c) st (leafRaws "dscp" (decimal n)) (fun a => { a with dscp := some n }) :=
  child_leafIn (f := fun t => parseNat (2 ^ 8) (trim t)) (set := fun (a : SubParts) v => { a with dscp := some v }) hin (named_dscp c) (parse_decimal h)
theorem kid_weighting {n : Nat} (h : n < 2 ^ 8) : Child (subTable c) st (leafRaws "weighting" (decimal n)) (fun a => { a with weighting := some n }) :=
  child_leafIn (f := fun t => parseNat (2 ^ 8) (trim t)) (set := fun (a : SubParts) v => { a with weighting := some v }) hin (named_weighting c) (parse_decimal h)
theorem kid_dependency {n : Nat} (h : n < 2 ^ 32) : Child (subTable c) st (leafRaws "dependency" (decimal n)) (fun a => { a with dependency := some n }) :=
  child_leafIn (f := fun t => parseNat (2 ^ 32) (trim t)) (set := fun (a : SubParts) v => { a with dependency := some v }) hin (named_dependency c) (parse_decimal h)
theorem kid_purpose {t : Text} (h : trim t = t) : Child (subTable c) st (leafRaws "purpose" t) (fun a => { a with purpose := some t }) :=
  child_leafIn (f := fun t => some (trim t)) (set := fun (a : SubParts) v => { a with purpose := some v }) hin (named_purpose c) (by rw [h])
theorem kid_stream {t : Text} (h : trim t = t) : Child (subTable c) st (leafRaws "stream" t) (fun a => { a with stream := some t }) :=
  child_leafIn (f := fun t => some (trim t)) (set := fun (a : SubParts) v => { a with stream := some v }) hin (named_stream c) (by rw [h])
theorem kid_streamName (t : Text) : Child (subTable c) st (leafRaws "stream-filter-name" t) (fun a => { a with streamFilter := some (.byReference t) }) :=
  child_leafIn (f := some) (set := fun (a : SubParts) v => { a with streamFilter := some (.byReference v) }) hin (named_streamName c) rfl
theorem kid_replay {x : Text} {t : Time} (h : c.read x = some t) : Child (subTable c) st (leafRaws "replay-start-time" x) (fun a => { a with replay := some t }) :=
  child_leafIn (f := c.read) (set := fun (a : SubParts) v => { a with replay := some v }) hin (named_replay c) h

theorem kid_state (x : SubState) : Child (subTable c) st (leafRaws "configured-subscription-state" (SubState.name x).toList) (fun a => { a with state := some x }) := by
  have hr : (declared [] ++ st.scope).resolve ⟨none, "configured-subscription-state"⟩ = .bound nsSub := by simpa [declared] using inNs_resolve hin "configured-subscription-state"
  refine child_of (px := none) (as := []) (bal_flat (flat_written _)) hr (named_state c) fun a R ps hR => ?_
  refine (bind_ok (?_ : readSubState _ = (.ok x, _))).trans rfl
  refine (bind_ok (open_tag hr (flat_written _) R ps)).trans ?_
  refine (bind_ok (tagString_flat (flat_written _))).trans ?_
  refine (bind_ok (close_here (next_fine hR))).trans ?_
  rw [plain_written, readEnum_state]
  rfl

theorem kid_configured : Child (subTable c) st [.empty ⟨none, "configured-replay"⟩ []] (fun a => { a with configured := true }) := by
  have hr : (declared [] ++ st.scope).resolve ⟨none, "configured-replay"⟩ = .bound nsSub := by simpa [declared] using inNs_resolve hin "configured-replay"
  have ha : ∀ R, (subTable c).at (annotate st ([.empty ⟨none, "configured-replay"⟩ []] ++ R)) = (subTable c).named nsSub "configured-replay" := fun R => at_empty _ hr R
  refine ⟨⟨_, _, _, .inr rfl⟩, Bal.single rfl .nil, fun R => by rw [ha, named_configured]; rfl, fun a R ps hR => ?_⟩
  unfold stepOf
  simp only [ha R, named_configured]
  refine (bind_ok (open_empty hr)).trans ?_
  exact (bind_ok (close_empty (next_fine hR))).trans rfl

theorem resolve_identity (key p : String) (v : Text) (hp : p ≠ "") : (declared ([] ++ [prefixNs p v]) ++ st.scope).resolve ⟨none, key⟩ = .bound nsSub := by
  have h2 := inNs_resolve hin key
  have : declared ([] ++ [prefixNs p v]) = [(p, v)] := rfl
  rw [this]
  simp only [Scope.resolve, List.cons_append, List.nil_append, Scope.find] at h2 ⊢
  rw [if_neg hp]
  exact h2

theorem kid_transport {t : SubTransport} (ht : t ≠ .unknown) : Child (subTable c) st (transportRaws t) (fun a => { a with transport := some t }) := by
  have key : ∀ (ns name : Text), escape ns = ns → ns ≠ [] → trim ("tns".toList ++ ':' :: name) = "tns".toList ++ ':' :: name →
      (if name = "udp-notif".toList then SubTransport.udp else if name = "https".toList then .https else .unknown) = t →
      Child (subTable c) st (identityRaws "transport" "tns" [] ns name) (fun a => { a with transport := some t }) := by
    intro ns name h1 h2 h3 h4
    have hr := resolve_identity hin "transport" "tns" (escape ns) (by decide)
    refine child_of (bal_flat (flat_written _)) hr (named_transport c) fun a R ps hR => ?_
    refine (bind_ok (?_ : readTransport _ = (.ok t, ⟨annotate st R, ps⟩))).trans rfl
    refine (bind_ok (reads_identityRaws rfl (by decide) h1 h2 h3 hr rfl R ps hR)).trans ?_
    show (Res.ok (if name = "udp-notif".toList then SubTransport.udp else if name = "https".toList then .https else .unknown), _) = _
    rw [h4]
  cases t with
  | udp => exact key _ _ (by decide +kernel) (by decide) (by decide +kernel) (by decide +kernel)
  | https => exact key _ _ (by decide +kernel) (by decide) (by decide +kernel) (by decide +kernel)
  | unknown => exact absurd rfl ht

theorem kid_encoding {t : SubEncoding} (ht : t ≠ .unknown) : Child (subTable c) st (encodingRaws t) (fun a => { a with encoding := some t }) := by
  have key : ∀ (ns name : Text), escape ns = ns → ns ≠ [] → trim ("enc".toList ++ ':' :: name) = "enc".toList ++ ':' :: name →
      (if name = "encode-xml".toList then SubEncoding.xml else if name = "encode-json".toList then .json else if name = "encode-cbor".toList then .cbor else .unknown) = t →
      Child (subTable c) st (identityRaws "encoding" "enc" [] ns name) (fun a => { a with encoding := some t }) := by
    intro ns name h1 h2 h3 h4
    have hr := resolve_identity hin "encoding" "enc" (escape ns) (by decide)
    refine child_of (bal_flat (flat_written _)) hr (named_encoding c) fun a R ps hR => ?_
    refine (bind_ok (?_ : readEncoding _ = (.ok t, ⟨annotate st R, ps⟩))).trans rfl
    refine (bind_ok (reads_identityRaws rfl (by decide) h1 h2 h3 hr rfl R ps hR)).trans ?_
    show (Res.ok (if name = "encode-xml".toList then SubEncoding.xml else if name = "encode-json".toList then .json else if name = "encode-cbor".toList then .cbor else .unknown), _) = _
    rw [h4]
  cases t with
  | xml => exact key _ _ (by decide +kernel) (by decide) (by decide +kernel) (by decide +kernel)
  | json => exact key _ _ (by decide +kernel) (by decide) (by decide +kernel) (by decide +kernel)
  | cbor => exact key _ _ (by decide +kernel) (by decide) (by decide +kernel) (by decide +kernel)
  | unknown => exact absurd rfl ht

theorem kid_streamXPath {f : XPathFilter} (h : f.Ok) :
    Child (subTable c) st (filterRaws' nsSub "stream-xpath-filter" (newBindings nsSub f.namespaces true) (written f.path)) (fun a => { a with streamFilter := some (.inline (.xpath f)) }) := by
  have hs : st.scope.find "" = some nsSub := by
    unfold InNs Scope.resolve at hin
    simp only at hin
    split at hin
    · cases hin
    · rename_i h; injection hin with hin; rw [h, hin]
    · cases hin
  have hr := filter_resolves (ns := nsSub) (by decide) h (bound := true) (st := st) (fun _ => hs) "stream-xpath-filter"
  refine child_of (bal_flat (flat_written _)) hr (named_streamXPath c) fun a R ps hR => ?_
  have := reads_specXPath (k := streamKind) (by decide) (st := st) hr (flat_written f.path) R ps hR
  rw [plain_written, kept_written h, h.trimmed] at this
  exact (bind_ok this).trans rfl

theorem kid_streamSubtree {f : SubtreeFilter} (h : f.Ok "stream-subtree-filter") :
    Child (subTable c) st (filterRaws' nsSub "stream-subtree-filter" (newBindings nsSub f.namespaces true) f.xml) (fun a => { a with streamFilter := some (.inline (.subtree f)) }) := by
  have hs : st.scope.find "" = some nsSub := by
    unfold InNs Scope.resolve at hin
    simp only at hin
    split at hin
    · cases hin
    · rename_i h; injection hin with hin; rw [h, hin]
    · cases hin
  have hr := filter_resolves' (ns := nsSub) (by decide) h.ns (bound := true) (st := st) (fun _ => hs) "stream-subtree-filter"
  refine child_of h.content.bal hr (named_streamSubtree c) fun a R ps hR => ?_
  have := reads_specSubtree (k := streamKind) (st := st) hr h.content R ps hR
  rw [notes_written h] at this
  exact (bind_ok this).trans rfl
end

section
variable (c : Clock) (st : Stack)

theorem kid_store {d : YStoreName} (h : d.Ok) : Child (subTable c) st (identityRaws "datastore" "ds" [defaultNs nsPush] d.pair.1 d.pair.2) (fun a => { a with store := some d }) := by
  have hr : ∀ v, (declared ([defaultNs nsPush] ++ [prefixNs "ds" v]) ++ st.scope).resolve ⟨none, "datastore"⟩ = .bound nsPush := fun v => rfl
  refine child_of (bal_flat (flat_written _)) (hr _) (named_store c) fun a R ps hR => ?_
  refine (bind_ok (reads_identityRaws rfl (by decide) h.clear h.some h.ends (hr _) rfl R ps hR)).trans ?_
  show (Res.ok { a with store := some (YStoreName.of d.pair.1 d.pair.2) }, _) = _
  rw [h.known]

theorem kid_ref (n : Text) : Child (subTable c) st (tagRaws ⟨none, "selection-filter-ref"⟩ [defaultNs nsPush] (written n)) (fun a => { a with selection := some (.byReference n) }) :=
  child_leaf (f := some) (set := fun (a : SubParts) v => { a with selection := some (.byReference v) }) (by rfl) (named_ref c) (flat_written n) (by rw [plain_written])

theorem kid_dsXPath {f : XPathFilter} (h : f.Ok) :
    Child (subTable c) st (filterRaws' nsPush "datastore-xpath-filter" (newBindings nsPush f.namespaces false) (written f.path)) (fun a => { a with selection := some (.inline (.xpath f)) }) := by
  have hr := filter_resolves (ns := nsPush) (by decide) h (bound := false) (st := st) (by simp) "datastore-xpath-filter"
  refine child_of (bal_flat (flat_written _)) hr (named_dsXPath c) fun a R ps hR => ?_
  have := reads_specXPath (k := dsKind) (by decide) (st := st) hr (flat_written f.path) R ps hR
  rw [plain_written, kept_written h, h.trimmed] at this
  exact (bind_ok this).trans rfl

theorem kid_dsSubtree {f : SubtreeFilter} (h : f.Ok "datastore-subtree-filter") :
    Child (subTable c) st (filterRaws' nsPush "datastore-subtree-filter" (newBindings nsPush f.namespaces false) f.xml) (fun a => { a with selection := some (.inline (.subtree f)) }) := by
  have hr := filter_resolves' (ns := nsPush) (by decide) h.ns (bound := false) (st := st) (by simp) "datastore-subtree-filter"
  refine child_of h.content.bal hr (named_dsSubtree c) fun a R ps hR => ?_
  have := reads_specSubtree (k := dsKind) (st := st) hr h.content R ps hR
  rw [notes_written h] at this
  exact (bind_ok this).trans rfl

theorem kid_publisher {n : Nat} (h : n < 2 ^ 32) :
    Child (subTable c) st (tagRaws ⟨some "dn", "message-publisher-id"⟩ [prefixNs "dn" nsDistributed] (written (decimal n))) (fun a => { a with publishers := some (a.publishers.getD [] ++ [n]) }) :=
  child_leaf (f := fun t => parseNat (2 ^ 32) (trim t)) (set := fun (a : SubParts) v => { a with publishers := some (a.publishers.getD [] ++ [v]) }) (by rfl) (named_publisher c) (flat_written _)
    (by rw [plain_written]; exact parse_decimal h)

theorem kid_content {t : Text} (h : trim t = t) : Child (subTable c) st (tagRaws ⟨some "ypr", "yang-library-content-id"⟩ [prefixNs "ypr" nsRevision] (written t)) (fun a => { a with contentId := some t }) :=
  child_leaf (f := fun t => some (trim t)) (set := fun (a : SubParts) v => { a with contentId := some v }) (by rfl) (named_content c) (flat_written _) (by rw [plain_written, h])

theorem bal_optRaws {α : Type} {g : α → List Raw} (h : ∀ a, Bal (g a)) (x : Option α) : Bal (optRaws g x) := by cases x <;> simp [optRaws, Bal.nil, h]

theorem kid_version {v : ModuleVersion} (h : v.Ok) : Child (subTable c) st (versionRaws v []) (fun a => { a with versions := some (a.versions.getD [] ++ [v]) }) := by
  refine child_of (ns := nsRevision) ?_ (by rfl) (named_version c) fun a R ps hR => ?_
  · exact bal_append (bal_tagRaws _ _ (bal_flat (flat_written _))) (bal_append (bal_optRaws (fun _ => bal_tagRaws _ _ (bal_flat (flat_written _))) _)
      (bal_append (bal_optRaws (fun _ => bal_tagRaws _ _ (bal_flat (flat_written _))) _) .nil))
  · have := reads_version (st := st) h (more := []) .nil (fun R => next_close _ _ _ _) (fun _ _ R => by rw [List.nil_append, isTagL_close]; simp) (fun _ R => by rw [List.nil_append, isTagL_close]; simp) R ps hR
    exact (bind_ok this).trans rfl

theorem kid_trigger {t : Trigger} (h : t.Ok c) : Child (subTable c) st (triggerRaws c t) (fun a => { a with trigger := some t.kept }) := by
  cases t with
  | periodic p a =>
    refine child_of (ns := nsPush) ?_ (by rfl) (named_periodic c) fun a R ps hR => (bind_ok (reads_trigger c st h R ps hR)).trans rfl
    rw [periodicKids, raws_append, raws_optKid, raws_optKid]
    exact bal_append (bal_optRaws (fun _ => bal_tagRaws _ _ (bal_flat (flat_written _))) _) (bal_optRaws (fun _ => bal_tagRaws _ _ (bal_flat (flat_written _))) _)
  | onChange d s e =>
    refine child_of (ns := nsPush) ?_ (by rfl) (named_onChange c) fun a R ps hR => (bind_ok (reads_trigger c st h R ps hR)).trans rfl
    rw [onChangeKids, raws_append, raws_append, raws_optKid, raws_optKid]
    refine bal_append (bal_optRaws (fun _ => bal_tagRaws _ _ (bal_flat (flat_written _))) _) (bal_append (bal_optRaws (fun _ => bal_tagRaws _ _ (bal_flat (flat_written _))) _) (bal_kids fun x hx => ?_))
    obtain ⟨y, _, rfl⟩ := List.mem_map.mp hx
    exact bal_tagRaws _ _ (bal_flat (flat_written _))
end

/-- a publisher without the declaration is not known -/
theorem foreign_publisher (c : Clock) {st : Stack} (h : st.scope.find "dn" = none) (l : List Raw) (hl : Bal l) : Foreign (subTable c) st (tagRaws ⟨some "dn", "message-publisher-id"⟩ [] l) := by
  refine foreign_tag hl ?_
  have : (declared [] ++ st.scope).resolve ⟨some "dn", "message-publisher-id"⟩ = .unknown := by
    show st.scope.resolve _ = _
    unfold Scope.resolve
    simp [h]
  rw [this]
  rfl

theorem subKids_ok (c : Clock) {st : Stack} (hdn : st.scope.find "dn" = none) {s : Subscription} (h : s.Ok c) : ∀ x ∈ subKids c s, SubKid c (subStack st) x := by
  have hin : InNs (subStack st) nsSub := rfl
  have happ : ∀ (k l : Kids SubParts), (∀ x ∈ k, SubKid c (subStack st) x) → (∀ x ∈ l, SubKid c (subStack st) x) → ∀ x ∈ k ++ l, SubKid c (subStack st) x := by
    intro k l hk hl x hx
    rcases List.mem_append.mp hx with hx | hx
    · exact hk x hx
    · exact hl x hx
  unfold subKids
  refine happ _ _ ?_ (happ _ _ ?_ (happ _ _ ?_ (happ _ _ ?_ (happ _ _ ?_ (happ _ _ ?_ (happ _ _ ?_ (happ _ _ ?_ (happ _ _ ?_ (happ _ _ ?_ (happ _ _ ?_ (happ _ _ ?_ (happ _ _ ?_ ?_))))))))))))
  · intro x hx; simp at hx; subst hx; exact (kid_id c hin h.id).sub
  · cases ht : s.target with
    | datastore d f =>
      have hok := h.target; rw [ht] at hok
      intro x hx
      rcases List.mem_cons.mp hx with rfl | hx
      · exact (kid_store c _ hok.1).sub
      · match f, hok.2, hx with
        | .byReference n, _, hx => simp [selectionKids] at hx; subst hx; exact (kid_ref c _ n).sub
        | .inline (.xpath f), hf, hx => simp [selectionKids] at hx; subst hx; exact (kid_dsXPath c _ hf).sub
        | .inline (.subtree f), hf, hx => simp [selectionKids] at hx; subst hx; exact (kid_dsSubtree c _ hf.1).sub
    | stream n f r b =>
      have hok := h.target; rw [ht] at hok
      intro x hx
      rcases List.mem_cons.mp hx with rfl | hx
      · exact (kid_stream c hin hok.1).sub
      rcases List.mem_append.mp hx with hx | hx
      · match f, hok.2.1, hx with
        | .byReference n, _, hx => simp [streamKids] at hx; subst hx; exact (kid_streamName c hin n).sub
        | .inline (.xpath f), hf, hx => simp [streamKids] at hx; subst hx; exact (kid_streamXPath c hin hf).sub
        | .inline (.subtree f), hf, hx => simp [streamKids] at hx; subst hx; exact (kid_streamSubtree c hin hf.2).sub
      rcases List.mem_append.mp hx with hx | hx
      · exact all_optKid (fun t e => (kid_replay c hin (hok.2.2 t e)).sub) x hx
      · cases b with
        | true => simp at hx; subst hx; exact (kid_configured c hin).sub
        | false => simp at hx
  · exact all_optKid fun t e => (kid_stop c hin (h.stop t e)).sub
  · exact all_optKid fun t e => (kid_dscp c hin (h.dscp t e)).sub
  · exact all_optKid fun t e => (kid_weighting c hin (h.weighting t e)).sub
  · exact all_optKid fun t e => (kid_dependency c hin (h.dependency t e)).sub
  · refine all_optKid fun t e => (kid_transport c hin ?_).sub
    have := (Option.filter_eq_some_iff.mp e).2
    simpa using this
  · refine all_optKid fun t e => (kid_encoding c hin ?_).sub
    have := (Option.filter_eq_some_iff.mp e).2
    simpa using this
  · exact all_optKid fun t e => (kid_purpose c hin (h.purpose t e)).sub
  · exact all_optKid fun t e => (kid_state c hin t).sub
  · intro x hx
    cases hp : s.publishers with
    | none => rw [hp] at hx; simp [publisherKids] at hx
    | some l =>
      rw [hp] at hx
      cases l with
      | nil => simp [publisherKids] at hx
      | cons n l =>
        rcases List.mem_cons.mp hx with rfl | hx
        · exact (kid_publisher c _ (h.publishers _ hp n List.mem_cons_self)).sub
        · obtain ⟨m, _, rfl⟩ := List.mem_map.mp hx
          exact (foreign_publisher c (by show Scope.find (("", nsSub) :: st.scope) "dn" = none; simp [Scope.find, hdn]) _ (bal_flat (flat_written _))).sub
  · exact all_optKid fun t e => (kid_trigger c _ (h.trigger t e)).sub
  · intro x hx
    obtain ⟨v, hv, rfl⟩ := List.mem_map.mp hx
    cases hp : s.versions with
    | none => rw [hp] at hv; simp at hv
    | some l => rw [hp] at hv; exact (kid_version c _ (h.versions l hp v hv)).sub
  · exact all_optKid fun t e => (kid_content c _ (h.contentId t e)).sub

/-- what a subscription is written as -/
def subRaws (c : Clock) (s : Subscription) : List Raw := tagRaws ⟨none, "subscription"⟩ [defaultNs nsSub] (subKids c s).raws

theorem reads_subRaws (c : Clock) {st : Stack} (hdn : st.scope.find "dn" = none) {s : Subscription} (h : s.Ok c) : Reads (readSubscription c) st (subRaws c s) s.kept :=
  reads_subscription c (by rfl) (subKids_ok c hdn h) (run_subKids c s h.target)

end Verif.Xml
