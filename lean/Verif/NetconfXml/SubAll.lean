import Verif.NetconfXml.SubWhole
/-!
# The children of a subscription that was written, and what is read of them
-/
namespace Verif.Xml
open Verif.Collector (Text trim parseNat)

/-- the stack inside of a subscription -/
abbrev subStack (st : Stack) : Stack := (⟨none, "subscription"⟩, declared [defaultNs nsSub] ++ st.scope) :: st


section
variable (c : Clock)
theorem named_id : (subTable c).named nsSub "id" = some fun a => do let v ← leafOf nsSub "id" (fun t => parseNat (2 ^ 32) (trim t)); return { a with id := some v } := rfl
theorem named_stop : (subTable c).named nsSub "stop-time" = some fun a => do let v ← leafOf nsSub "stop-time" c.read; return { a with stop := some v } := rfl
theorem named_dscp : (subTable c).named nsSub "dscp" = some fun a => do let v ← leafOf nsSub "dscp" (fun t => parseNat (2 ^ 8) (trim t)); return { a with dscp := some v } := rfl
theorem named_weighting : (subTable c).named nsSub "weighting" = some fun a => do let v ← leafOf nsSub "weighting" (fun t => parseNat (2 ^ 8) (trim t)); return { a with weighting := some v } := rfl
theorem named_dependency : (subTable c).named nsSub "dependency" = some fun a => do let v ← leafOf nsSub "dependency" (fun t => parseNat (2 ^ 32) (trim t)); return { a with dependency := some v } := rfl
theorem named_transport : (subTable c).named nsSub "transport" = some fun a => do let v ← readTransport; return { a with transport := some v } := rfl
theorem named_encoding : (subTable c).named nsSub "encoding" = some fun a => do let v ← readEncoding; return { a with encoding := some v } := rfl
theorem named_purpose : (subTable c).named nsSub "purpose" = some fun a => do let v ← leafOf nsSub "purpose" (fun t => some (trim t)); return { a with purpose := some v } := rfl
theorem named_state : (subTable c).named nsSub "configured-subscription-state" = some fun a => do let v ← readSubState; return { a with state := some v } := rfl
theorem named_stream : (subTable c).named nsSub "stream" = some fun a => do let v ← leafOf nsSub "stream" (fun t => some (trim t)); return { a with stream := some v } := rfl
theorem named_streamName : (subTable c).named nsSub "stream-filter-name" = some fun a => do let v ← leafOf nsSub "stream-filter-name" some; return { a with streamFilter := some (.byReference v) } := rfl
theorem named_streamSubtree : (subTable c).named nsSub "stream-subtree-filter" = some fun a => do let v ← readSpec streamKind; return { a with streamFilter := some (.inline v) } := rfl
theorem named_streamXPath : (subTable c).named nsSub "stream-xpath-filter" = some fun a => do let v ← readSpec streamKind; return { a with streamFilter := some (.inline v) } := rfl
theorem named_replay : (subTable c).named nsSub "replay-start-time" = some fun a => do let v ← leafOf nsSub "replay-start-time" c.read; return { a with replay := some v } := rfl
theorem named_configured : (subTable c).named nsSub "configured-replay" = some fun a => do let _ ← openTag nsSub "configured-replay"; close; return { a with configured := true } := rfl
theorem named_store : (subTable c).named nsPush "datastore" = some fun a => do let i ← readIdentity nsPush "datastore"; return { a with store := some (YStoreName.of i.1 i.2) } := rfl
theorem named_ref : (subTable c).named nsPush "selection-filter-ref" = some fun a => do let v ← leafOf nsPush "selection-filter-ref" some; return { a with selection := some (.byReference v) } := rfl
theorem named_dsSubtree : (subTable c).named nsPush "datastore-subtree-filter" = some fun a => do let v ← readSpec dsKind; return { a with selection := some (.inline v) } := rfl
theorem named_dsXPath : (subTable c).named nsPush "datastore-xpath-filter" = some fun a => do let v ← readSpec dsKind; return { a with selection := some (.inline v) } := rfl
theorem named_periodic : (subTable c).named nsPush "periodic" = some fun a => do let v ← readTrigger c; return { a with trigger := some v } := rfl
theorem named_onChange : (subTable c).named nsPush "on-change" = some fun a => do let v ← readTrigger c; return { a with trigger := some v } := rfl
theorem named_publisher : (subTable c).named nsDistributed "message-publisher-id" = some fun a => do
    let v ← leafOf nsDistributed "message-publisher-id" (fun t => parseNat (2 ^ 32) (trim t))
    return { a with publishers := some (a.publishers.getD [] ++ [v]) } := rfl
theorem named_version : (subTable c).named nsRevision "module-version" = some fun a => do let v ← readVersion; return { a with versions := some (a.versions.getD [] ++ [v]) } := rfl
theorem named_content : (subTable c).named nsRevision "yang-library-content-id" = some fun a => do
    let v ← leafOf nsRevision "yang-library-content-id" (fun t => some (trim t)); return { a with contentId := some v } := rfl
end

/-! ## Identities -/

/-- an identity that was written is read -/
theorem reads_identityRaws {st : Stack} {ns : Text} {key p : String} {as : List Attr} {idNs name : Text} (hp : splitName (p.toList ++ ':' :: name) = (⟨some p, String.ofList name⟩, name)) (hx : p ≠ "xml") (he : escape idNs = idNs) (hne : idNs ≠ [])
    (ht : trim (p.toList ++ ':' :: name) = p.toList ++ ':' :: name) (hr : (declared (as ++ [prefixNs p (escape idNs)]) ++ st.scope).resolve ⟨none, key⟩ = .bound ns)
    (hd : declared (as ++ [prefixNs p (escape idNs)]) = (p, escape idNs) :: declared as) :
    Reads (readIdentity ns key) st (identityRaws key p as idNs name) (idNs, name) := by
  have := reads_identity (st := st) (ns := ns) (px := none) (key := key) (as := as ++ [prefixNs p (escape idNs)]) hr (flat_written (p.toList ++ ':' :: name)) (n := idNs) ?_
  · rw [plain_written, ht, ht, hp] at this
    exact this
  · rw [plain_written, ht, ht, hp, hd, he]
    exact resolve_some (by simp [Scope.find]) hne hx _

/-! ## Children -/

def selectionKids : Selection → Kids SubParts
  | .byReference n => [(tagRaws ⟨none, "selection-filter-ref"⟩ [defaultNs nsPush] (written n), fun a => { a with selection := some (.byReference n) })]
  | .inline (.xpath f) => [(filterRaws' nsPush "datastore-xpath-filter" (newBindings nsPush f.namespaces false) (written f.path), fun a => { a with selection := some (.inline (.xpath f)) })]
  | .inline (.subtree f) => [(filterRaws' nsPush "datastore-subtree-filter" (newBindings nsPush f.namespaces false) f.xml, fun a => { a with selection := some (.inline (.subtree f)) })]

def streamKids : Selection → Kids SubParts
  | .byReference n => [(leafRaws "stream-filter-name" n, fun a => { a with streamFilter := some (.byReference n) })]
  | .inline (.xpath f) => [(filterRaws' nsSub "stream-xpath-filter" (newBindings nsSub f.namespaces true) (written f.path), fun a => { a with streamFilter := some (.inline (.xpath f)) })]
  | .inline (.subtree f) => [(filterRaws' nsSub "stream-subtree-filter" (newBindings nsSub f.namespaces true) f.xml, fun a => { a with streamFilter := some (.inline (.subtree f)) })]

def targetKids (c : Clock) : SubTarget → Kids SubParts
  | .datastore d f => (identityRaws "datastore" "ds" [defaultNs nsPush] d.pair.1 d.pair.2, fun a => { a with store := some d }) :: selectionKids f
  | .stream n f r b => (leafRaws "stream" n, fun a => { a with stream := some n }) :: (streamKids f ++
      (optKid r (fun t => leafRaws "replay-start-time" (c.format t.secs)) (fun a v => { a with replay := v }) Time.whole ++
       if b then [([.empty ⟨none, "configured-replay"⟩ []], fun a => { a with configured := true })] else []))

def transportRaws (t : SubTransport) : List Raw := optRaws (fun i => identityRaws "transport" "tns" [] i.1 i.2) t.identity
def encodingRaws (t : SubEncoding) : List Raw := optRaws (fun i => identityRaws "encoding" "enc" [] i.1 i.2) t.identity

def publisherKids : List Nat → Kids SubParts
  | [] => []
  | n :: l => (tagRaws ⟨some "dn", "message-publisher-id"⟩ [prefixNs "dn" nsDistributed] (written (decimal n)), fun a => { a with publishers := some (a.publishers.getD [] ++ [n]) }) ::
      l.map fun m => (tagRaws ⟨some "dn", "message-publisher-id"⟩ [] (written (decimal m)), id)

def versionKids (l : List ModuleVersion) : Kids SubParts := l.map fun v => (versionRaws v [], fun a => { a with versions := some (a.versions.getD [] ++ [v]) })

def subKids (c : Clock) (s : Subscription) : Kids SubParts :=
  [(leafRaws "id" (decimal s.id), fun a => { a with id := some s.id })] ++ (targetKids c s.target ++
  (optKid s.stop (fun t => leafRaws "stop-time" (c.format t.secs)) (fun a v => { a with stop := v }) Time.whole ++
  (optKid s.dscp (fun n => leafRaws "dscp" (decimal n)) (fun a v => { a with dscp := v }) id ++
  (optKid s.weighting (fun n => leafRaws "weighting" (decimal n)) (fun a v => { a with weighting := v }) id ++
  (optKid s.dependency (fun n => leafRaws "dependency" (decimal n)) (fun a v => { a with dependency := v }) id ++
  (optKid (s.transport.filter (· ≠ .unknown)) transportRaws (fun a v => { a with transport := v }) id ++
  (optKid (s.encoding.filter (· ≠ .unknown)) encodingRaws (fun a v => { a with encoding := v }) id ++
  (optKid s.purpose (leafRaws "purpose") (fun a v => { a with purpose := v }) id ++
  (optKid s.state (fun x => leafRaws "configured-subscription-state" (SubState.name x).toList) (fun a v => { a with state := v }) id ++
  (publisherKids (s.publishers.getD []) ++
  (optKid s.trigger (triggerRaws c) (fun a v => { a with trigger := v }) Trigger.kept ++
  (versionKids (s.versions.getD []) ++
   optKid s.contentId (fun t => tagRaws ⟨some "ypr", "yang-library-content-id"⟩ [prefixNs "ypr" nsRevision] (written t)) (fun a v => { a with contentId := v }) id))))))))))))

theorem run_publishers (l : List Nat) (a : SubParts) (h : a.publishers = none) : (publisherKids l).run a = { a with publishers := (some l).filter (!·.isEmpty) |>.map (·.take 1) } := by
  have hid : ∀ (l : List Nat) (a : SubParts), Kids.run (l.map fun m => (tagRaws ⟨some "dn", "message-publisher-id"⟩ [] (written (decimal m)), id)) a = a := by
    intro l
    induction l with
    | nil => intro a; rfl
    | cons x l ih => intro a; exact ih a
  cases l with
  | nil => cases a; simp at h; subst h; rfl
  | cons n l =>
    show Kids.run (l.map _) _ = _
    rw [hid]
    cases a; simp at h; subst h
    rfl

theorem run_versions (l : List ModuleVersion) (a : SubParts) : (versionKids l).run a = { a with versions := if l.isEmpty then a.versions else some (a.versions.getD [] ++ l) } := by
  induction l generalizing a with
  | nil => simp [Kids.run, versionKids]
  | cons x l ih =>
    unfold versionKids at ih ⊢
    rw [List.map_cons, ← List.singleton_append, run_append, ih]
    cases l <;> simp [Kids.run]

theorem done_of {a : SubParts} {i : Nat} {t : SubTarget} (hi : a.id = some i) (ht : a.target = some t) :
    a.done = some ⟨i, t, a.stop, a.dscp, a.weighting, a.dependency, a.transport, a.encoding, a.purpose, a.state, a.publishers, a.trigger, a.versions, a.contentId⟩ := by
  unfold SubParts.done; rw [hi, ht]

/-- reading all children -/
theorem run_subKids (c : Clock) (s : Subscription) (h : s.target.Ok c) : ((subKids c s).run {}).done = some s.kept := by
  have hpub : ((some (s.publishers.getD [])).filter (!·.isEmpty)).map (·.take 1) = (s.publishers.filter (!·.isEmpty)).map (·.take 1) := by cases s.publishers <;> rfl
  have hver : (if (s.versions.getD []).isEmpty = true then none else some ([] ++ s.versions.getD [])) = s.versions.filter (!·.isEmpty) := by
    cases s.versions with
    | none => rfl
    | some l => cases l <;> rfl
  have ht : ∀ a : SubParts, a = { id := some s.id } → ∃ b : SubParts, (targetKids c s.target).run a = b ∧ b.id = some s.id ∧ b.target = some s.target.kept ∧ b = { id := some s.id, stream := b.stream, streamFilter := b.streamFilter, replay := b.replay, configured := b.configured, store := b.store, selection := b.selection } := by
    rintro a rfl
    refine ⟨_, rfl, ?_⟩
    cases hs : s.target with
    | datastore d f =>
      rw [hs] at h
      match f, h.2 with
      | .byReference n, _ => exact ⟨rfl, rfl, rfl⟩
      | .inline (.xpath f), _ => exact ⟨rfl, rfl, rfl⟩
      | .inline (.subtree f), _ => exact ⟨rfl, rfl, rfl⟩
    | stream n f r b =>
      rw [hs] at h
      match f, h.2.1 with
      | .byReference n, _ => cases r <;> cases b <;> exact ⟨rfl, rfl, rfl⟩
      | .inline (.xpath f), _ => cases r <;> cases b <;> exact ⟨rfl, rfl, rfl⟩
      | .inline (.subtree f), _ => cases r <;> cases b <;> exact ⟨rfl, rfl, rfl⟩
  obtain ⟨b, hb, hid, htgt, hform⟩ := ht { id := some s.id } rfl
  unfold subKids
  rw [run_append, run_append]
  have h0 : Kids.run [(leafRaws "id" (decimal s.id), fun a : SubParts => { a with id := some s.id })] {} = { id := some s.id } := rfl
  rw [h0, hb, hform]
  rw [run_append, run_optKid rfl, run_append, run_optKid rfl, run_append, run_optKid rfl, run_append, run_optKid rfl, run_append, run_optKid rfl, run_append, run_optKid rfl, run_append, run_optKid rfl, run_append, run_optKid rfl,
    run_append, run_publishers _ _ rfl, run_append, run_optKid rfl, run_append, run_versions, run_optKid rfl]
  simp only [hpub, Option.map_id_fun, id]
  have htgt' : ∀ x : SubParts, x.stream = b.stream → x.streamFilter = b.streamFilter → x.replay = b.replay → x.configured = b.configured → x.store = b.store → x.selection = b.selection → x.target = some s.target.kept := by
    intro x h1 h2 h3 h4 h5 h6
    rw [← htgt]
    unfold SubParts.target
    rw [h1, h2, h3, h4, h5, h6]
  rw [done_of (i := s.id) (t := s.target.kept) (by rfl) (htgt' _ (by rfl) (by rfl) (by rfl) (by rfl) (by rfl) (by rfl))]
  simp only [Option.getD_none, hver]
  rfl

end Verif.Xml
