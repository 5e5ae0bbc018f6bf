import Verif.NetconfXml.SubRound
/-!
# What is written of subscriptions
-/
namespace Verif.Xml
open Verif.Collector (Text trim parseNat)

abbrev Bindings := List (List (Text × String))

/-- something writes certain events whether the namespaces are written or not, and then they are -/
def Fresh (p : W Unit) (bs : Bindings) (rs : List Raw) : Prop := ∀ out b, p ⟨out, bs, b⟩ = some ((), ⟨out ++ rs, bs, true⟩)
/-- something writes certain events whether the namespaces are written or not -/
def WritesAny (p : W Unit) (bs : Bindings) (rs : List Raw) : Prop := ∀ out b, ∃ b', p ⟨out, bs, b⟩ = some ((), ⟨out ++ rs, bs, b'⟩)
/-- something writes certain events once the namespaces are written -/
def WritesEnd (p : W Unit) (bs : Bindings) (rs : List Raw) : Prop := ∀ out, ∃ b', p ⟨out, bs, true⟩ = some ((), ⟨out ++ rs, bs, b'⟩)

theorem Fresh.writes {p : W Unit} {bs : Bindings} {rs : List Raw} (h : Fresh p bs rs) : Writes p bs rs := fun out => h out true
theorem Fresh.any {p : W Unit} {bs : Bindings} {rs : List Raw} (h : Fresh p bs rs) : WritesAny p bs rs := fun out b => ⟨true, h out b⟩
theorem WritesAny.ends {p : W Unit} {bs : Bindings} {rs : List Raw} (h : WritesAny p bs rs) : WritesEnd p bs rs := fun out => h out true
theorem _root_.Verif.Xml.Writes.ends {p : W Unit} {bs : Bindings} {rs : List Raw} (h : Writes p bs rs) : WritesEnd p bs rs := fun out => ⟨true, h out⟩

theorem any_seq {p q : W Unit} {bs : Bindings} {a b : List Raw} (hp : WritesAny p bs a) (hq : WritesAny q bs b) : WritesAny (do p; q) bs (a ++ b) := by
  intro out x
  obtain ⟨y, hy⟩ := hp out x
  obtain ⟨z, hz⟩ := hq (out ++ a) y
  exact ⟨z, (wbind hy).trans (by rw [hz]; simp)⟩

theorem end_seq {p q : W Unit} {bs : Bindings} {a b : List Raw} (hp : Writes p bs a) (hq : WritesEnd q bs b) : WritesEnd (do p; q) bs (a ++ b) := by
  intro out
  obtain ⟨z, hz⟩ := hq (out ++ a)
  exact ⟨z, (wbind (hp out)).trans (by rw [hz]; simp)⟩

theorem any_opt {α : Type} {f : α → W Unit} {bs : Bindings} {g : α → List Raw} (x : Option α) (h : ∀ a, x = some a → WritesAny (f a) bs (g a)) : WritesAny (writeOpt f x) bs (optRaws g x) := by
  cases x with
  | some a => exact h a rfl
  | none => intro out b; exact ⟨b, by simp [writeOpt, optRaws, pure]⟩

theorem any_all {α : Type} {f : α → W Unit} {g : α → List Raw} {bs : Bindings} (h : ∀ a, WritesAny (f a) bs (g a)) (l : List α) : WritesAny (writeAll f l) bs (l.flatMap g) := by
  induction l with
  | nil => intro out b; exact ⟨b, by simp [writeAll, pure]⟩
  | cons a l ih => exact any_seq (h a) ih

theorem writes_optOf {α : Type} {f : α → W Unit} {bs : Bindings} {g : α → List Raw} (x : Option α) (h : ∀ a, x = some a → Writes (f a) bs (g a)) : Writes (writeOpt f x) bs (optRaws g x) := by
  cases x with
  | some a => exact h a rfl
  | none => intro out; simp [writeOpt, optRaws, pure]

theorem pfx_head (ns : Text) (bs : Bindings) : nsPrefix ns ([(ns, "")] :: bs) = some "" := by simp [nsPrefix, prefixIn]

/-- an element in a namespace that has no prefix yet -/
theorem fresh_around {ns : Text} {bs : Bindings} (h : nsPrefix ns bs = none) {n : String} {body : W Unit} {rs : List Raw} (hb : WritesEnd body ([(ns, "")] :: bs) rs) :
    WritesAny (within ns (aroundNs ns n body)) bs (tagRaws ⟨none, n⟩ [defaultNs ns] rs) := by
  intro out b
  obtain ⟨b', hb'⟩ := hb (out ++ [.start ⟨none, n⟩ [defaultNs ns]])
  refine ⟨b', ?_⟩
  unfold within
  simp only [h]
  refine (wbind (a := ()) (w' := ⟨out, [(ns, "")] :: bs, false⟩) (by simp [pushNs, distinctPrefixes])).trans ?_
  refine (wbind (a := ()) (w' := ⟨out ++ tagRaws ⟨none, n⟩ [defaultNs ns] rs, [(ns, "")] :: bs, b'⟩) ?_).trans rfl
  refine (wbind (a := (⟨none, n⟩, [defaultNs ns])) (w' := ⟨out, [(ns, "")] :: bs, true⟩) (by simp only [createNs, pfx_head]; rfl)).trans ?_
  refine (wbind (a := ()) (w' := ⟨out ++ [.start ⟨none, n⟩ [defaultNs ns]], [(ns, "")] :: bs, true⟩) rfl).trans ?_
  refine (wbind hb').trans ?_
  simp [write, tagRaws]

theorem fresh_aroundW {ns : Text} {bs : Bindings} (h : nsPrefix ns bs = none) {n : String} {body : W Unit} {rs : List Raw} (hb : Writes body ([(ns, "")] :: bs) rs) :
    Fresh (within ns (aroundNs ns n body)) bs (tagRaws ⟨none, n⟩ [defaultNs ns] rs) := by
  intro out b
  unfold within
  simp only [h]
  refine (wbind (a := ()) (w' := ⟨out, [(ns, "")] :: bs, false⟩) (by simp [pushNs, distinctPrefixes])).trans ?_
  refine (wbind (a := ()) (w' := ⟨out ++ tagRaws ⟨none, n⟩ [defaultNs ns] rs, [(ns, "")] :: bs, true⟩) ?_).trans rfl
  refine (wbind (a := (⟨none, n⟩, [defaultNs ns])) (w' := ⟨out, [(ns, "")] :: bs, true⟩) (by simp only [createNs, pfx_head]; rfl)).trans ?_
  refine (wbind (a := ()) (w' := ⟨out ++ [.start ⟨none, n⟩ [defaultNs ns]], [(ns, "")] :: bs, true⟩) rfl).trans ?_
  refine (wbind (hb _)).trans ?_
  simp [write, tagRaws]

theorem fresh_leaf {ns : Text} {bs : Bindings} (h : nsPrefix ns bs = none) (n : String) (c : List Raw) : Fresh (within ns (leafNs ns n c)) bs (tagRaws ⟨none, n⟩ [defaultNs ns] c) := by
  intro out b
  unfold within
  simp only [h]
  simp [pushNs, distinctPrefixes, leafNs, createNs, pfx_head, applyNs, write, popNs, declarations, bind, pure, tagRaws, defaultNs]

theorem elem_tagRaws (n : String) (c : List Raw) : elem n c = tagRaws ⟨none, n⟩ [] c := rfl

theorem writes_here {ns : Text} {bs : Bindings} {p : W Unit} {rs : List Raw} (h : nsPrefix ns bs = some "") (hp : Writes p bs rs) : Writes (within ns p) bs rs := by
  intro out
  unfold within
  simp only [h]
  exact hp out

/-- the declaration of a prefix -/
def prefixNs (p : String) (ns : Text) : Attr := ⟨⟨some "xmlns", p⟩, some ns⟩

/-! ## Publishers -/

/-- the identifiers of publishers as they are written: only the first has the declaration -/
def publisherRaws : List Nat → List Raw
  | [] => []
  | n :: l => tagRaws ⟨some "dn", "message-publisher-id"⟩ [prefixNs "dn" nsDistributed] (written (decimal n)) ++ l.flatMap fun m => tagRaws ⟨some "dn", "message-publisher-id"⟩ [] (written (decimal m))

theorem pfx_named (ns : Text) (p : String) (bs : Bindings) : nsPrefix ns ([(ns, p)] :: bs) = some p := by simp [nsPrefix, prefixIn]

theorem any_publishers {bs : Bindings} (h : nsPrefix nsDistributed bs = none) (l : List Nat) :
    WritesAny (withinAs nsDistributed "dn" (writeAll (fun n => textNs nsDistributed "message-publisher-id" (decimal n)) l)) bs (publisherRaws l) := by
  intro out b
  unfold withinAs
  simp only [h]
  cases l with
  | nil => exact ⟨false, by simp [pushNs, distinctPrefixes, writeAll, popNs, bind, pure, publisherRaws]⟩
  | cons n l =>
    refine ⟨true, ?_⟩
    refine (wbind (a := ()) (w' := ⟨out, [(nsDistributed, "dn")] :: bs, false⟩) (by simp [pushNs, distinctPrefixes])).trans ?_
    have hr : Writes (writeAll (fun n => textNs nsDistributed "message-publisher-id" (decimal n)) l) ([(nsDistributed, "dn")] :: bs)
        (l.flatMap fun m => tagRaws ⟨some "dn", "message-publisher-id"⟩ [] (written (decimal m))) := by
      refine writes_all (fun m out => ?_) l
      simp [textNs, leafNs, createNs, pfx_named, applyNs, write, bind, pure, tagRaws]
    have h1 : textNs nsDistributed "message-publisher-id" (decimal n) ⟨out, [(nsDistributed, "dn")] :: bs, false⟩ =
        some ((), ⟨out ++ tagRaws ⟨some "dn", "message-publisher-id"⟩ [prefixNs "dn" nsDistributed] (written (decimal n)), [(nsDistributed, "dn")] :: bs, true⟩) := by
      simp [textNs, leafNs, createNs, pfx_named, applyNs, write, bind, pure, tagRaws, declarations, prefixNs]
    have h2 : writeAll (fun n => textNs nsDistributed "message-publisher-id" (decimal n)) (n :: l) ⟨out, [(nsDistributed, "dn")] :: bs, false⟩ = some ((), ⟨out ++ publisherRaws (n :: l), [(nsDistributed, "dn")] :: bs, true⟩) := by
      refine (wbind h1).trans ?_
      rw [hr]; simp [publisherRaws]
    exact (wbind h2).trans rfl

theorem any_contentId {bs : Bindings} (h : nsPrefix nsRevision bs = none) (t : Text) :
    WritesAny (withinAs nsRevision "ypr" (textNs nsRevision "yang-library-content-id" t)) bs (tagRaws ⟨some "ypr", "yang-library-content-id"⟩ [prefixNs "ypr" nsRevision] (written t)) := by
  intro out b
  refine ⟨true, ?_⟩
  unfold withinAs
  simp only [h]
  simp [pushNs, distinctPrefixes, textNs, leafNs, createNs, pfx_named, applyNs, write, popNs, declarations, bind, pure, tagRaws, prefixNs]

/-! ## Identities -/

def identityRaws (key p : String) (as : List Attr) (ns name : Text) : List Raw := tagRaws ⟨none, key⟩ (as ++ [prefixNs p (escape ns)]) (written (p.toList ++ ':' :: name))

theorem writes_identity {bs : Bindings} {ns : Text} (h : nsPrefix ns bs = some "") (key p : String) (idNs name : Text) : Writes (writeIdentity ns key p idNs name) bs (identityRaws key p [] idNs name) := by
  intro out
  simp [writeIdentity, createNs, h, applyNs, write, bind, pure, identityRaws, tagRaws, prefixNs]

theorem fresh_identity {bs : Bindings} {ns : Text} (h : nsPrefix ns bs = none) (key p : String) (idNs name : Text) : Fresh (within ns (writeIdentity ns key p idNs name)) bs (identityRaws key p [defaultNs ns] idNs name) := by
  intro out b
  unfold within
  simp only [h]
  simp [pushNs, distinctPrefixes, writeIdentity, createNs, pfx_head, applyNs, write, popNs, declarations, bind, pure, identityRaws, tagRaws, prefixNs, defaultNs]

/-! ## Filters -/

/-- the prefix of the element of a filter -/
def filterPrefix (ns : Text) (m : List (Text × String)) : Option String := match prefixIn ns m with | some p => if p = "" then none else some p | none => none

def filterRaws' (ns : Text) (key : String) (m : List (Text × String)) (content : List Raw) : List Raw := tagRaws ⟨filterPrefix ns m, key⟩ (declarations m) content

/-- the element of a filter, in a namespace that is the default one or has no prefix -/
theorem writes_filterElem {bs : Bindings} {ns : Text} (h : nsPrefix ns bs = none ∨ nsPrefix ns bs = some "") (key : String) {l : List (String × Text)} {content : List Raw}
    (hd : distinctPrefixes (newBindings ns l (nsPrefix ns bs).isSome) = true) :
    Writes (writeFilterElem ns key l content) bs (filterRaws' ns key (newBindings ns l (nsPrefix ns bs).isSome) content) := by
  intro out
  unfold writeFilterElem
  generalize hm : newBindings ns l (nsPrefix ns bs).isSome = m at hd ⊢
  cases m with
  | nil =>
    have hs : nsPrefix ns bs = some "" := by
      rcases h with h | h
      · rw [h] at hm
        simp only [newBindings] at hm
        split at hm
        · simp at hm
        · rename_i h'; simp at h'; rw [hm] at h'; simp at h'
      · exact h
    exact writes_leafNs hs key content out
  | cons x m =>
    show (do pushNs (x :: m); leafNs ns key content; popNs) _ = _
    have hp : ∃ p, nsPrefix ns ((x :: m) :: bs) = some p ∧ filterPrefix ns (x :: m) = if p = "" then none else some p := by
      unfold nsPrefix filterPrefix
      cases hpi : prefixIn ns (x :: m) with
      | some p => exact ⟨p, rfl, rfl⟩
      | none =>
        simp only
        rcases h with h | h
        · exfalso
          rw [h] at hm
          have hno : ∀ (l : List (Text × String)), prefixIn ns l = none → ∀ b ∈ l, b.1 ≠ ns := by
            intro l
            induction l with
            | nil => simp
            | cons y l ih =>
              obtain ⟨n, p⟩ := y
              intro hl b hb
              simp only [prefixIn] at hl
              split at hl
              · cases hl
              · rename_i hne
                rcases List.mem_cons.mp hb with rfl | hb
                · exact hne
                · exact ih hl b hb
          have := hno _ hpi
          simp only [newBindings] at hm
          split at hm
          · rw [← hm] at this; exact this (ns, "") (by simp) rfl
          · rename_i h'
            simp at h'
            obtain ⟨a, ha⟩ := h'
            rw [hm] at ha
            exact this _ ha rfl
        · exact ⟨"", h, by simp⟩
    obtain ⟨p, hp1, hp2⟩ := hp
    simp [pushNs, hd, leafNs, createNs, hp1, applyNs, write, popNs, bind, pure, filterRaws', tagRaws, hp2]

end Verif.Xml
