import Verif.Props.SubscriptionOrder
/-!
# Filters by subtree: what is kept of them (C281)
-/
namespace Verif.Props
open Verif.Xml Verif.Collector

/-- content of a filter of a name, whose elements declare nothing, that begins and ends with elements -/
structure TreeContent (key : String) (c : List Raw) : Prop where
  balanced : Bal c
  texts : ∀ r ∈ c, r.utf8 = true
  ends : ∀ r, c.head? = some r ∨ c.getLast? = some r → ∀ t, r ≠ .text t
  closes : ∀ q, Raw.close q ∈ c → q.loc ≠ key
  undeclared : ∀ q as, Raw.start q as ∈ c ∨ Raw.empty q as ∈ c → ∀ a ∈ as, a.key.pfx ≠ some "xmlns" ∧ a.key ≠ ⟨none, "xmlns"⟩
  letters : ∀ q as, Raw.start q as ∈ c ∨ Raw.empty q as ∈ c → q.pfx ≠ some "" ∧ ∀ a ∈ as, a.key.pfx ≠ some ""

/-- the namespace that the bindings in force give a prefix -/
def Gives (sc : Scope) (p : String) (t : Text) : Prop := sc.resolve ⟨if p = "" then none else some p, ""⟩ = .bound t

theorem tree_content {key : String} {c : List Raw} (h : TreeContent key c) : SubtreeContent key c ∧ ∀ r ∈ c, r.sound := by
  refine ⟨⟨h.balanced, h.closes, h.texts, h.ends, fun r hr => ?_⟩, fun r hr => ?_⟩
  · cases r with
    | start q as => exact declared_none (h.undeclared q as (.inl hr))
    | empty q as => exact declared_none (h.undeclared q as (.inr hr))
    | _ => rfl
  · cases r with
    | start q as => exact h.letters q as (.inl hr)
    | empty q as => exact h.letters q as (.inr hr)
    | _ => trivial

theorem nsOf_gives {sc : Scope} {p : String} {t : Text} : nsOf sc p = some t ↔ Gives sc p t := by
  unfold nsOf Gives
  cases sc.resolve ⟨if p = "" then none else some p, ""⟩ <;> simp

/-- C281: of a filter by subtree the content is kept as it is, with the prefixes that it uses, each once in order of their first uses, and each with the namespace that it has there. -/
theorem c281_kept_partial {k : FilterKind} {st : Stack} {px : Option String} {as : List Attr} (hr : (declared as ++ st.scope).resolve ⟨px, k.subtree⟩ = .bound k.ns) {c : List Raw} (hc : TreeContent k.subtree c)
    (hb : ∀ p ∈ c.flatMap Raw.uses, ∃ t, Gives (declared as ++ st.scope) p t) :
    ∃ ns, Xml.Reads (readSpec k) st (tagRaws ⟨px, k.subtree⟩ as c) (.subtree ⟨ns, c⟩) ∧ ns.map Prod.fst = firstOf (c.flatMap Raw.uses) ∧ ∀ b ∈ ns, Gives (declared as ++ st.scope) b.1 b.2 := by
  obtain ⟨h1, h2⟩ := tree_content hc
  refine ⟨_, reads_specSubtree hr h1, ?_⟩
  rw [notes_uses _ h2]
  let sc := declared as ++ st.scope
  have hn : ∀ p ∈ c.flatMap Raw.uses, ∃ t, nsOf sc p = some t ∧ (p, t) ∈ (c.flatMap Raw.uses).filterMap fun p => (nsOf sc p).map fun t => (p, t) := by
    intro p hp
    obtain ⟨t, ht⟩ := hb p hp
    exact ⟨t, nsOf_gives.mpr ht, List.mem_filterMap.mpr ⟨p, hp, by rw [nsOf_gives.mpr ht]; rfl⟩⟩
  obtain ⟨e1, e2⟩ := noted hn [] (by simp)
  refine ⟨e1, fun b hb => ?_⟩
  obtain ⟨p, _, he⟩ := List.mem_filterMap.mp (e2 b hb)
  cases hx : nsOf sc p with
  | none => rw [hx] at he; cases he
  | some t => rw [hx] at he; injection he with he; subst he; exact nsOf_gives.mp hx

/-- C281: a subscription with a filter by subtree is written and read back with the same filter. -/
theorem c281_read_back_partial {c : Clock} {s : Subscription} {f : SubtreeFilter} (hf : PlainSubtree f) (ht : (∃ d, PlainStore d ∧ s.target = .datastore d (.inline (.subtree f))) ∨ (∃ n b, Tight n ∧ s.target = .stream n (.inline (.subtree f)) none b))
    {s' : Subscription} (hp : PlainSub c s') (hs : s = { s' with target := s.target }) (hw : WholeSub s) {bs : List (List (Text × String))} (hb : NoneOf bs) (b : Bool) :
    ∃ rs, output (writeSubscription c s) ⟨[], bs, b⟩ = some rs ∧ run (readSubscription c) (annotate [] rs) = .ok s := by
  refine c272_read_back_partial ?_ hw hb b
  have ht' : PlainTarget c s.target := by
    rcases ht with ⟨d, hd, e⟩ | ⟨n, b, hn, e⟩ <;> rw [e]
    · exact ⟨hd, hf⟩
    · exact ⟨hn, hf, fun t e => by cases e⟩
  rw [hs]
  exact ⟨hp.id, ht', hp.stop, hp.dscp, hp.weighting, hp.dependency, hp.purpose, hp.publishers, hp.periodic, hp.onChange, hp.versions, hp.contentId⟩

/-- elements of two modules, with an attribute of a third -/
def someTree : SubtreeFilter :=
  ⟨[("if", "urn:if".toList), ("x", "urn:x".toList), ("ip", "urn:ip".toList)],
   [.start ⟨some "if", "interfaces"⟩ [⟨⟨some "x", "mark"⟩, some "1".toList⟩, ⟨⟨none, "plain"⟩, some "2".toList⟩], .start ⟨some "if", "name"⟩ [], .text "eth0".toList, .close ⟨some "if", "name"⟩, .empty ⟨some "ip", "ipv4"⟩ [], .close ⟨some "if", "interfaces"⟩]⟩

theorem someTree_plain : PlainSubtree someTree := by
  refine ⟨?_, by decide, ?_, ?_, ?_, ?_, by decide, by decide, by decide, by decide⟩
  · exact Bal.tag _ _ (a := [.start ⟨some "if", "name"⟩ [], .text "eth0".toList, .close ⟨some "if", "name"⟩, .empty ⟨some "ip", "ipv4"⟩ []]) (Bal.tag _ _ (a := [.text "eth0".toList]) (.single rfl .nil) (.single rfl .nil)) .nil
  · intro r hr t e; subst e; simp [someTree] at hr
  · intro q hq; simp [someTree] at hq; rcases hq with rfl | rfl <;> decide
  · intro q as hq; simp [someTree] at hq
    rcases hq with (⟨rfl, rfl⟩ | ⟨rfl, rfl⟩) | ⟨rfl, rfl⟩ <;> decide
  · intro q as hq; simp [someTree] at hq
    rcases hq with (⟨rfl, rfl⟩ | ⟨rfl, rfl⟩) | ⟨rfl, rfl⟩ <;> decide

example : ∃ rs, output (writeSubscription tick { someSub with target := .datastore .operational (.inline (.subtree someTree)) }) ⟨[], [], false⟩ = some rs ∧
    run (readSubscription tick) (annotate [] rs) = .ok { someSub with target := .datastore .operational (.inline (.subtree someTree)) } := by
  refine c281_read_back_partial someTree_plain (.inl ⟨.operational, trivial, rfl⟩) someSub_plain rfl ?_ (fun l hl => by cases hl) false
  exact ⟨fun t e => (by cases e; rfl), fun n f r b e => (by cases e), fun p a e => (by cases e), by decide, by decide, fun l e => (by cases e; rfl), by decide, fun d b e => (by cases e)⟩

example : TreeContent "datastore-subtree-filter" someTree.xml ∧ ∀ p ∈ someTree.xml.flatMap Raw.uses, ∃ t, Gives someTree.namespaces p t := by
  refine ⟨⟨someTree_plain.balanced, someTree_plain.texts, someTree_plain.ends, fun q hq => (someTree_plain.closes q hq).1, someTree_plain.undeclared, someTree_plain.letters⟩, ?_⟩
  intro p hp
  have : p = "if" ∨ p = "x" ∨ p = "ip" := by
    have h : someTree.xml.flatMap Raw.uses = ["if", "x", "if", "ip"] := by decide
    rw [h] at hp; simp at hp; rcases hp with rfl | rfl | rfl | rfl <;> simp
  rcases this with rfl | rfl | rfl
  · exact ⟨"urn:if".toList, rfl⟩
  · exact ⟨"urn:x".toList, rfl⟩
  · exact ⟨"urn:ip".toList, rfl⟩

/-- an element without prefix, as it is kept of `<interfaces xmlns="urn:if"/>` and the like -/
def bareTree : SubtreeFilter := ⟨[("", "urn:if".toList)], [.empty ⟨none, "interfaces"⟩ []]⟩

/-- such a filter is what reading gives where the namespace of the element is the default one around a filter with a prefix -/
theorem bareTree_read : run (readSpec dsKind) (annotate [] [.start ⟨some "yp", "datastore-subtree-filter"⟩ [prefixNs "yp" nsPush, defaultNs "urn:if".toList], .empty ⟨none, "interfaces"⟩ [], .close ⟨some "yp", "datastore-subtree-filter"⟩]) = .ok (.subtree bareTree) := by
  decide +kernel

/-- C281 is false: a filter whose elements have no prefix is read, but a subscription to a datastore with it cannot be written, and a subscription to a stream with it is written so that it is read without it. -/
theorem c281_bare_disproved :
    output (writeSubscription tick { someSub with target := .datastore .operational (.inline (.subtree bareTree)) }) ⟨[], [], false⟩ = none ∧
    ∃ rs, output (writeSubscription tick { someSub with target := .stream "NETCONF".toList (.inline (.subtree bareTree)) none false }) ⟨[], [], false⟩ = some rs ∧
      run (readSubscription tick) (annotate [] rs) = .ok { someSub with target := .stream "NETCONF".toList (.byReference []) none false } :=
  ⟨by decide +kernel, (output (writeSubscription tick { someSub with target := .stream "NETCONF".toList (.inline (.subtree bareTree)) none false }) ⟨[], [], false⟩).getD [], by decide +kernel, by decide +kernel⟩

/-- a filter of filters: an element of a module that is named as the filter itself -/
def nestedTree : List Raw := [.start ⟨some "m", "filters"⟩ [], .start ⟨some "m", "datastore-subtree-filter"⟩ [], .close ⟨some "m", "datastore-subtree-filter"⟩, .close ⟨some "m", "filters"⟩]

/-- C281 is false: content with an element of the name of the filter, in whichever namespace, is cut off at the end of that element, and is kept without its last tags. -/
theorem c281_nested_disproved : Bal nestedTree ∧
    run (readSpec dsKind) (annotate [] (tagRaws ⟨none, "datastore-subtree-filter"⟩ [defaultNs nsPush, prefixNs "m" "urn:m".toList] nestedTree)) = .ok (.subtree ⟨[("m", "urn:m".toList)], nestedTree.take 2⟩) :=
  ⟨.tag _ _ (a := [.start ⟨some "m", "datastore-subtree-filter"⟩ [], .close ⟨some "m", "datastore-subtree-filter"⟩]) (.tag _ _ (a := []) .nil .nil) .nil, by decide +kernel⟩

end Verif.Props
