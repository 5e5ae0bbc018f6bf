import Verif.NetconfXml.SubOut
import Verif.Props.NetconfLibrary
/-!
# C272: subscriptions of YANG-Push as XML
-/
namespace Verif.Props
open Verif.Xml
open Verif.Collector (Text trim trimStart isSpace parseNat)

/-! ## C272 -/

/-- a time of which a clock writes the seconds and reads them back -/
def Told (c : Clock) (t : Time) : Prop := c.parse (trim (c.format t.secs)) = some ⟨t.secs, 0⟩

/-- a path whose prefixes are those that are declared for it, each of another namespace -/
structure PlainPath (f : XPathFilter) : Prop where
  ends : Tight f.path
  prefixes : f.namespaces.Pairwise fun a b => a.1 ≠ b.1
  uris : f.namespaces.Pairwise fun a b => a.2 ≠ b.2
  used : ∀ p : String, p.toList ∈ xpathPrefixes .out f.path ↔ ∃ n, (p, n) ∈ f.namespaces
  named : ∀ b ∈ f.namespaces, b.1 ≠ "" ∧ b.1 ≠ "xml" ∧ b.2 ≠ []

/-- a subtree of elements with prefixes that are those declared for it in order of their first uses, each of another namespace; it declares none itself, begins and ends with elements, and has none of the name of a filter -/
structure PlainSubtree (f : SubtreeFilter) : Prop where
  balanced : Bal f.xml
  texts : ∀ r ∈ f.xml, r.utf8 = true
  ends : ∀ r, f.xml.head? = some r ∨ f.xml.getLast? = some r → ∀ t, r ≠ .text t
  closes : ∀ q, Raw.close q ∈ f.xml → q.loc ≠ "datastore-subtree-filter" ∧ q.loc ≠ "stream-subtree-filter"
  undeclared : ∀ q as, Raw.start q as ∈ f.xml ∨ Raw.empty q as ∈ f.xml → ∀ a ∈ as, a.key.pfx ≠ some "xmlns" ∧ a.key ≠ ⟨none, "xmlns"⟩
  letters : ∀ q as, Raw.start q as ∈ f.xml ∨ Raw.empty q as ∈ f.xml → q.pfx ≠ some "" ∧ ∀ a ∈ as, a.key.pfx ≠ some ""
  used : firstOf (f.xml.flatMap Raw.uses) = f.namespaces.map Prod.fst
  prefixes : f.namespaces.Pairwise fun a b => a.1 ≠ b.1
  uris : f.namespaces.Pairwise fun a b => a.2 ≠ b.2
  named : ∀ b ∈ f.namespaces, b.1 ≠ "" ∧ b.1 ≠ "xml" ∧ b.2 ≠ []

def PlainSelection : Selection → Prop
  | .byReference _ => True
  | .inline (.xpath f) => PlainPath f
  | .inline (.subtree f) => PlainSubtree f

def PlainTarget (c : Clock) : SubTarget → Prop
  | .stream n f r _ => Tight n ∧ PlainSelection f ∧ ∀ t ∈ r, Told c t
  | .datastore d f => PlainStore d ∧ PlainSelection f

/-- a subscription with numbers of their sizes, texts without white space at their ends, times that a clock tells, and a filter that is a name, a path or a subtree -/
structure PlainSub (c : Clock) (s : Subscription) : Prop where
  id : s.id < 2 ^ 32
  target : PlainTarget c s.target
  stop : ∀ t ∈ s.stop, Told c t
  dscp : ∀ n ∈ s.dscp, n < 2 ^ 8
  weighting : ∀ n ∈ s.weighting, n < 2 ^ 8
  dependency : ∀ n ∈ s.dependency, n < 2 ^ 32
  purpose : ∀ t ∈ s.purpose, Tight t
  publishers : ∀ l ∈ s.publishers, ∀ n ∈ l, n < 2 ^ 32
  periodic : ∀ p a, s.trigger = some (.periodic p a) → (∀ n ∈ p, n < 2 ^ 32) ∧ ∀ t ∈ a, Told c t
  onChange : ∀ d b e, s.trigger = some (.onChange d b e) → ∀ n ∈ d, n < 2 ^ 32
  versions : ∀ l ∈ s.versions, ∀ v ∈ l, Tight v.name ∧ (∀ t ∈ v.revision, Tight t) ∧ ∀ t ∈ v.version, Tight t
  contentId : ∀ t ∈ s.contentId, Tight t

/-- the bindings of a writer have nothing of the modules of subscriptions -/
def NoneOf (bs : List (List (Text × String))) : Prop :=
  ∀ l ∈ bs, ∀ b ∈ l, b.1 ≠ nsSub ∧ b.1 ≠ nsPush ∧ b.1 ≠ nsDistributed ∧ b.1 ≠ nsRevision

theorem prefixIn_free {ns : Text} {l : List (Text × String)} (h : ∀ b ∈ l, b.1 ≠ ns) : prefixIn ns l = none := by
  induction l with
  | nil => rfl
  | cons b l ih =>
    obtain ⟨n, p⟩ := b
    simp only [prefixIn, if_neg (h (n, p) List.mem_cons_self)]
    exact ih fun b hb => h b (List.mem_cons_of_mem _ hb)

theorem pfx_free {ns : Text} {bs : List (List (Text × String))} (h : ∀ l ∈ bs, ∀ b ∈ l, b.1 ≠ ns) : nsPrefix ns bs = none := by
  induction bs with
  | nil => rfl
  | cons l bs ih =>
    simp only [nsPrefix, prefixIn_free (h l List.mem_cons_self)]
    exact ih fun l' hl' => h l' (List.mem_cons_of_mem _ hl')

theorem noneOf_free {bs : List (List (Text × String))} (h : NoneOf bs) : Free bs :=
  ⟨pfx_free fun l hl b hb => (h l hl b hb).1, pfx_free fun l hl b hb => (h l hl b hb).2.1, pfx_free fun l hl b hb => (h l hl b hb).2.2.1, pfx_free fun l hl b hb => (h l hl b hb).2.2.2⟩

theorem path_ok {f : XPathFilter} (h : PlainPath f) : f.Ok :=
  ⟨tight_trim h.ends, h.prefixes, h.uris, fun p => (h.used p).trans ⟨fun ⟨n, hn⟩ => List.mem_map.mpr ⟨_, hn, rfl⟩, fun e => by obtain ⟨b, hb, rfl⟩ := List.mem_map.mp e; exact ⟨b.2, hb⟩⟩, h.named⟩

theorem declared_none {as : List Attr} (h : ∀ a ∈ as, a.key.pfx ≠ some "xmlns" ∧ a.key ≠ ⟨none, "xmlns"⟩) : declared as = [] := by
  induction as with
  | nil => rfl
  | cons a as ih =>
    have ha := h a List.mem_cons_self
    have hi := ih fun x hx => h x (List.mem_cons_of_mem _ hx)
    unfold declared
    split
    · rename_i e; cases e
    · rename_i e; injection e with e _; subst e; exact absurd rfl ha.2
    · rename_i e; injection e with e _; subst e; exact absurd rfl ha.1
    · rename_i e; injection e with _ e; subst e; exact hi

theorem subtree_ok {f : SubtreeFilter} (h : PlainSubtree f) {key : String} (hk : key = "datastore-subtree-filter" ∨ key = "stream-subtree-filter") : f.Ok key := by
  refine ⟨⟨h.balanced, fun q hq => ?_, h.texts, h.ends, fun r hr => ?_⟩, ⟨h.prefixes, h.uris, h.named⟩, fun r hr => ?_, h.used⟩
  · rcases hk with rfl | rfl
    · exact (h.closes q hq).1
    · exact (h.closes q hq).2
  · cases r with
    | start q as => exact declared_none (h.undeclared q as (.inl hr))
    | empty q as => exact declared_none (h.undeclared q as (.inr hr))
    | _ => rfl
  · cases r with
    | start q as => exact h.letters q as (.inl hr)
    | empty q as => exact h.letters q as (.inr hr)
    | _ => trivial

theorem selection_ok : ∀ {s : Selection}, PlainSelection s → s.Ok
  | .byReference _, _ => trivial
  | .inline (.xpath _), h => path_ok h
  | .inline (.subtree _), h => ⟨subtree_ok h (.inl rfl), subtree_ok h (.inr rfl)⟩

theorem sub_ok {c : Clock} {s : Subscription} (h : PlainSub c s) : s.Ok c := by
  refine ⟨h.id, ?_, h.stop, h.dscp, h.weighting, h.dependency, fun t e => tight_trim (h.purpose t e), h.publishers, ?_, ?_, fun t e => tight_trim (h.contentId t e)⟩
  · have := h.target
    cases ht : s.target with
    | stream n f r b => rw [ht] at this; exact ⟨tight_trim this.1, selection_ok this.2.1, this.2.2⟩
    | datastore d f => rw [ht] at this; exact ⟨store_plain this.1, selection_ok this.2⟩
  · intro t e
    cases t with
    | periodic p a => exact h.periodic p a e
    | onChange d b x => exact h.onChange d b x e
  · exact fun l e v hv => have := h.versions l e v hv; ⟨tight_trim this.1, fun t e => tight_trim (this.2.1 t e), fun t e => tight_trim (this.2.2 t e)⟩

theorem run_of_reads {α : Type} {p : P α} {rs : List Raw} {a : α} (h : Xml.Reads p [] rs a) (hb : headBad (annotate [] rs) = false) : run p (annotate [] rs) = .ok a := by
  unfold run
  rw [if_neg (by rw [hb]; simp)]
  have := h [] [] trivial
  rw [List.append_nil] at this
  rw [this]

theorem written_read {c : Clock} {s : Subscription} (h : PlainSub c s) {bs : List (List (Text × String))} (hb : NoneOf bs) (b : Bool) :
    output (writeSubscription c s) ⟨[], bs, b⟩ = some (subRaws c s) ∧ run (readSubscription c) (annotate [] (subRaws c s)) = .ok s.kept := by
  refine ⟨?_, run_of_reads (reads_subRaws c (st := []) rfl (sub_ok h)) rfl⟩
  obtain ⟨b', h'⟩ := any_subscription c (noneOf_free hb) (sub_ok h).target [] b
  unfold output
  rw [h']; rfl

/-- a time of whole seconds -/
def Whole (t : Time) : Prop := t.nanos = 0

/-- a subscription of which every part has a way to be written -/
structure WholeSub (s : Subscription) : Prop where
  stop : ∀ t ∈ s.stop, Whole t
  replay : ∀ n f r b, s.target = .stream n f (some r) b → Whole r
  anchor : ∀ p a, s.trigger = some (.periodic p (some a)) → Whole a
  transport : s.transport ≠ some .unknown
  encoding : s.encoding ≠ some .unknown
  publishers : ∀ l ∈ s.publishers, l.length = 1
  versions : s.versions ≠ some []
  excluded : ∀ d b, s.trigger ≠ some (.onChange d b (some []))

theorem whole_eq {t : Time} (h : Whole t) : t.whole = t := by cases t; unfold Whole at h; simp at h; subst h; rfl

theorem whole_opt {x : Option Time} (h : ∀ t ∈ x, Whole t) : x.map Time.whole = x := by
  cases x with
  | none => rfl
  | some t => simp [whole_eq (h t rfl)]

theorem whole_kept {s : Subscription} (h : WholeSub s) : s.kept = s := by
  have e1 : s.target.kept = s.target := by
    cases ht : s.target with
    | datastore d f => rfl
    | stream n f r b => simp only [SubTarget.kept]; rw [whole_opt fun t e => by cases e; exact h.replay n f t b ht]
  have e2 : s.transport.filter (· ≠ .unknown) = s.transport := by
    have := h.transport
    cases ht : s.transport with
    | none => rfl
    | some t => rw [ht] at this; cases t <;> first | rfl | exact absurd rfl this
  have e3 : s.encoding.filter (· ≠ .unknown) = s.encoding := by
    have := h.encoding
    cases ht : s.encoding with
    | none => rfl
    | some t => rw [ht] at this; cases t <;> first | rfl | exact absurd rfl this
  have e4 : (s.publishers.filter (!·.isEmpty)).map (·.take 1) = s.publishers := by
    cases ht : s.publishers with
    | none => rfl
    | some l =>
      have := h.publishers l ht
      match l, this with
      | [n], _ => rfl
  have e5 : s.versions.filter (!·.isEmpty) = s.versions := by
    have := h.versions
    cases ht : s.versions with
    | none => rfl
    | some l => rw [ht] at this; cases l with
      | nil => exact absurd rfl this
      | cons => rfl
  have e6 : s.trigger.map Trigger.kept = s.trigger := by
    cases ht : s.trigger with
    | none => rfl
    | some t =>
      cases t with
      | periodic p a => simp only [Option.map_some, Trigger.kept]; rw [whole_opt fun t e => by cases e; exact h.anchor p t ht]
      | onChange d b e =>
        cases e with
        | none => rfl
        | some l =>
          cases l with
          | nil => exact absurd ht (h.excluded d b)
          | cons => rfl
  unfold Subscription.kept
  rw [e1, whole_opt h.stop, e2, e3, e4, e5, e6]

/-- C272, in part: a subscription whose filter is a name or a path, whose times are whole seconds, which has at most one publisher, and no lists that are there but empty, is written, and what is written is read as it. -/
theorem c272_read_back_partial {c : Clock} {s : Subscription} (h : PlainSub c s) (hw : WholeSub s) {bs : List (List (Text × String))} (hb : NoneOf bs) (b : Bool) :
    ∃ rs, output (writeSubscription c s) ⟨[], bs, b⟩ = some rs ∧ run (readSubscription c) (annotate [] rs) = .ok s := by
  refine ⟨_, (written_read h hb b).1, ?_⟩
  rw [(written_read h hb b).2, whole_kept hw]

/-- C272 is false: of all the publishers of a subscription only the first is read back. -/
theorem c272_publishers_disproved {c : Clock} {s : Subscription} (h : PlainSub c s) {n m : Nat} {l : List Nat} (hp : s.publishers = some (n :: m :: l)) {bs : List (List (Text × String))} (hb : NoneOf bs) (b : Bool) :
    ∃ rs s', output (writeSubscription c s) ⟨[], bs, b⟩ = some rs ∧ run (readSubscription c) (annotate [] rs) = .ok s' ∧ s'.publishers = some [n] ∧ s' ≠ s := by
  have e : s.kept.publishers = some [n] := by simp only [Subscription.kept, hp]; rfl
  exact ⟨_, _, (written_read h hb b).1, (written_read h hb b).2, e, fun x => by rw [x, hp] at e; simp at e⟩

/-- C272 is false: a time to stop is read back without its part of a second. -/
theorem c272_time_disproved {c : Clock} {s : Subscription} (h : PlainSub c s) {t : Time} (ht : s.stop = some t) (hn : t.nanos ≠ 0) {bs : List (List (Text × String))} (hb : NoneOf bs) (b : Bool) :
    ∃ rs s', output (writeSubscription c s) ⟨[], bs, b⟩ = some rs ∧ run (readSubscription c) (annotate [] rs) = .ok s' ∧ s'.stop = some ⟨t.secs, 0⟩ ∧ s' ≠ s := by
  have e : s.kept.stop = some ⟨t.secs, 0⟩ := by simp [Subscription.kept, ht, Time.whole]
  refine ⟨_, _, (written_read h hb b).1, (written_read h hb b).2, e, fun x => ?_⟩
  rw [x, ht] at e
  injection e with e
  rw [e] at hn
  exact hn rfl

/-- C272 is false: a transport, an encoding, versions and changes that are there but not known, or empty, are not there when they are read back. -/
theorem c272_absent_disproved {c : Clock} {s : Subscription} (h : PlainSub c s) {bs : List (List (Text × String))} (hb : NoneOf bs) (b : Bool) :
    ∃ rs s', output (writeSubscription c s) ⟨[], bs, b⟩ = some rs ∧ run (readSubscription c) (annotate [] rs) = .ok s' ∧ (s.transport = some .unknown → s'.transport = none) ∧
      (s.encoding = some .unknown → s'.encoding = none) ∧ (s.publishers = some [] → s'.publishers = none) ∧ (s.versions = some [] → s'.versions = none) ∧
      ∀ d x, s.trigger = some (.onChange d x (some [])) → s'.trigger = some (.onChange d x none) := by
  refine ⟨_, _, (written_read h hb b).1, (written_read h hb b).2, fun e => ?_, fun e => ?_, fun e => ?_, fun e => ?_, fun d x e => ?_⟩ <;> simp only [Subscription.kept, e] <;> rfl

theorem tight_of {t : Text} (h : t.head?.all (fun c => !isSpace c) = true) (h' : t.getLast?.all (fun c => !isSpace c) = true) : Tight t := by
  intro c hc
  rcases hc with hc | hc
  · rw [hc] at h; simpa using h
  · rw [hc] at h'; simpa using h'

/-- a clock that counts seconds -/
def tick : Clock := ⟨fun s => decimal s.toNat, fun t => (parseNat (2 ^ 32) t).map fun n => ⟨n, 0⟩⟩

/-- a path over two modules -/
def twoModules : XPathFilter := ⟨[("if", "urn:if".toList), ("ip", "urn:ip".toList)], "/if:interfaces/if:interface[name='a:b']/ip:ipv4".toList⟩

theorem twoModules_plain : PlainPath twoModules := by
  have hx : xpathPrefixes .out twoModules.path = ["if".toList, "if".toList, "ip".toList] := by decide +kernel
  refine ⟨tight_of (by decide +kernel) (by decide +kernel), by decide +kernel, by decide +kernel, fun p => ?_, by decide +kernel⟩
  rw [hx]
  constructor
  · intro e
    simp only [List.mem_cons, List.not_mem_nil, or_false] at e
    rcases e with e | e | e
    · exact ⟨"urn:if".toList, by rw [String.ext e]; decide⟩
    · exact ⟨"urn:if".toList, by rw [String.ext e]; decide⟩
    · exact ⟨"urn:ip".toList, by rw [String.ext e]; decide⟩
  · rintro ⟨n, hn⟩
    simp only [twoModules, List.mem_cons, List.not_mem_nil, or_false, Prod.mk.injEq] at hn
    rcases hn with ⟨rfl, _⟩ | ⟨rfl, _⟩ <;> decide

/-- a subscription with every part -/
def someSub : Subscription :=
  ⟨7, .datastore .operational (.inline (.xpath twoModules)), some ⟨1000, 0⟩, some 10, some 3, some 6, some .https, some .cbor, some "why".toList, some .valid, some [1],
   some (.onChange (some 100) (some true) (some [.create, .move])), some [⟨"ietf-interfaces".toList, some "2018-02-20".toList, none⟩, ⟨"x".toList, none, some "1.0.0".toList⟩], some "id".toList⟩

theorem someSub_plain : PlainSub tick someSub := by
  refine ⟨by decide, ⟨trivial, twoModules_plain⟩, ?_, ?_, ?_, ?_, ?_, ?_, ?_, ?_, ?_, ?_⟩
  · intro t e; cases e; unfold Told; decide +kernel
  · intro t e; cases e; decide
  · intro t e; cases e; decide
  · intro t e; cases e; decide
  · intro t e; cases e; exact tight_of (by decide +kernel) (by decide +kernel)
  · intro l e; cases e; decide
  · intro p a e; cases e
  · intro d b e x n hn; cases x; cases hn; decide
  · intro l e v hv
    cases e
    simp only [List.mem_cons, List.not_mem_nil, or_false] at hv
    rcases hv with rfl | rfl
    · exact ⟨tight_of (by decide +kernel) (by decide +kernel), fun t e => (by cases e; exact tight_of (by decide +kernel) (by decide +kernel)), fun t e => by cases e⟩
    · exact ⟨tight_of (by decide +kernel) (by decide +kernel), fun t e => (by cases e), fun t e => by cases e; exact tight_of (by decide +kernel) (by decide +kernel)⟩
  · intro t e; cases e; exact tight_of (by decide +kernel) (by decide +kernel)

example : PlainSub tick someSub ∧ WholeSub someSub ∧ NoneOf plainBindings := by
  refine ⟨someSub_plain, ⟨?_, ?_, ?_, by decide, by decide, ?_, by decide, fun d b e => (by cases e)⟩, ?_⟩
  · intro t e; cases e; rfl
  · intro n f r b e; cases e
  · intro p a e; cases e
  · intro l e; cases e; rfl
  · intro l hl b hb
    simp only [plainBindings, List.mem_singleton] at hl
    subst hl
    simp only [List.mem_singleton] at hb
    subst hb
    decide

example : PlainSub tick { someSub with publishers := some [1, 2, 3], stop := some ⟨1000, 5⟩, transport := some .unknown, versions := some [] } := by
  have h := someSub_plain
  refine ⟨h.id, h.target, ?_, h.dscp, h.weighting, h.dependency, h.purpose, ?_, h.periodic, h.onChange, ?_, h.contentId⟩
  · intro t e; cases e; unfold Told; decide +kernel
  · intro l e; cases e; decide
  · intro l e; cases e; simp

end Verif.Props
