import Verif.Props.SubscriptionXml
/-!
# C273 and C274: children of subscriptions and of triggers
-/
namespace Verif.Props
open Verif.Xml
open Verif.Collector (Text trim trimStart isSpace parseNat)

/-! ## C273 -/

/-- the elements of a subscription by RFC 8639, RFC 8641 and the drafts that augment them -/
def subscriptionNames : List (Text × String) :=
  (["id", "stop-time", "dscp", "weighting", "dependency", "transport", "encoding", "purpose", "configured-subscription-state", "stream", "stream-filter-name", "stream-subtree-filter", "stream-xpath-filter",
    "replay-start-time", "configured-replay"].map fun n => (nsSub, n)) ++
  (["datastore", "selection-filter-ref", "datastore-subtree-filter", "datastore-xpath-filter", "periodic", "on-change"].map fun n => (nsPush, n)) ++
  [(nsDistributed, "message-publisher-id"), (nsRevision, "module-version"), (nsRevision, "yang-library-content-id")]

/-- an element, with anything in it, whose name is none of some -/
inductive Stranger (names : List (Text × String)) (sc : Scope) : List Raw → Prop where
  | tag {q : QName} {as : List Attr} {c : List Raw} (hc : Bal c) (h : ∀ n ∈ names, q.loc = n.2 → (declared as ++ sc).resolve q ≠ .bound n.1) : Stranger names sc (.start q as :: (c ++ [.close q]))
  | empty {q : QName} {as : List Attr} (h : ∀ n ∈ names, q.loc = n.2 → (declared as ++ sc).resolve q ≠ .bound n.1) : Stranger names sc [.empty q as]

/-- the first elements with others between them -/
inductive Mixed (names : List (Text × String)) (sc : Scope) : List (List Raw) → List (List Raw) → Prop where
  | nil : Mixed names sc [] []
  | keep {k l l' : _} : Mixed names sc l l' → Mixed names sc (k :: l) (k :: l')
  | add {x l l' : _} : Stranger names sc x → Mixed names sc l l' → Mixed names sc l (x :: l')

theorem lacks_of {α : Type} {t : Table α} {names : List (Text × String)} (h : t.map (fun x => (x.1, x.2.1)) ⊆ names) {r : Resolved} {key : String} (hn : ∀ n ∈ names, key = n.2 → r ≠ .bound n.1) : t.lacks r key = true := by
  unfold Table.lacks
  rw [List.all_eq_true]
  intro x hx
  have := hn (x.1, x.2.1) (h (List.mem_map.mpr ⟨x, hx, rfl⟩))
  simp only [Bool.not_eq_true', Bool.and_eq_false_iff, beq_eq_false_iff_ne, ne_eq]
  by_cases e : x.2.1 = key
  · exact .inr (this e.symm)
  · exact .inl e

theorem stranger_foreign {α : Type} {t : Table α} {names : List (Text × String)} (h : t.map (fun x => (x.1, x.2.1)) ⊆ names) {st : Stack} {x : List Raw} (hx : Stranger names st.scope x) : Foreign t st x := by
  cases hx with
  | tag hc hn => exact foreign_tag hc (lacks_of h hn)
  | empty hn => exact foreign_empty (lacks_of h hn)

theorem subTable_names (c : Clock) : (subTable c).map (fun x => (x.1, x.2.1)) ⊆ subscriptionNames := by
  have : (subTable c).map (fun x => (x.1, x.2.1)) = subscriptionNames := rfl
  rw [this]; exact fun _ h => h

theorem mixed_kids {c : Clock} {st : Stack} : ∀ {l l' : List (List Raw)}, Mixed subscriptionNames st.scope l l' → ∀ (k : Kids SubParts), k.map Prod.fst = l → (∀ x ∈ k, SubKid c st x) →
    ∃ k' : Kids SubParts, k'.map Prod.fst = l' ∧ (∀ x ∈ k', SubKid c st x) ∧ ∀ a, k'.run a = k.run a := by
  intro l l' h
  induction h with
  | nil => intro k e hk; exact ⟨k, e, hk, fun _ => rfl⟩
  | @keep x l l' _ ih =>
    intro k e hk
    cases k with
    | nil => cases e
    | cons y k =>
      injection e with e1 e2
      obtain ⟨k', h1, h2, h3⟩ := ih k e2 fun z hz => hk z (List.mem_cons_of_mem _ hz)
      refine ⟨y :: k', by simp [h1, e1], fun z hz => ?_, fun a => h3 (y.2 a)⟩
      rcases List.mem_cons.mp hz with rfl | hz
      · exact hk _ List.mem_cons_self
      · exact h2 z hz
  | @add x l l' hx _ ih =>
    intro k e hk
    obtain ⟨k', h1, h2, h3⟩ := ih k e hk
    refine ⟨(x, id) :: k', by simp [h1], fun z hz => ?_, fun a => h3 a⟩
    rcases List.mem_cons.mp hz with rfl | hz
    · exact (stranger_foreign (subTable_names c) hx).sub
    · exact h2 z hz

/-- C273: elements that are not known, with anything in them, can be anywhere between the children of a subscription: what is read is the same. -/
theorem c273_unknown_children {c : Clock} {s : Subscription} (h : PlainSub c s) (hw : WholeSub s) {bs : List (List (Text × String))} (hb : NoneOf bs) (b : Bool) :
    ∃ kids : List (List Raw), (∀ k ∈ kids, k ≠ [] ∧ Bal k) ∧
      output (writeSubscription c s) ⟨[], bs, b⟩ = some (.start ⟨none, "subscription"⟩ [⟨⟨none, "xmlns"⟩, some nsSub⟩] :: (kids.flatten ++ [.close ⟨none, "subscription"⟩])) ∧
      ∀ l, Mixed subscriptionNames [("", nsSub)] kids l →
        run (readSubscription c) (annotate [] (.start ⟨none, "subscription"⟩ [⟨⟨none, "xmlns"⟩, some nsSub⟩] :: (l.flatten ++ [.close ⟨none, "subscription"⟩]))) = .ok s := by
  have hk := subKids_ok c (st := []) rfl (sub_ok h)
  refine ⟨(subKids c s).map Prod.fst, ?_, ?_, ?_⟩
  · intro k hk'
    obtain ⟨x, hx, rfl⟩ := List.mem_map.mp hk'
    refine ⟨?_, (hk x hx).2.1⟩
    obtain ⟨q, as, rest, e | e⟩ := (hk x hx).1 <;> rw [e] <;> simp
  · rw [(written_read h hb b).1]
    show some (_ :: (Kids.raws _ ++ _)) = _
    rw [Kids.raws, List.flatMap_def]; rfl
  · intro l hl
    obtain ⟨k', h1, h2, h3⟩ := mixed_kids (c := c) (st := subStack []) hl _ rfl hk
    have := reads_subscription c (st := []) (px := none) (as := [defaultNs nsSub]) (by rfl) h2 (s := s) (by rw [h3, run_subKids c s (sub_ok h).target, whole_kept hw])
    have := run_of_reads this rfl
    rw [Kids.raws, List.flatMap_def, h1] at this
    exact this

example : Stranger subscriptionNames [("", nsSub)] [.start ⟨none, "vendor"⟩ [⟨⟨none, "xmlns"⟩, some "urn:v".toList⟩], .text "a".toList, .close ⟨none, "vendor"⟩] :=
  .tag (c := [.text "a".toList]) (.single rfl .nil) (by decide)

/-! ## C274 -/

def periodicNames : List (Text × String) := [(nsPush, "period"), (nsPush, "anchor-time")]
def onChangeNames : List (Text × String) := [(nsPush, "dampening-period"), (nsPush, "sync-on-start"), (nsPush, "excluded-change")]

/-- an element with a text in it -/
def textElem (n : String) (t : Text) : List Raw := .start ⟨none, n⟩ [] :: (written t ++ [.close ⟨none, n⟩])

/-- a child of `periodic` -/
inductive PeriodicChild where
  | period (n : Nat)
  | anchor (t : Time)

def PeriodicChild.raws (c : Clock) : PeriodicChild → List Raw
  | .period n => textElem "period" (decimal n)
  | .anchor t => textElem "anchor-time" (c.format t.secs)

def PeriodicChild.Plain (c : Clock) : PeriodicChild → Prop
  | .period n => n < 2 ^ 32
  | .anchor t => Told c t ∧ Whole t

/-- the last of the periods, and the last of the anchors -/
def lastPeriod (l : List PeriodicChild) : Option Nat := (l.filterMap fun | .period n => some n | _ => none).getLast?
def lastAnchor (l : List PeriodicChild) : Option Time := (l.filterMap fun | .anchor t => some t | _ => none).getLast?

/-- a child of `on-change` -/
inductive ChangeChild where
  | dampening (n : Nat)
  | sync (t : Text)
  | excluded (x : Change)

def ChangeChild.raws : ChangeChild → List Raw
  | .dampening n => textElem "dampening-period" (decimal n)
  | .sync t => textElem "sync-on-start" t
  | .excluded x => textElem "excluded-change" (Change.name x).toList

def ChangeChild.Plain : ChangeChild → Prop
  | .dampening n => n < 2 ^ 32
  | _ => True

def lastDampening (l : List ChangeChild) : Option Nat := (l.filterMap fun | .dampening n => some n | _ => none).getLast?
/-- whether the last of them has the word `true` -/
def lastSync (l : List ChangeChild) : Option Bool := (l.filterMap fun | .sync t => some (decide (trim t = "true".toList)) | _ => none).getLast?
def allExcluded (l : List ChangeChild) : Option (List Change) := match l.filterMap (fun | .excluded x => some x | _ => none) with | [] => none | l => some l

def periodicKid (c : Clock) : PeriodicChild → List Raw × (Option Nat × Option Time → Option Nat × Option Time)
  | .period n => (leafRaws "period" (decimal n), fun a => (some n, a.2))
  | .anchor t => (leafRaws "anchor-time" (c.format t.secs), fun a => (a.1, some t))

def changeKid : ChangeChild → List Raw × (OnChange → OnChange)
  | .dampening n => (leafRaws "dampening-period" (decimal n), fun a => { a with dampening := some n })
  | .sync t => (leafRaws "sync-on-start" t, fun a => { a with sync := some (trim t == "true".toList) })
  | .excluded x => (leafRaws "excluded-change" (Change.name x).toList, fun a => { a with excluded := some (a.excluded.getD [] ++ [x]) })

theorem getLast_append_or {α : Type} (l : List α) (x : α) : (l ++ [x]).getLast? = some x := by simp

theorem snoc_ind {α : Type} {P : List α → Prop} (h0 : P []) (h1 : ∀ l x, P l → P (l ++ [x])) (l : List α) : P l := by
  have : ∀ r : List α, P r.reverse := by
    intro r
    induction r with
    | nil => exact h0
    | cons x r ih => rw [List.reverse_cons]; exact h1 _ _ ih
  simpa using this l.reverse

theorem run_periodicChildren (c : Clock) (l : List PeriodicChild) : Kids.run (l.map (periodicKid c)) (none, none) = (lastPeriod l, lastAnchor l) := by
  induction l using snoc_ind with
  | h0 => rfl
  | h1 l x ih =>
    rw [List.map_append, run_append, ih]
    cases x <;> simp [Kids.run, periodicKid, lastPeriod, lastAnchor, List.filterMap_append]

theorem run_changeChildren (l : List ChangeChild) : Kids.run (l.map changeKid) {} = ⟨lastDampening l, lastSync l, allExcluded l⟩ := by
  induction l using snoc_ind with
  | h0 => rfl
  | h1 l x ih =>
    rw [List.map_append, run_append, ih]
    cases x with
    | dampening n => simp [Kids.run, changeKid, lastDampening, lastSync, allExcluded, List.filterMap_append]
    | sync t =>
      have e : (trim t == "true".toList) = decide (trim t = "true".toList) := by
        rw [Bool.eq_iff_iff, beq_iff_eq, decide_eq_true_iff]
      simp only [Kids.run, changeKid, lastDampening, lastSync, allExcluded, List.filterMap_append, List.map_cons, List.map_nil, List.foldl_cons, List.foldl_nil, List.filterMap_cons, List.filterMap_nil, List.append_nil, getLast_append_or, e]
    | excluded x =>
      simp only [Kids.run, changeKid, lastDampening, lastSync, allExcluded, List.filterMap_append, List.map_cons, List.map_nil, List.foldl_cons, List.foldl_nil, List.filterMap_cons, List.filterMap_nil, List.append_nil]
      congr 1
      generalize l.filterMap _ = m
      cases m <;> simp

/-- how a trigger ends: there is nothing more, or an element that is not known and then anything -/
def Ending (names : List (Text × String)) (more : List Raw) : Prop := more = [] ∨ ∃ x rest, more = x ++ rest ∧ Stranger names [("", nsPush)] x ∧ Bal rest

theorem bal_stranger {names : List (Text × String)} {sc : Scope} {x : List Raw} (h : Stranger names sc x) : Bal x := by
  cases h with
  | tag hc _ => exact bal_tagRaws _ _ hc
  | empty _ => exact .single rfl .nil

theorem stranger_scope {names : List (Text × String)} {x : List Raw} (h : Stranger names [("", nsPush)] x) (q : QName) : Stranger names (Stack.scope [(q, declared [defaultNs nsPush] ++ Stack.scope [])]) x := h

/-- C274, in part: the children of `periodic` are read in any order, and of those with the same name the last counts; but what is behind the first element that is not known is not read at all. -/
theorem c274_periodic_partial {c : Clock} {l : List PeriodicChild} (hl : ∀ x ∈ l, x.Plain c) {more : List Raw} (hm : Ending periodicNames more) :
    run (readTrigger c) (annotate [] (.start ⟨none, "periodic"⟩ [⟨⟨none, "xmlns"⟩, some nsPush⟩] :: (((l.map (PeriodicChild.raws c)).flatten ++ more) ++ [.close ⟨none, "periodic"⟩]))) =
      .ok (.periodic (lastPeriod l) (lastAnchor l)) := by
  have hin : InNs [(⟨none, "periodic"⟩, declared [defaultNs nsPush] ++ Stack.scope [])] nsPush := rfl
  have hb : Bal more := by
    rcases hm with rfl | ⟨x, rest, rfl, hx, hr⟩
    · exact .nil
    · exact bal_append (bal_stranger hx) hr
  have := reads_periodicMore c (st := []) (px := none) (as := [defaultNs nsPush]) (by rfl) (k := l.map (periodicKid c)) ?_ hb ?_
  · have := run_of_reads this rfl
    rw [run_periodicChildren] at this
    have e : Kids.raws (l.map (periodicKid c)) = (l.map (PeriodicChild.raws c)).flatten := by
      rw [Kids.raws, List.flatMap_def, List.map_map]
      congr 2
      funext x; cases x <;> rfl
    rw [e] at this
    exact this
  · intro x hx
    obtain ⟨y, hy, rfl⟩ := List.mem_map.mp hx
    cases y with
    | period n => exact kid_period c hin (hl _ hy)
    | anchor t =>
      have := hl _ hy
      exact kid_anchor c hin (by rw [Clock.read, this.1]; cases t; have := this.2; unfold Whole at this; simp at this; subst this; rfl)
  · rcases hm with rfl | ⟨x, rest, rfl, hx, hr⟩
    · exact .inl rfl
    · exact .inr ⟨x, rest, rfl, stranger_foreign (by rw [show (periodicTable c).map (fun x => (x.1, x.2.1)) = periodicNames from rfl]; exact fun _ h => h) (stranger_scope hx _)⟩

/-- C274, in part: the same for `on-change`, of which all changes that are excluded count. -/
theorem c274_onChange_partial {c : Clock} {l : List ChangeChild} (hl : ∀ x ∈ l, x.Plain) {more : List Raw} (hm : Ending onChangeNames more) :
    run (readTrigger c) (annotate [] (.start ⟨none, "on-change"⟩ [⟨⟨none, "xmlns"⟩, some nsPush⟩] :: (((l.map ChangeChild.raws).flatten ++ more) ++ [.close ⟨none, "on-change"⟩]))) =
      .ok (.onChange (lastDampening l) (lastSync l) (allExcluded l)) := by
  have hin : InNs [(⟨none, "on-change"⟩, declared [defaultNs nsPush] ++ Stack.scope [])] nsPush := rfl
  have hb : Bal more := by
    rcases hm with rfl | ⟨x, rest, rfl, hx, hr⟩
    · exact .nil
    · exact bal_append (bal_stranger hx) hr
  have := reads_onChangeMore c (st := []) (px := none) (as := [defaultNs nsPush]) (by rfl) (k := l.map changeKid) ?_ hb ?_
  · have := run_of_reads this rfl
    rw [run_changeChildren] at this
    have e : Kids.raws (l.map changeKid) = (l.map ChangeChild.raws).flatten := by
      rw [Kids.raws, List.flatMap_def, List.map_map]
      congr 2
      funext x; cases x <;> rfl
    rw [e] at this
    exact this
  · intro x hx
    obtain ⟨y, hy, rfl⟩ := List.mem_map.mp hx
    cases y with
    | dampening n => exact kid_dampening hin (hl _ hy)
    | sync t => exact kid_sync hin t
    | excluded x => exact kid_excluded hin x
  · rcases hm with rfl | ⟨x, rest, rfl, hx, hr⟩
    · exact .inl rfl
    · exact .inr ⟨x, rest, rfl, stranger_foreign (by rw [show onChangeTable.map (fun x => (x.1, x.2.1)) = onChangeNames from rfl]; exact fun _ h => h) (stranger_scope hx _)⟩

/-- an element of another module -/
def vendorElem : List Raw := [.start ⟨none, "vendor"⟩ [⟨⟨none, "xmlns"⟩, some "urn:v".toList⟩], .text "a".toList, .close ⟨none, "vendor"⟩]

theorem vendor_stranger (names : List (Text × String)) (h : ∀ n ∈ names, n.2 ≠ "vendor") (sc : Scope) : Stranger names sc vendorElem :=
  .tag (c := [.text "a".toList]) (.single rfl .nil) fun n hn e => absurd e.symm (h n hn)

/-- C274 is false: a period behind an element of another module is not read. -/
theorem c274_lost_disproved (c : Clock) (n : Nat) :
    run (readTrigger c) (annotate [] (.start ⟨none, "periodic"⟩ [⟨⟨none, "xmlns"⟩, some nsPush⟩] :: ((vendorElem ++ textElem "period" (decimal n)) ++ [.close ⟨none, "periodic"⟩]))) = .ok (.periodic none none) ∧
    ∀ m : Nat, m < 2 ^ 32 →
      run (readTrigger c) (annotate [] (.start ⟨none, "periodic"⟩ [⟨⟨none, "xmlns"⟩, some nsPush⟩] :: (textElem "period" (decimal m) ++ [.close ⟨none, "periodic"⟩]))) = .ok (.periodic (some m) none) := by
  refine ⟨?_, fun m hm => ?_⟩
  · exact c274_periodic_partial (c := c) (l := []) (by simp) (.inr ⟨vendorElem, textElem "period" (decimal n), rfl, vendor_stranger _ (by decide) _, bal_tagRaws ⟨none, "period"⟩ [] (bal_flat (flat_written _))⟩)
  · have := c274_periodic_partial (c := c) (l := [.period m]) (by simpa [PeriodicChild.Plain] using hm) (more := []) (.inl rfl)
    simpa [PeriodicChild.raws, lastPeriod, lastAnchor] using this

example : (∀ x ∈ [PeriodicChild.anchor ⟨5, 0⟩, .period 3, .period 4], x.Plain tick) ∧ Ending periodicNames (vendorElem ++ vendorElem) ∧ lastPeriod [PeriodicChild.anchor ⟨5, 0⟩, .period 3, .period 4] = some 4 := by
  refine ⟨?_, .inr ⟨_, _, rfl, vendor_stranger _ (by decide) _, bal_stranger (vendor_stranger [] (by simp) [])⟩, rfl⟩
  intro x hx
  simp only [List.mem_cons, List.not_mem_nil, or_false] at hx
  rcases hx with rfl | rfl | rfl
  · exact ⟨by unfold Told; decide +kernel, rfl⟩
  · show (3 : Nat) < 2 ^ 32; decide
  · show (4 : Nat) < 2 ^ 32; decide

example : (∀ x ∈ [ChangeChild.sync "no".toList, .excluded .move, .dampening 4, .excluded .create], x.Plain) ∧ Ending onChangeNames vendorElem := by
  refine ⟨?_, .inr ⟨vendorElem, [], by simp, vendor_stranger _ (by decide) _, .nil⟩⟩
  intro x hx
  simp only [List.mem_cons, List.not_mem_nil, or_false] at hx
  rcases hx with rfl | rfl | rfl | rfl <;> first | trivial | (show (4 : Nat) < 2 ^ 32; decide)

end Verif.Props
