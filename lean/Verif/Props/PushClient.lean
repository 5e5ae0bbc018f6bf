import Verif.NetconfClient.Push
import Verif.Props.NetconfClient
import Verif.Props.FilterSets
/-!
# Getting subscriptions from a server (C283)
-/
namespace Verif.Props
open Verif.Xml
open Verif.NcClient (Client Session Incoming ClientErr pushSubscription pushFilters filterNamed replaced readFirst parsed subscriptionSubtree ask fail)
open Verif.Collector (Text)

/-- elements one after the other -/
def elementsOf (l : List (QName × List Attr × List Raw)) : List Raw := l.flatMap fun e => .start e.1 e.2.1 :: (e.2.2 ++ [.close e.1])

/-- data with a subscription and other elements behind it -/
def subscriptionsData (first : List Raw) (others : List (QName × List Attr × List Raw)) : List Raw :=
  .start ⟨none, "subscriptions"⟩ [⟨⟨none, "xmlns"⟩, some nsSub⟩] :: (first ++ (elementsOf others ++ [.close ⟨none, "subscriptions"⟩]))

/-- data with filters -/
def filtersData (l : List FilterItem) : List Raw := .start ⟨none, "filters"⟩ [⟨⟨none, "xmlns"⟩, some nsSub⟩] :: (l.flatMap FilterItem.raws ++ [.close ⟨none, "filters"⟩])

/-- the request for a subscription, and that for filters -/
def askFor {D : Type} (next id : Nat) : Message D YLib := .rpc ⟨Xml.decimal next, .wellKnown (.get (.subtree [.start ⟨none, "subscriptions"⟩ [⟨⟨none, "xmlns"⟩, some nsSub⟩], .start ⟨none, "subscription"⟩ [], .start ⟨none, "id"⟩ [],
  .text (Xml.decimal id), .close ⟨none, "id"⟩, .close ⟨none, "subscription"⟩, .close ⟨none, "subscriptions"⟩]))⟩
def askFilters {D : Type} (next : Nat) : Message D YLib := .rpc ⟨Xml.decimal next, .wellKnown (.get (.subtree [.empty ⟨none, "filters"⟩ [⟨⟨none, "xmlns"⟩, some nsSub⟩]]))⟩

/-- what is written of a subscription -/
def WrittenAs (k : Clock) (s : Subscription) (rs : List Raw) : Prop := ∃ bs b, NoneOf bs ∧ output (writeSubscription k s) ⟨[], bs, b⟩ = some rs

theorem elements_bal {l : List (QName × List Attr × List Raw)} (h : ∀ e ∈ l, Bal e.2.2) : Bal (elementsOf l) := by
  induction l with
  | nil => exact .nil
  | cons e l ih =>
    show Bal ((.start e.1 e.2.1 :: (e.2.2 ++ [.close e.1])) ++ elementsOf l)
    rw [List.cons_append, List.append_assoc]
    exact .tag _ _ (h e List.mem_cons_self) (ih fun x hx => h x (List.mem_cons_of_mem _ hx))

theorem elements_next (l : List (QName × List Attr × List Raw)) {st : Stack} {R : List Raw} (hR : Next (annotate st R)) : Next (annotate st (elementsOf l ++ R)) := by
  cases l with
  | nil => exact hR
  | cons e l => exact next_start _ _ _ _

theorem first_read {k : Clock} {s : Subscription} (h : PlainSub k s) (hw : WholeSub s) {rs : List Raw} (hs : WrittenAs k s rs) {others : List (QName × List Attr × List Raw)} (ho : ∀ e ∈ others, Bal e.2.2) :
    headBad (annotate [] (subscriptionsData rs others)) = false ∧
    ∃ s', readFirst k ⟨annotate [] (subscriptionsData rs others), []⟩ = (.ok s, s') ∧ close s' = (.ok (), ⟨[], []⟩) := by
  obtain ⟨bs, b, hb, e⟩ := hs
  rw [(written_read h hb b).1] at e
  injection e with e
  subst e
  refine ⟨rfl, ?_⟩
  let st : Stack := [(⟨none, "subscriptions"⟩, declared [⟨⟨none, "xmlns"⟩, some nsSub⟩] ++ Stack.scope [])]
  have hn : Next (annotate st (elementsOf others ++ [.close ⟨none, "subscriptions"⟩])) := elements_next others (next_close _ _ _ _)
  refine ⟨⟨annotate st (elementsOf others ++ [.close ⟨none, "subscriptions"⟩]), [true]⟩, ?_, ?_⟩
  · refine (bind_ok (isTag_run (b := true) (by rfl))).trans ?_
    show (openTag nsSub "subscriptions" >>= fun _ => readSubscription k) _ = _
    refine (bind_ok (open_start (px := none) (as := [⟨⟨none, "xmlns"⟩, some nsSub⟩]) (by rfl) (next_fine ?_))).trans ?_
    · exact next_tagRaws _ _ _ _ _
    · have := reads_subRaws k (st := st) rfl (sub_ok h) _ [true] hn
      rw [whole_kept hw] at this
      exact this
  · exact close_bal (elements_bal ho) rfl

theorem subscription_data {D : Type} (k : Clock) (id : Nat) {c : List Raw} {s : Subscription} {s' : St} (h1 : headBad (annotate [] c) = false) (h2 : readFirst k ⟨annotate [] c, []⟩ = (.ok s, s')) (h3 : close s' = (.ok (), ⟨[], []⟩))
    (rest : List (Incoming D)) (j next : Nat) (sent : List (Message D YLib)) :
    pushSubscription k id ⟨dataReply next c :: rest, j + 1, next, sent⟩ = replaced s ⟨rest, j, next + 1, sent ++ [askFor next id]⟩ := by
  unfold pushSubscription dataReply
  rw [cbind_ok (ask_got _ _ rest j next sent)]
  simp only [NcClient.responses]
  rw [cbind_ok (a := (s, s')) (s' := ⟨rest, j, next + 1, sent ++ [askFor next id]⟩) (by unfold parsed; rw [h1, h2]; rfl)]
  simp only
  cases hr : replaced s (⟨rest, j, next + 1, sent ++ [askFor next id]⟩ : Session D) with
  | mk a t =>
    cases a with
    | ok a => rw [cbind_ok hr, h3]; rfl
    | error e => rw [cbind_err hr]

theorem replaced_same {D : Type} {s : Subscription} (hr : ∀ d n, s.target ≠ .datastore d (.byReference n)) (x : Session D) : replaced s x = (.ok s, x) := by
  unfold replaced
  cases e : s.target with
  | stream => rfl
  | datastore d f =>
    cases f with
    | byReference n => exact absurd e (hr d n)
    | inline => rfl

/-- C283, in part: if the server answers with a subscription that does not refer to a filter of a datastore, and whatever elements behind it, then the subscription is got, with one request, which asks for the number. -/
theorem c283_got_partial {D : Type} {k : Clock} {s : Subscription} (h : PlainSub k s) (hw : WholeSub s) {rs : List Raw} (hs : WrittenAs k s rs) (hr : ∀ d n, s.target ≠ .datastore d (.byReference n))
    {others : List (QName × List Attr × List Raw)} (ho : ∀ e ∈ others, Bal e.2.2) (rest : List (Incoming D)) (j next : Nat) (sent : List (Message D YLib)) :
    pushSubscription k s.id ⟨dataReply next (subscriptionsData rs others) :: rest, j + 1, next, sent⟩ = (.ok s, ⟨rest, j, next + 1, sent ++ [askFor next s.id]⟩) := by
  obtain ⟨h1, s', h2, h3⟩ := first_read h hw hs ho
  rw [subscription_data k s.id h1 h2 h3]
  rw [replaced_same hr]

/-- C283 is false: whatever number is asked for, the first subscription of the answer is got, also if it has another number and the one that was asked for comes behind it. -/
theorem c283_number_disproved {D : Type} {k : Clock} {s t : Subscription} (h : PlainSub k s) (hw : WholeSub s) {rs : List Raw} (hs : WrittenAs k s rs) (hr : ∀ d n, s.target ≠ .datastore d (.byReference n))
    {q : QName} {as : List Attr} {c : List Raw} (_ : WrittenAs k t (.start q as :: (c ++ [.close q]))) (hc : Bal c) (hne : s.id ≠ t.id) (rest : List (Incoming D)) (j next : Nat) (sent : List (Message D YLib)) :
    ∃ g, (pushSubscription k t.id ⟨dataReply next (subscriptionsData rs [(q, as, c)]) :: rest, j + 1, next, sent⟩).1 = .ok g ∧ g.id ≠ t.id := by
  obtain ⟨h1, s', h2, h3⟩ := first_read h hw hs (others := [(q, as, c)]) (by simpa using hc)
  refine ⟨s, ?_, hne⟩
  rw [subscription_data k t.id h1 h2 h3]
  rw [replaced_same hr]

theorem filters_got {D : Type} {l : List FilterItem} (h : ∀ i ∈ l, i.Plain) (rest : List (Incoming D)) (j next : Nat) (sent : List (Message D YLib)) :
    ∃ fs, ByName (selectionsOf l) fs.selections ∧ pushFilters ⟨dataReply next (filtersData l) :: rest, j + 1, next, sent⟩ = (.ok fs, ⟨rest, j, next + 1, sent ++ [askFilters next]⟩) := by
  obtain ⟨fs, h1, _, h2⟩ := c282_read_partial h
  refine ⟨fs, h2, ?_⟩
  unfold pushFilters dataReply
  rw [cbind_ok (ask_got _ _ rest j next sent)]
  simp only [NcClient.responses]
  have hd : tagRaws ⟨none, "filters"⟩ [⟨⟨none, "xmlns"⟩, some nsSub⟩] (l.flatMap FilterItem.raws) = filtersData l := rfl
  rw [hd] at h1
  unfold run at h1
  by_cases hb : headBad (annotate [] (filtersData l)) = true
  · rw [if_pos hb] at h1; cases h1
  · rw [if_neg hb] at h1
    cases hp : readFilters ⟨annotate [] (filtersData l), []⟩ with
    | mk a t =>
      rw [hp] at h1
      simp only at h1
      subst h1
      rw [cbind_ok (a := (fs, t)) (s' := ⟨rest, j, next + 1, sent ++ [askFilters next]⟩) (by unfold parsed; rw [if_neg hb, hp]; rfl)]
      rfl

theorem find_named {l : List NamedFilter} {fs : FilterSet} (h : ByName l fs.selections) (name : Text) :
    (∀ a f b, l = a ++ f :: b → f.name = name → (∀ g ∈ b, g.name ≠ name) → filterNamed fs name = some f) ∧ ((∀ f ∈ l, f.name ≠ name) → filterNamed fs name = none) := by
  obtain ⟨h1, h2, h3⟩ := h
  refine ⟨fun a f b e hf hb => ?_, fun hn => ?_⟩
  · obtain ⟨n, hm⟩ := (h1 f).mpr ⟨a, b, e, by rw [hf]; exact hb⟩
    have hn : n = name := (h2 _ hm).trans hf
    subst hn
    unfold filterNamed
    generalize fs.selections = m at hm h3
    clear h1 h2 e
    induction m with
    | nil => cases hm
    | cons x m ih =>
      obtain ⟨hx, hp⟩ := List.pairwise_cons.mp h3
      rcases List.mem_cons.mp hm with rfl | hm
      · simp
      · have : x.1 ≠ n := hx _ hm
        simpa [this] using ih hm hp
  · unfold filterNamed
    rw [List.find?_eq_none.mpr]
    · rfl
    · intro b hb
      obtain ⟨a, c, e, _⟩ := (h1 b.2).mp ⟨b.1, hb⟩
      have := hn b.2 (by rw [e]; simp)
      simp only [decide_eq_true_eq]
      rw [h2 b hb]
      exact this

/-- C283, in part: of a subscription that refers to a filter of a datastore by its name, the last filter of the server with that name takes the place of the reference, and nothing else of the subscription changes; if
there is none of the name, then the reference stays. Two requests are sent. -/
theorem c283_reference_partial {D : Type} {k : Clock} {s : Subscription} (h : PlainSub k s) (hw : WholeSub s) {rs : List Raw} (hs : WrittenAs k s rs) {d : YStoreName} {n : Text} (ht : s.target = .datastore d (.byReference n))
    {others : List (QName × List Attr × List Raw)} (ho : ∀ e ∈ others, Bal e.2.2) {l : List FilterItem} (hl : ∀ i ∈ l, i.Plain) (rest : List (Incoming D)) (j next : Nat) (sent : List (Message D YLib)) :
    ∃ g, pushSubscription k s.id ⟨dataReply next (subscriptionsData rs others) :: dataReply (next + 1) (filtersData l) :: rest, j + 2, next, sent⟩ = (.ok g, ⟨rest, j, next + 2, sent ++ [askFor next s.id] ++ [askFilters (next + 1)]⟩) ∧
      (∀ a f b, selectionsOf l = a ++ f :: b → f.name = n → (∀ x ∈ b, x.name ≠ n) → g = { s with target := .datastore d (.inline f.spec) }) ∧
      ((∀ f ∈ selectionsOf l, f.name ≠ n) → g = s) := by
  obtain ⟨h1, s', h2, h3⟩ := first_read h hw hs ho
  obtain ⟨fs, hf, hg⟩ := filters_got hl rest j (next + 1) (sent ++ [askFor next s.id])
  obtain ⟨f1, f2⟩ := find_named hf n
  rw [subscription_data k s.id h1 h2 h3]
  unfold replaced
  rw [ht]
  simp only
  rw [cbind_ok hg]
  cases hx : filterNamed fs n with
  | none =>
    refine ⟨s, rfl, fun a f b e1 e2 e3 => ?_, fun _ => rfl⟩
    rw [f1 a f b e1 e2 e3] at hx; cases hx
  | some f =>
    refine ⟨{ s with target := .datastore d (.inline f.spec) }, rfl, fun a f' b e1 e2 e3 => ?_, fun e => ?_⟩
    · rw [f1 a f' b e1 e2 e3] at hx; injection hx with hx; rw [hx]
    · rw [f2 e] at hx; cases hx

/-- C283 is false: a subscription that refers to a filter of a datastore is not got from a server that gives its filters as an empty tag, that is one that has none. -/
theorem c283_no_filters_disproved {D : Type} {k : Clock} {s : Subscription} (h : PlainSub k s) (hw : WholeSub s) {rs : List Raw} (hs : WrittenAs k s rs) {d : YStoreName} {n : Text} (ht : s.target = .datastore d (.byReference n))
    {others : List (QName × List Attr × List Raw)} (ho : ∀ e ∈ others, Bal e.2.2) (rest : List (Incoming D)) (j next : Nat) (sent : List (Message D YLib)) :
    (pushSubscription k s.id ⟨dataReply next (subscriptionsData rs others) :: dataReply (next + 1) [.empty ⟨none, "filters"⟩ [⟨⟨none, "xmlns"⟩, some nsSub⟩]] :: rest, j + 2, next, sent⟩).1 = .error .parsing := by
  obtain ⟨h1, s', h2, h3⟩ := first_read h hw hs ho
  rw [subscription_data k s.id h1 h2 h3]
  unfold replaced
  rw [ht]
  simp only
  have : pushFilters (⟨dataReply (next + 1) [.empty ⟨none, "filters"⟩ [⟨⟨none, "xmlns"⟩, some nsSub⟩]] :: rest, j + 1, next + 1, sent ++ [askFor next s.id]⟩ : Session D) = (.error .parsing, ⟨rest, j, next + 2, sent ++ [askFor next s.id] ++ [askFilters (next + 1)]⟩) := by
    unfold pushFilters dataReply
    rw [cbind_ok (ask_got _ _ rest j (next + 1) _)]
    simp only [NcClient.responses]
    have he := c282_empty_disproved.1
    unfold run at he
    rw [if_neg (by decide)] at he
    cases hp : readFilters ⟨annotate [] [.empty ⟨none, "filters"⟩ [⟨⟨none, "xmlns"⟩, some nsSub⟩]], []⟩ with
    | mk a t =>
      rw [hp] at he
      simp only at he
      subst he
      exact cbind_err (by unfold parsed; rw [if_neg (by decide), hp]; rfl)
  rw [cbind_err this]

theorem first_refused {k : Clock} {c : List Raw} (h : isTagL nsSub "subscriptions" (annotate [] c) = false) : ∃ e, (readFirst k ⟨annotate [] c, []⟩).1 = .err e := by
  unfold readFirst
  refine ⟨.wrongToken "subscriptions", ?_⟩
  rw [show (isTag nsSub "subscriptions" >>= _ : P Subscription) ⟨annotate [] c, []⟩ = _ from bind_ok (isTag_run h)]
  rfl

theorem subscription_refused {D : Type} (k : Clock) (id : Nat) {c : List Raw} (h : ∃ e, (readFirst k ⟨annotate [] c, []⟩).1 = .err e) (rest : List (Incoming D)) (j next : Nat) (sent : List (Message D YLib)) :
    (pushSubscription k id ⟨dataReply next c :: rest, j + 1, next, sent⟩).1 = .error .parsing := by
  unfold pushSubscription dataReply
  rw [cbind_ok (ask_got _ _ rest j next sent)]
  simp only [NcClient.responses]
  obtain ⟨e, he⟩ := h
  have : parsed (readFirst k) c (⟨rest, j, next + 1, sent ++ [askFor next id]⟩ : Session D) = (.error .parsing, ⟨rest, j, next + 1, sent ++ [askFor next id]⟩) := by
    unfold parsed
    split
    · rfl
    · cases hp : readFirst k ⟨annotate [] c, []⟩ with
      | mk a t => rw [hp] at he; simp only at he; subst he; rfl
  exact congrArg Prod.fst (cbind_err this)

/-- C283 is false: if anything but subscriptions comes first in the data of the answer, as the filters that the subscription refers to, then the subscription is not got. -/
theorem c283_before_disproved {D : Type} (k : Clock) (id : Nat) {q : QName} (hq : q.loc ≠ "subscriptions") (as : List Attr) (c : List Raw) (rest : List (Incoming D)) (j next : Nat) (sent : List (Message D YLib)) :
    (pushSubscription k id ⟨dataReply next (.start q as :: c) :: rest, j + 1, next, sent⟩).1 = .error .parsing := by
  refine subscription_refused k id (first_refused ?_) rest j next sent
  rw [annotate_start]
  simp [isTagL, hq]

/-- C283: if the answer has no subscription, with or without a tag for them, then none is got. -/
theorem c283_absent {D : Type} (k : Clock) (id : Nat) {c : List Raw} (hc : c = [] ∨ c = [.empty ⟨none, "subscriptions"⟩ [⟨⟨none, "xmlns"⟩, some nsSub⟩]] ∨
      c = [.start ⟨none, "subscriptions"⟩ [⟨⟨none, "xmlns"⟩, some nsSub⟩], .close ⟨none, "subscriptions"⟩]) (rest : List (Incoming D)) (j next : Nat) (sent : List (Message D YLib)) :
    (pushSubscription k id ⟨dataReply next c :: rest, j + 1, next, sent⟩).1 = .error .parsing := by
  refine subscription_refused k id ?_ rest j next sent
  rcases hc with rfl | rfl | rfl
  · exact ⟨_, rfl⟩
  · exact ⟨_, rfl⟩
  · exact ⟨_, rfl⟩

/-- a subscription that refers to a filter of a datastore -/
def refSub : Subscription := { someSub with target := .datastore .operational (.byReference "a".toList) }

theorem someSub_whole : WholeSub someSub := by
  refine ⟨?_, ?_, ?_, by decide, by decide, ?_, by decide, fun d b e => (by cases e)⟩
  · intro t e; cases e; rfl
  · intro n f r b e; cases e
  · intro p a e; cases e
  · intro l e; cases e; rfl

theorem refSub_plain : PlainSub tick refSub := by
  have h := someSub_plain
  exact ⟨h.id, ⟨trivial, trivial⟩, h.stop, h.dscp, h.weighting, h.dependency, h.purpose, h.publishers, h.periodic, h.onChange, h.versions, h.contentId⟩

theorem refSub_whole : WholeSub refSub := by
  have h := someSub_whole
  exact ⟨h.stop, fun n f r b e => (by cases e), h.anchor, h.transport, h.encoding, h.publishers, h.versions, h.excluded⟩

theorem written_as {k : Clock} {s : Subscription} (h : PlainSub k s) : WrittenAs k s (subRaws k s) :=
  ⟨[], false, fun l hl => (by cases hl), (written_read h (fun l hl => by cases hl) false).1⟩

example : ∃ rs, WrittenAs tick someSub rs ∧ (∀ d n, someSub.target ≠ .datastore d (.byReference n)) ∧ PlainSub tick someSub ∧ WholeSub someSub :=
  ⟨_, written_as someSub_plain, fun d n e => (by cases e), someSub_plain, someSub_whole⟩

example : ∃ rs q as c, WrittenAs tick someSub rs ∧ WrittenAs tick { refSub with id := 8 } (.start q as :: (c ++ [.close q])) ∧ Bal c ∧ someSub.id ≠ ({ refSub with id := 8 } : Subscription).id := by
  have h : PlainSub tick { refSub with id := 8 } := by
    have h := refSub_plain
    exact ⟨by decide, h.target, h.stop, h.dscp, h.weighting, h.dependency, h.purpose, h.publishers, h.periodic, h.onChange, h.versions, h.contentId⟩
  exact ⟨_, _, _, _, written_as someSub_plain, written_as h, bal_kids fun x hx => (subKids_ok tick (st := []) rfl (sub_ok h) x hx).2.1, by decide⟩

example : ∃ rs, WrittenAs tick refSub rs ∧ PlainSub tick refSub ∧ WholeSub refSub ∧ refSub.target = .datastore .operational (.byReference "a".toList) ∧
    (∀ i ∈ [FilterItem.selection someFilter, .selection otherFilter], i.Plain) ∧ selectionsOf [FilterItem.selection someFilter, .selection otherFilter] = [someFilter] ++ otherFilter :: [] ∧ otherFilter.name = "a".toList := by
  refine ⟨_, written_as refSub_plain, refSub_plain, refSub_whole, rfl, ?_, rfl, rfl⟩
  intro i hi
  simp only [List.mem_cons, List.not_mem_nil, or_false] at hi
  rcases hi with rfl | rfl
  · exact someFilter_plain
  · exact otherFilter_plain

end Verif.Props
