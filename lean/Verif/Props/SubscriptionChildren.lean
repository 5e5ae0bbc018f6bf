import Verif.Props.SubscriptionOrder
/-!
# C278 and C279: the order of the children of subscriptions, and targets
-/
namespace Verif.Props
open Verif.Xml
open Verif.Collector (Text trim trimStart isSpace parseNat)

/-! ## C278 -/

/-- the name of an element -/
def elemName : List Raw → String
  | .start q _ :: _ => q.loc
  | .empty q _ :: _ => q.loc
  | _ => ""

/-- elements that are cases of the same choice in RFC 8639 and RFC 8641 are told by the first of them -/
def choiceOf (n : String) : String :=
  if n = "on-change" then "periodic"
  else if n ∈ ["datastore-subtree-filter", "datastore-xpath-filter"] then "selection-filter-ref"
  else if n ∈ ["stream-subtree-filter", "stream-xpath-filter"] then "stream-filter-name"
  else n

/-- elements in another order, where those with the same name, or of the same choice, keep theirs -/
inductive Reordered : List (List Raw) → List (List Raw) → Prop where
  | refl {l : _} : Reordered l l
  | swap (a : List (List Raw)) {x y : List Raw} (b : List (List Raw)) : choiceOf (elemName x) ≠ choiceOf (elemName y) → Reordered (a ++ x :: y :: b) (a ++ y :: x :: b)
  | trans {l m r : _} : Reordered l m → Reordered m r → Reordered l r

/-- a change of what was read -/
inductive Upd where
  | id (n : Nat) | stream (t : Text) | streamFilter (f : Selection) | replay (t : Time) | configured | store (d : YStoreName) | selection (f : Selection) | stop (t : Time) | dscp (n : Nat) | weighting (n : Nat)
  | dependency (n : Nat) | transport (t : SubTransport) | encoding (e : SubEncoding) | purpose (t : Text) | state (s : SubState) | publisher (n : Nat) | nothing | trigger (t : Trigger) | version (v : ModuleVersion) | contentId (t : Text)

def Upd.apply : Upd → SubParts → SubParts
  | .id n, a => { a with id := some n }
  | .stream t, a => { a with stream := some t }
  | .streamFilter f, a => { a with streamFilter := some f }
  | .replay t, a => { a with replay := some t }
  | .configured, a => { a with configured := true }
  | .store d, a => { a with store := some d }
  | .selection f, a => { a with selection := some f }
  | .stop t, a => { a with stop := some t }
  | .dscp n, a => { a with dscp := some n }
  | .weighting n, a => { a with weighting := some n }
  | .dependency n, a => { a with dependency := some n }
  | .transport t, a => { a with transport := some t }
  | .encoding t, a => { a with encoding := some t }
  | .purpose t, a => { a with purpose := some t }
  | .state t, a => { a with state := some t }
  | .publisher n, a => { a with publishers := some (a.publishers.getD [] ++ [n]) }
  | .nothing, a => a
  | .trigger t, a => { a with trigger := some t }
  | .version v, a => { a with versions := some (a.versions.getD [] ++ [v]) }
  | .contentId t, a => { a with contentId := some t }

def Upd.choice : Upd → String
  | .id _ => "id" | .stream _ => "stream" | .streamFilter _ => "stream-filter-name" | .replay _ => "replay-start-time" | .configured => "configured-replay" | .store _ => "datastore"
  | .selection _ => "selection-filter-ref" | .stop _ => "stop-time" | .dscp _ => "dscp" | .weighting _ => "weighting" | .dependency _ => "dependency" | .transport _ => "transport" | .encoding _ => "encoding"
  | .purpose _ => "purpose" | .state _ => "configured-subscription-state" | .publisher _ => "message-publisher-id" | .nothing => "message-publisher-id" | .trigger _ => "periodic" | .version _ => "module-version"
  | .contentId _ => "yang-library-content-id"

theorem upd_commute {u v : Upd} (h : u.choice ≠ v.choice) (a : SubParts) : u.apply (v.apply a) = v.apply (u.apply a) := by
  cases u <;> cases v <;> first | rfl | exact absurd rfl h

/-- a child whose change is one of its choice -/
def Typed (x : List Raw × (SubParts → SubParts)) : Prop := ∃ u : Upd, x.2 = u.apply ∧ choiceOf (elemName x.1) = u.choice

theorem typed_trigger (c : Clock) (t : Trigger) : choiceOf (elemName (triggerRaws c t)) = "periodic" := by cases t <;> rfl

theorem typed_subKids (c : Clock) (s : Subscription) : ∀ x ∈ subKids c s, Typed x := by
  have happ : ∀ (k l : Kids SubParts), (∀ x ∈ k, Typed x) → (∀ x ∈ l, Typed x) → ∀ x ∈ k ++ l, Typed x := by
    intro k l hk hl x hx
    rcases List.mem_append.mp hx with hx | hx
    · exact hk x hx
    · exact hl x hx
  unfold subKids
  refine happ _ _ ?_ (happ _ _ ?_ (happ _ _ ?_ (happ _ _ ?_ (happ _ _ ?_ (happ _ _ ?_ (happ _ _ ?_ (happ _ _ ?_ (happ _ _ ?_ (happ _ _ ?_ (happ _ _ ?_ (happ _ _ ?_ (happ _ _ ?_ ?_))))))))))))
  · intro x hx; simp at hx; subst hx; exact ⟨.id s.id, rfl, rfl⟩
  · cases s.target with
    | datastore d f =>
      intro x hx
      rcases List.mem_cons.mp hx with rfl | hx
      · exact ⟨.store d, rfl, rfl⟩
      · match f, hx with
        | .byReference n, hx => simp [selectionKids] at hx; subst hx; exact ⟨.selection _, rfl, rfl⟩
        | .inline (.xpath f), hx => simp [selectionKids] at hx; subst hx; exact ⟨.selection _, rfl, rfl⟩
        | .inline (.subtree f), hx => simp [selectionKids] at hx; subst hx; exact ⟨.selection _, rfl, rfl⟩
    | stream n f r b =>
      intro x hx
      rcases List.mem_cons.mp hx with rfl | hx
      · exact ⟨.stream n, rfl, rfl⟩
      rcases List.mem_append.mp hx with hx | hx
      · match f, hx with
        | .byReference n, hx => simp [streamKids] at hx; subst hx; exact ⟨.streamFilter _, rfl, rfl⟩
        | .inline (.xpath f), hx => simp [streamKids] at hx; subst hx; exact ⟨.streamFilter _, rfl, rfl⟩
        | .inline (.subtree f), hx => simp [streamKids] at hx; subst hx; exact ⟨.streamFilter _, rfl, rfl⟩
      rcases List.mem_append.mp hx with hx | hx
      · exact all_optKid (P := Typed) (fun t _ => ⟨.replay t.whole, rfl, rfl⟩) x hx
      · cases b with
        | true => simp at hx; subst hx; exact ⟨.configured, rfl, rfl⟩
        | false => simp at hx
  · exact all_optKid (P := Typed) fun t _ => ⟨.stop t.whole, rfl, rfl⟩
  · exact all_optKid (P := Typed) fun t _ => ⟨.dscp t, rfl, rfl⟩
  · exact all_optKid (P := Typed) fun t _ => ⟨.weighting t, rfl, rfl⟩
  · exact all_optKid (P := Typed) fun t _ => ⟨.dependency t, rfl, rfl⟩
  · refine all_optKid (P := Typed) fun t e => ⟨.transport t, rfl, ?_⟩
    have := (Option.filter_eq_some_iff.mp e).2
    cases t <;> first | rfl | simp at this
  · refine all_optKid (P := Typed) fun t e => ⟨.encoding t, rfl, ?_⟩
    have := (Option.filter_eq_some_iff.mp e).2
    cases t <;> first | rfl | simp at this
  · exact all_optKid (P := Typed) fun t _ => ⟨.purpose t, rfl, rfl⟩
  · exact all_optKid (P := Typed) fun t _ => ⟨.state t, rfl, rfl⟩
  · intro x hx
    cases hp : s.publishers.getD [] with
    | nil => rw [hp] at hx; simp [publisherKids] at hx
    | cons n l =>
      rw [hp] at hx
      rcases List.mem_cons.mp hx with rfl | hx
      · exact ⟨.publisher n, rfl, rfl⟩
      · obtain ⟨m, _, rfl⟩ := List.mem_map.mp hx
        exact ⟨.nothing, rfl, rfl⟩
  · exact all_optKid (P := Typed) fun t _ => ⟨.trigger t.kept, rfl, typed_trigger c t⟩
  · intro x hx
    obtain ⟨v, _, rfl⟩ := List.mem_map.mp hx
    exact ⟨.version v, rfl, rfl⟩
  · exact all_optKid (P := Typed) fun t _ => ⟨.contentId t, rfl, rfl⟩

theorem reordered_kids {l l' : List (List Raw)} (h : Reordered l l') : ∀ k : Kids SubParts, k.map Prod.fst = l → (∀ x ∈ k, Typed x) →
    ∃ k' : Kids SubParts, k'.map Prod.fst = l' ∧ (∀ x ∈ k', x ∈ k) ∧ ∀ a, k'.run a = k.run a := by
  induction h with
  | refl => intro k e _; exact ⟨k, e, fun _ h => h, fun _ => rfl⟩
  | trans _ _ ih1 ih2 =>
    intro k e hk
    obtain ⟨k1, e1, m1, r1⟩ := ih1 k e hk
    obtain ⟨k2, e2, m2, r2⟩ := ih2 k1 e1 fun x hx => hk x (m1 x hx)
    exact ⟨k2, e2, fun x hx => m1 x (m2 x hx), fun a => (r2 a).trans (r1 a)⟩
  | @swap a x y b hne =>
    intro k e hk
    obtain ⟨ka, kr, rfl, ea, er⟩ := List.map_eq_append_iff.mp e
    obtain ⟨kx, kr, rfl, ex, er⟩ := List.map_eq_cons_iff.mp er
    obtain ⟨ky, kb, rfl, ey, eb⟩ := List.map_eq_cons_iff.mp er
    refine ⟨ka ++ ky :: kx :: kb, by simp [ea, ex, ey, eb], fun z hz => ?_, fun s => ?_⟩
    · simp only [List.mem_append, List.mem_cons] at hz ⊢
      rcases hz with h | h | h | h <;> simp [h]
    · obtain ⟨u, hu, cu⟩ := hk kx (by simp)
      obtain ⟨v, hv, cv⟩ := hk ky (by simp)
      rw [run_append, run_append]
      show Kids.run kb (kx.2 (ky.2 _)) = Kids.run kb (ky.2 (kx.2 _))
      rw [hu, hv, upd_commute (by rw [← cu, ← cv, ex, ey]; exact hne)]

/-- C278: the children of a subscription can be in any order, with elements that are not known anywhere between them, if only those of the same name, or of the same choice, keep their order. -/
theorem c278_any_order {c : Clock} {s : Subscription} (h : PlainSub c s) (hw : WholeSub s) {bs : List (List (Text × String))} (hb : NoneOf bs) (b : Bool) :
    ∃ kids : List (List Raw), (∀ k ∈ kids, k ≠ [] ∧ Bal k) ∧
      output (writeSubscription c s) ⟨[], bs, b⟩ = some (.start ⟨none, "subscription"⟩ [⟨⟨none, "xmlns"⟩, some nsSub⟩] :: (kids.flatten ++ [.close ⟨none, "subscription"⟩])) ∧
      ∀ m l, Reordered kids m → Mixed subscriptionNames [("", nsSub)] m l →
        run (readSubscription c) (annotate [] (.start ⟨none, "subscription"⟩ [⟨⟨none, "xmlns"⟩, some nsSub⟩] :: (l.flatten ++ [.close ⟨none, "subscription"⟩]))) = .ok s := by
  have hk := subKids_ok c (st := []) rfl (sub_ok h)
  refine ⟨(subKids c s).map Prod.fst, ?_, ?_, ?_⟩
  · intro k hk'
    obtain ⟨x, hx, rfl⟩ := List.mem_map.mp hk'
    refine ⟨?_, (hk x hx).2.1⟩
    obtain ⟨q, as, rest, e | e⟩ := (hk x hx).1 <;> rw [e] <;> simp
  · rw [(written_read h hb b).1]
    show some (_ :: (Kids.raws _ ++ _)) = _
    rw [Kids.raws, List.flatMap_def]; rfl
  · intro m l hm hl
    obtain ⟨k1, e1, m1, r1⟩ := reordered_kids hm _ rfl (typed_subKids c s)
    obtain ⟨k', h1, h2, h3⟩ := mixed_kids (c := c) (st := subStack []) hl k1 e1 fun x hx => hk x (m1 x hx)
    have := reads_subscription c (st := []) (px := none) (as := [defaultNs nsSub]) (by rfl) h2 (s := s) (by rw [h3, r1, run_subKids c s (sub_ok h).target, whole_kept hw])
    have := run_of_reads this rfl
    rw [Kids.raws, List.flatMap_def, h1] at this
    exact this

example : Reordered [textElem "id" "1".toList, textElem "stream" "a".toList, textElem "dscp" "2".toList] [textElem "dscp" "2".toList, textElem "id" "1".toList, textElem "stream" "a".toList] :=
  .trans (.swap [textElem "id" "1".toList] [] (by decide)) (.swap [] [textElem "stream" "a".toList] (by decide))

/-! ## C279 -/

/-- a document of which pieces are missing is refused -/
theorem refuses_subscription (c : Clock) {k : Kids SubParts} (hk : ∀ x ∈ k, SubKid c (subStack []) x) (hs : (k.run {}).done = none) :
    ∃ e, run (readSubscription c) (annotate [] (.start ⟨none, "subscription"⟩ [⟨⟨none, "xmlns"⟩, some nsSub⟩] :: (k.raws ++ [.close ⟨none, "subscription"⟩]))) = .err e := by
  refine ⟨.wrongToken "<id>, <stream> or <datastore>", ?_⟩
  unfold run
  rw [if_neg (by simp [annotate_start, headBad])]
  have hnext : Next (annotate (subStack []) (k.raws ++ .close ⟨none, "subscription"⟩ :: [])) := next_kids (fun x hx => (hk x hx).1) _ (next_close _ _ _ _)
  have : ∃ s, readSubscription c ⟨annotate [] (.start ⟨none, "subscription"⟩ [⟨⟨none, "xmlns"⟩, some nsSub⟩] :: (k.raws ++ [.close ⟨none, "subscription"⟩])), []⟩ = (.err (.wrongToken "<id>, <stream> or <datastore>"), s) := by
    refine ⟨⟨annotate [] [], []⟩, ?_⟩
    refine (bind_ok (skipText_next (next_start _ _ _ _))).trans ?_
    refine (bind_ok (open_start (ns := nsSub) (by rfl) (next_fine hnext))).trans ?_
    refine (bind_ok (reads_subLoopF c [] _ k _ {} (Nat.lt_succ_of_le (kids_length (fun x hx => (hk x hx).1) (fun x hx => (hk x hx).2.1) _ _)) fun x hx => ⟨(hk x hx).1, (hk x hx).2.2⟩)).trans ?_
    refine (bind_ok (close_here (by rfl))).trans ?_
    rw [hs]; rfl
  obtain ⟨s, hs⟩ := this
  rw [hs]

/-- a document of a subscription -/
def subDoc (children : List (List Raw)) : List Raw := .start ⟨none, "subscription"⟩ [⟨⟨none, "xmlns"⟩, some nsSub⟩] :: (children.flatten ++ [.close ⟨none, "subscription"⟩])

/-- the name of a filter of a datastore -/
def refElem (n : Text) : List Raw := .start ⟨none, "selection-filter-ref"⟩ [⟨⟨none, "xmlns"⟩, some nsPush⟩] :: (written n ++ [.close ⟨none, "selection-filter-ref"⟩])

/-- C279, in part: a document without a target, without a number, or with a filter of a datastore but no datastore is refused. -/
theorem c279_refused_partial (c : Clock) {i : Nat} (hi : i < 2 ^ 32) {n : Text} (hn : Tight n) (f : Text) :
    (∃ e, run (readSubscription c) (annotate [] (subDoc [textElem "id" (decimal i)])) = .err e) ∧
    (∃ e, run (readSubscription c) (annotate [] (subDoc [textElem "stream" n])) = .err e) ∧
    (∃ e, run (readSubscription c) (annotate [] (subDoc [textElem "id" (decimal i), refElem f])) = .err e) ∧
    (∃ e, run (readSubscription c) (annotate [] (subDoc [textElem "id" (decimal i), textElem "stream" n, refElem f])) = .err e) ∧
    run (readSubscription c) (annotate [] (subDoc [textElem "id" (decimal i), textElem "stream" n])) = .ok ⟨i, .stream n (.byReference []) none false, none, none, none, none, none, none, none, none, none, none, none, none⟩ := by
  have hin : InNs (subStack []) nsSub := rfl
  have ki := (kid_id c hin hi).sub
  have kn := (kid_stream c hin (tight_trim hn)).sub
  have kf := (kid_ref c (subStack []) f).sub
  refine ⟨?_, ?_, ?_, ?_, ?_⟩
  · exact refuses_subscription c (k := [(leafRaws "id" (decimal i), fun a => { a with id := some i })]) (by intro x hx; simp at hx; subst hx; exact ki) rfl
  · exact refuses_subscription c (k := [(leafRaws "stream" n, fun a => { a with stream := some n })]) (by intro x hx; simp at hx; subst hx; exact kn) rfl
  · have := refuses_subscription c (k := [(leafRaws "id" (decimal i), fun a => { a with id := some i }), (tagRaws ⟨none, "selection-filter-ref"⟩ [defaultNs nsPush] (written f), fun a => { a with selection := some (.byReference f) })])
      (by intro x hx; simp at hx; rcases hx with rfl | rfl; exact ki; exact kf) rfl
    exact this
  · have := refuses_subscription c (k := [(leafRaws "id" (decimal i), fun a => { a with id := some i }), (leafRaws "stream" n, fun a => { a with stream := some n }), (tagRaws ⟨none, "selection-filter-ref"⟩ [defaultNs nsPush] (written f), fun a => { a with selection := some (.byReference f) })])
      (by intro x hx; simp at hx; rcases hx with rfl | rfl | rfl; exact ki; exact kn; exact kf) rfl
    exact this
  · have := reads_subscription c (st := []) (px := none) (as := [defaultNs nsSub]) (by rfl) (k := [(leafRaws "id" (decimal i), fun a => { a with id := some i }), (leafRaws "stream" n, fun a => { a with stream := some n })])
      (by intro x hx; simp at hx; rcases hx with rfl | rfl; exact ki; exact kn) (s := ⟨i, .stream n (.byReference []) none false, none, none, none, none, none, none, none, none, none, none, none, none⟩) rfl
    exact run_of_reads this rfl

/-- C279 is false: to any subscription of a datastore a stream can be added, and it is read as if there was none. -/
theorem c279_both_disproved {c : Clock} {s : Subscription} (h : PlainSub c s) (hw : WholeSub s) {d : YStoreName} {f : Selection} (ht : s.target = .datastore d f) {n : Text} (hn : Tight n) {bs : List (List (Text × String))} (hb : NoneOf bs) (b : Bool) :
    ∃ kids : List (List Raw), output (writeSubscription c s) ⟨[], bs, b⟩ = some (subDoc kids) ∧ run (readSubscription c) (annotate [] (subDoc (kids ++ [textElem "stream" n]))) = .ok s := by
  have hk := subKids_ok c (st := []) rfl (sub_ok h)
  refine ⟨(subKids c s).map Prod.fst, ?_, ?_⟩
  · rw [(written_read h hb b).1]
    show some (_ :: (Kids.raws _ ++ _)) = _
    rw [Kids.raws, List.flatMap_def]; rfl
  · have hrun := run_subKids c s (sub_ok h).target
    rw [whole_kept hw] at hrun
    have hdone : ((subKids c s ++ [(leafRaws "stream" n, fun a : SubParts => { a with stream := some n })]).run {}).done = some s := by
      rw [run_append]
      generalize (subKids c s).run {} = a at hrun ⊢
      show ({ a with stream := some n } : SubParts).done = some s
      unfold SubParts.done at hrun ⊢
      cases hid : a.id with
      | none => rw [hid] at hrun; cases hrun
      | some i =>
        rw [hid] at hrun
        cases htg : a.target with
        | none => rw [htg] at hrun; cases hrun
        | some t =>
          rw [htg] at hrun
          have htt : t = .datastore d f := by rw [← ht]; simp only [Option.some.injEq] at hrun; rw [← hrun]
          have hst : ∃ x, a.store = some x := by
            unfold SubParts.target at htg
            cases hs : a.store with
            | some x => exact ⟨x, rfl⟩
            | none =>
              rw [hs] at htg
              simp only at htg
              split at htg
              · cases htg
              · split at htg
                · rw [htt] at htg; cases htg
                · cases htg
          obtain ⟨x, hx⟩ := hst
          have : ({ a with stream := some n } : SubParts).target = a.target := by unfold SubParts.target; simp only [hx]
          rw [hid] at this
          rw [this, htg]
          exact hrun
    have := reads_subscription c (st := []) (px := none) (as := [defaultNs nsSub]) (by rfl) (k := subKids c s ++ [(leafRaws "stream" n, fun a : SubParts => { a with stream := some n })]) (by
      intro x hx
      rcases List.mem_append.mp hx with hx | hx
      · exact hk x hx
      · simp at hx; subst hx; exact (kid_stream c (st := subStack []) rfl (tight_trim hn)).sub) hdone
    have := run_of_reads this rfl
    rw [Kids.raws, List.flatMap_def, List.map_append] at this
    exact this

example : someSub.target = .datastore .operational (.inline (.xpath twoModules)) ∧ Tight "NETCONF".toList := ⟨rfl, tight_of (by decide +kernel) (by decide +kernel)⟩

end Verif.Props
