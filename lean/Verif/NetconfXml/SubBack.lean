import Verif.NetconfXml.SubWrites
/-!
# What is read back of a subscription that was written
-/
namespace Verif.Xml
open Verif.Collector (Text trim parseNat)

/-! ## Paths -/

theorem declared_declarations (m : List (Text × String)) : declared (declarations m) = (m.map fun b => (b.2, b.1)).reverse := by
  induction m with
  | nil => rfl
  | cons b m ih =>
    obtain ⟨n, p⟩ := b
    by_cases h : p = ""
    · subst h
      simp only [declarations, List.map_cons, if_pos, List.reverse_cons]
      rw [declared]
      unfold declarations at ih; rw [ih]
    · simp only [declarations, List.map_cons, h, if_false, List.reverse_cons]
      rw [declared]
      unfold declarations at ih; rw [ih]

theorem find_append_mem {p : String} {n : Text} {r : Scope} (hd : Distinct Prod.fst r) (h : (p, n) ∈ r) (sc : Scope) : Scope.find (r ++ sc) p = some n := by
  induction r with
  | nil => cases h
  | cons x r ih =>
    obtain ⟨q, m⟩ := x
    simp only [List.cons_append, Scope.find]
    rcases List.mem_cons.mp h with e | h'
    · injection e with e1 e2; rw [e1, e2, if_pos rfl]
    · have := (List.pairwise_cons.mp hd).1 (p, n) h'
      rw [if_neg this]
      exact ih (List.pairwise_cons.mp hd).2 h'

theorem find_append_not {p : String} {r : Scope} (h : ∀ b ∈ r, b.1 ≠ p) (sc : Scope) : Scope.find (r ++ sc) p = Scope.find sc p := by
  induction r with
  | nil => rfl
  | cons x r ih =>
    obtain ⟨q, m⟩ := x
    simp only [List.cons_append, Scope.find]
    rw [if_neg (h _ List.mem_cons_self)]
    exact ih fun b hb => h b (List.mem_cons_of_mem _ hb)

theorem bindings_append {r : Scope} (hd : Distinct Prod.fst r) (sc : Scope) : Scope.bindings (r ++ sc) = (Scope.bindings sc).filter (fun b => !(r.any fun x => x.1 == b.1)) ++ r.reverse := by
  induction r with
  | nil => simp only [List.nil_append, List.any_nil, List.reverse_nil, List.append_nil]; exact (List.filter_eq_self.mpr (by simp)).symm
  | cons x r ih =>
    obtain ⟨p, n⟩ := x
    obtain ⟨h1, h2⟩ := List.pairwise_cons.mp hd
    simp only [List.cons_append, Scope.bindings]
    rw [ih h2, List.filter_append, List.filter_filter]
    have : r.reverse.filter (fun b => decide (b.1 ≠ p)) = r.reverse := by
      rw [List.filter_eq_self]
      intro b hb
      simp only [decide_eq_true_eq]
      exact fun e => h1 b (List.mem_reverse.mp hb) e.symm
    rw [this, List.reverse_cons, ← List.append_assoc]
    congr 2
    apply List.filter_congr
    intro b _
    rw [List.any_cons, Bool.not_or]
    congr 1
    by_cases e : b.1 = p
    · simp [e]
    · have : ¬ p = b.1 := fun x => e x.symm
      simp [e, this]

/-- a path whose prefixes are those that it declares, each of another namespace -/
structure XPathFilter.Ok (f : XPathFilter) : Prop where
  trimmed : trim f.path = f.path
  prefixes : Distinct Prod.fst f.namespaces
  uris : Distinct Prod.snd f.namespaces
  used : ∀ p : String, p.toList ∈ xpathPrefixes .out f.path ↔ p ∈ f.namespaces.map Prod.fst
  named : ∀ b ∈ f.namespaces, b.1 ≠ "" ∧ b.1 ≠ "xml" ∧ b.2 ≠ []

theorem mapOf_swap {l : List (String × Text)} (h : Distinct Prod.snd l) : mapOf Prod.fst (l.map fun b => (b.2, b.1)) = l.map fun b => (b.2, b.1) := by
  apply mapOf_distinct
  unfold Distinct at h ⊢
  rw [List.pairwise_map]
  exact h

theorem distinct_prefixes {m : List (Text × String)} (h : Distinct Prod.snd m) : distinctPrefixes m = true := by
  induction m with
  | nil => rfl
  | cons b m ih =>
    obtain ⟨h1, h2⟩ := List.pairwise_cons.mp h
    simp only [distinctPrefixes, ih h2, Bool.and_true, List.all_eq_true]
    intro c hc
    simp only [bne_iff_ne, ne_eq]
    exact fun e => h1 c hc e.symm

theorem newBindings_cases (ns : Text) {l : List (String × Text)} (h : Distinct Prod.snd l) (bound : Bool) :
    (newBindings ns l bound = (l.map fun b => (b.2, b.1)) ∧ (bound = true ∨ ∃ b ∈ l, b.2 = ns)) ∨
    (newBindings ns l bound = (l.map fun b => (b.2, b.1)) ++ [(ns, "")] ∧ bound = false ∧ ∀ b ∈ l, b.2 ≠ ns) := by
  unfold newBindings
  rw [mapOf_swap h]
  cases bound with
  | true => exact .inl ⟨by simp, .inl rfl⟩
  | false =>
    by_cases hx : ∃ b ∈ l, b.2 = ns
    · refine .inl ⟨?_, .inr hx⟩
      obtain ⟨b, hb, hn⟩ := hx
      have : ((l.map fun b => (b.2, b.1)).any fun b => decide (b.1 = ns)) = true := List.any_eq_true.mpr ⟨(b.2, b.1), List.mem_map.mpr ⟨b, hb, rfl⟩, by simp [hn]⟩
      simp [this]
    · refine .inr ⟨?_, rfl, fun b hb e => hx ⟨b, hb, e⟩⟩
      have : ((l.map fun b => (b.2, b.1)).any fun b => decide (b.1 = ns)) = false := by
        rw [List.any_eq_false]
        intro b hb
        obtain ⟨d, hd, rfl⟩ := List.mem_map.mp hb
        simp only [decide_eq_true_eq]
        exact fun e => hx ⟨d, hd, e⟩
      simp [this]

/-- prefixes, each of another namespace -/
structure NsOk (l : List (String × Text)) : Prop where
  prefixes : Distinct Prod.fst l
  uris : Distinct Prod.snd l
  named : ∀ b ∈ l, b.1 ≠ "" ∧ b.1 ≠ "xml" ∧ b.2 ≠ []

theorem XPathFilter.Ok.ns {f : XPathFilter} (h : f.Ok) : NsOk f.namespaces := ⟨h.prefixes, h.uris, h.named⟩

theorem newBindings_distinct' {ns : Text} {l : List (String × Text)} (h : NsOk l) (bound : Bool) : Distinct Prod.snd (newBindings ns l bound) := by
  have hl : Distinct Prod.snd (l.map fun b => (b.2, b.1)) := by
    unfold Distinct; rw [List.pairwise_map]; exact h.prefixes
  rcases newBindings_cases ns h.uris bound with ⟨e, _⟩ | ⟨e, _⟩ <;> rw [e]
  · exact hl
  · unfold Distinct at hl ⊢
    rw [List.pairwise_append]
    refine ⟨hl, by simp, fun a ha b hb => ?_⟩
    obtain ⟨d, hd, rfl⟩ := List.mem_map.mp ha
    simp at hb; subst hb
    exact (h.named d hd).1

theorem newBindings_distinct {ns : Text} {f : XPathFilter} (h : f.Ok) (bound : Bool) : Distinct Prod.snd (newBindings ns f.namespaces bound) := newBindings_distinct' h.ns bound

theorem prefixIn_mem {ns : Text} {m : List (Text × String)} : ∀ {p}, prefixIn ns m = some p → (ns, p) ∈ m := by
  induction m with
  | nil => intro p h; cases h
  | cons x m ih =>
    obtain ⟨n, q⟩ := x
    intro p h
    simp only [prefixIn] at h
    split at h
    · rename_i e; injection h with h; subst e; subst h; exact List.mem_cons_self
    · exact List.mem_cons_of_mem _ (ih h)

theorem prefixIn_none {ns : Text} {m : List (Text × String)} (h : prefixIn ns m = none) : ∀ b ∈ m, b.1 ≠ ns := by
  induction m with
  | nil => simp
  | cons x m ih =>
    obtain ⟨n, q⟩ := x
    simp only [prefixIn] at h
    split at h
    · cases h
    · rename_i e
      intro b hb
      rcases List.mem_cons.mp hb with rfl | hb
      · exact e
      · exact ih h b hb

theorem resolve_some {sc : Scope} {p : String} {n : Text} (h : sc.find p = some n) (hn : n ≠ []) (hp : p ≠ "xml") (l : String) : sc.resolve ⟨some p, l⟩ = .bound n := by
  unfold Scope.resolve
  split
  · rename_i e; cases e
  · rename_i e; injection e with e; exact absurd e hp
  · rename_i q hq e
    injection e with e; subst e
    rw [h]
    cases n with
    | nil => exact absurd rfl hn
    | cons => rfl

theorem resolve_none {sc : Scope} {n : Text} (h : sc.find "" = some n) (hn : n ≠ []) (l : String) : sc.resolve ⟨none, l⟩ = .bound n := by
  unfold Scope.resolve
  rw [h]
  cases n with
  | nil => exact absurd rfl hn
  | cons => rfl

/-- the element of a filter is in its namespace -/
theorem filter_resolves' {ns : Text} (hns : ns ≠ []) {l : List (String × Text)} (h : NsOk l) {bound : Bool} {st : Stack} (hb : bound = true → st.scope.find "" = some ns) (key : String) :
    (declared (declarations (newBindings ns l bound)) ++ st.scope).resolve ⟨filterPrefix ns (newBindings ns l bound), key⟩ = .bound ns := by
  rw [declared_declarations]
  have hd := newBindings_distinct' (ns := ns) h bound
  have hd' : Distinct Prod.fst ((newBindings ns l bound).map fun b => (b.2, b.1)).reverse := by
    unfold Distinct at hd ⊢
    rw [List.pairwise_reverse, List.pairwise_map]
    exact hd.imp fun e => fun x => e x.symm
  unfold filterPrefix
  cases hp : prefixIn ns (newBindings ns l bound) with
  | some p =>
    have hm := prefixIn_mem hp
    have hf := find_append_mem hd' (p := p) (n := ns) (List.mem_reverse.mpr (List.mem_map.mpr ⟨_, hm, rfl⟩)) st.scope
    simp only
    by_cases e : p = ""
    · subst e; rw [if_pos rfl]; exact resolve_none hf hns key
    · rw [if_neg e]
      refine resolve_some hf hns (fun e' => ?_) key
      rcases newBindings_cases ns h.uris bound with ⟨e2, _⟩ | ⟨e2, _⟩ <;> rw [e2] at hm
      · obtain ⟨d, hd, he⟩ := List.mem_map.mp hm
        injection he with _ he; rw [e'] at he; exact (h.named d hd).2.1 he
      · rcases List.mem_append.mp hm with hm | hm
        · obtain ⟨d, hd, he⟩ := List.mem_map.mp hm
          injection he with _ he; rw [e'] at he; exact (h.named d hd).2.1 he
        · simp at hm; exact e hm
  | none =>
    have hno := prefixIn_none hp
    rcases newBindings_cases ns h.uris bound with ⟨e2, hx⟩ | ⟨e2, _⟩
    · rcases hx with hx | ⟨b, hb', hn⟩
      · refine resolve_none ?_ hns key
        rw [find_append_not ?_]
        · exact hb hx
        · intro b hb'
          rw [e2] at hb'
          obtain ⟨d, hd, rfl⟩ := List.mem_map.mp (List.mem_reverse.mp hb')
          obtain ⟨d', hd', rfl⟩ := List.mem_map.mp hd
          exact (h.named d' hd').1
      · exact absurd hn (hno (b.2, b.1) (by rw [e2]; exact List.mem_map.mpr ⟨b, hb', rfl⟩))
    · exact absurd rfl (hno (ns, "") (by rw [e2]; simp))

theorem filter_resolves {ns : Text} (hns : ns ≠ []) {f : XPathFilter} (h : f.Ok) {bound : Bool} {st : Stack} (hb : bound = true → st.scope.find "" = some ns) (key : String) :
    (declared (declarations (newBindings ns f.namespaces bound)) ++ st.scope).resolve ⟨filterPrefix ns (newBindings ns f.namespaces bound), key⟩ = .bound ns := filter_resolves' hns h.ns hb key

/-- the bindings of a path that was written are those that it had -/
theorem kept_written {ns : Text} {f : XPathFilter} (h : f.Ok) (bound : Bool) (sc : Scope) : keptBy f.path (declared (declarations (newBindings ns f.namespaces bound)) ++ sc) = f.namespaces := by
  have hd := newBindings_distinct (ns := ns) h bound
  have hd' : Distinct Prod.fst ((newBindings ns f.namespaces bound).map fun b => (b.2, b.1)).reverse := by
    unfold Distinct at hd ⊢
    rw [List.pairwise_reverse, List.pairwise_map]
    exact hd.imp fun e => fun x => e x.symm
  have hself : f.namespaces.filter (fun b => decide (b.1.toList ∈ xpathPrefixes .out f.path)) = f.namespaces := by
    rw [List.filter_eq_self]
    intro b hb
    simp only [decide_eq_true_eq]
    exact (h.used b.1).mpr (List.mem_map.mpr ⟨b, hb, rfl⟩)
  have hempty : ([("", ns)] : List (String × Text)).filter (fun b => decide (b.1.toList ∈ xpathPrefixes .out f.path)) = [] := by
    rw [List.filter_eq_nil_iff]
    intro b hb
    simp at hb; subst hb
    simp only [decide_eq_true_eq]
    intro e
    obtain ⟨d, hd, he⟩ := List.mem_map.mp ((h.used "").mp e)
    exact (h.named d hd).1 he
  have hmap : ∀ l : List (String × Text), (l.map fun b => (b.2, b.1)).map (fun b => (b.2, b.1)) = l := fun l => by
    rw [List.map_map]; conv => rhs; rw [← List.map_id l]
    rfl
  have hin : ∀ b ∈ f.namespaces, b ∈ (newBindings ns f.namespaces bound).map fun b => (b.2, b.1) := by
    intro b hb
    rcases newBindings_cases ns h.uris bound with ⟨e2, _⟩ | ⟨e2, _⟩ <;> rw [e2]
    · rw [hmap]; exact hb
    · rw [List.map_append, hmap]; exact List.mem_append_left _ hb
  unfold keptBy
  rw [declared_declarations, bindings_append hd', List.filter_append, List.reverse_reverse, List.filter_filter]
  have h0 : ((Scope.bindings sc).filter fun b => decide (b.1.toList ∈ xpathPrefixes .out f.path) &&
      !(((newBindings ns f.namespaces bound).map fun b => (b.2, b.1)).reverse.any fun x => x.1 == b.1)) = [] := by
    rw [List.filter_eq_nil_iff]
    intro b _ hb
    simp only [Bool.and_eq_true, decide_eq_true_eq, Bool.not_eq_true'] at hb
    obtain ⟨d, hd, he⟩ := List.mem_map.mp ((h.used b.1).mp hb.1)
    have := List.any_eq_false.mp hb.2 d (List.mem_reverse.mpr (hin d hd))
    simp [he] at this
  rw [h0, List.nil_append]
  rcases newBindings_cases ns h.uris bound with ⟨e2, _⟩ | ⟨e2, _⟩ <;> rw [e2]
  · rw [hmap]; exact hself
  · rw [List.map_append, List.filter_append, hmap, hself]
    show _ ++ List.filter _ [("", ns)] = _
    rw [hempty, List.append_nil]

end Verif.Xml
