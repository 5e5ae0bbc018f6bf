import Verif.YangPush.RegisteringGraph
/-! # The order in which schemas are registered -/
namespace Verif.YangPush.Register
open Collector Load

theorem registerRetry_takes {c : Registry σ} {s s' : σ} {subject : String} {e : Entry} {r : Registered} (h : registerRetry c s subject e = (s', .ok r)) : Takes c subject e s r s' := by
  unfold registerRetry at h
  split at h
  · rename_i s₁ r₁ h1
    split at h
    · rename_i hv
      split at h
      · simp at h
      · rename_i id hid
        split at h
        · simp at h
        · rename_i s₂ e' h2
          split at h
          · simp at h
          · rename_i s₃ r₃ h3
            cases h
            exact .asked h1 hv hid h2 h3
    · rename_i hv
      cases h
      exact .versioned h1 hv
  · rename_i s₁ h1
    split at h
    · simp at h
    · rename_i s₂ h2
      split at h
      · simp at h
      · rename_i s₃ r₃ h3
        cases h
        exact .relaxed h1 h2 h3

theorem sortRefs_mem {rs : List Ref} {r : Ref} : r ∈ sortRefs rs ↔ r ∈ rs := List.mem_mergeSort

theorem sortRefs_order {rs : List Ref} (h : (rs.map (·.name)).Nodup) : (sortRefs rs).Pairwise fun a b => a.name < b.name := by
  have h1 : (sortRefs rs).Pairwise fun a b => a.name ≤ b.name := by
    refine (List.pairwise_mergeSort (le := fun a b : Ref => decide (a.name ≤ b.name)) ?_ ?_ rs).imp ?_
    · intro a b c hab hbc
      exact decide_eq_true (String.le_trans (of_decide_eq_true hab) (of_decide_eq_true hbc))
    · intro a b
      rcases String.le_total a.name b.name with h | h <;> simp [h]
    · intro a b hab
      exact of_decide_eq_true hab
  have h2 : ((sortRefs rs).map (·.name)).Nodup := ((List.mergeSort_perm rs _).map _).nodup_iff.mpr h
  have h3 : (sortRefs rs).Pairwise fun a b => a.name ≠ b.name := List.pairwise_map.mp h2
  refine (h1.and h3).imp ?_
  intro a b ⟨hle, hne⟩
  exact String.not_le.mp fun hba => hne (String.le_antisymm hle hba)

theorem findRefs_some {supplied : List (String × Ref)} (hs : ∀ n r, supplied.look n = some r → r.name = n) : ∀ {ns : List String} {rs : List Ref}, findRefs supplied ns = some rs →
    rs.map (·.name) = ns ∧ ∀ r, r ∈ rs ↔ ∃ n ∈ ns, supplied.look n = some r
  | [], rs, h => by
    cases h
    simp
  | n :: ns, rs, h => by
    unfold findRefs at h
    split at h
    · rename_i r rs' h1 h2
      cases h
      obtain ⟨h3, h4⟩ := findRefs_some hs h2
      refine ⟨by simp [h3, hs n r h1], fun x => ?_⟩
      simp only [List.mem_cons, h4]
      constructor
      · rintro (rfl | ⟨m, hm, h⟩)
        · exact ⟨n, .inl rfl, h1⟩
        · exact ⟨m, .inr hm, h⟩
      · rintro ⟨m, rfl | hm, h⟩
        · rw [h1] at h
          exact .inl (Option.some.inj h).symm
        · exact .inr ⟨m, hm, h⟩
    · simp at h

theorem findRefs_isSome {supplied : List (String × Ref)} : ∀ {ns : List String}, (∀ n ∈ ns, ∃ r, supplied.look n = some r) → ∃ rs, findRefs supplied ns = some rs
  | [], _ => ⟨[], rfl⟩
  | n :: ns, h => by
    obtain ⟨r, hr⟩ := h n (by simp)
    obtain ⟨rs, hrs⟩ := findRefs_isSome (fun m hm => h m (List.mem_cons_of_mem _ hm))
    exact ⟨r :: rs, by simp [findRefs, hr, hrs]⟩

theorem mem_sources {g : Graph} {n m : String} : m ∈ g.sources n ↔ (m, n) ∈ g.edges := by
  unfold Graph.sources
  simp only [List.mem_map, List.mem_filter, decide_eq_true_eq]
  constructor
  · rintro ⟨⟨a, b⟩, ⟨h, rfl⟩, rfl⟩
    exact h
  · exact fun h => ⟨(m, n), ⟨h, rfl⟩, rfl⟩

theorem mem_sinks {g : Graph} {n : String} : n ∈ g.sinks ↔ n ∈ g.nodes ∧ ∀ m, (n, m) ∉ g.edges := by
  unfold Graph.sinks
  simp only [List.mem_filter, List.all_eq_true, decide_eq_true_eq]
  constructor
  · exact fun ⟨h, h'⟩ => ⟨h, fun m hm => h' _ hm rfl⟩
  · rintro ⟨h, h'⟩
    refine ⟨h, fun e he hn => ?_⟩
    obtain ⟨a, b⟩ := e
    cases hn
    exact h' b he

theorem sources_once {g : Graph} (h : g.edges.Nodup) (n : String) : (g.sources n).Nodup := by
  unfold Graph.sources
  have h' : (g.edges.filter fun e => e.2 = n).Nodup := h.filter _
  refine List.pairwise_map.mpr ((List.Pairwise.and_mem.mp h').imp ?_)
  rintro ⟨a, b⟩ ⟨a', b'⟩ ⟨hm, hm', hne⟩ he
  simp only [List.mem_filter, decide_eq_true_eq] at hm hm'
  cases he
  exact hne (by rw [hm.2, hm'.2])

/-- what was supplied is what was done -/
structure Supplied (done : List Done) (supplied : List (String × Ref)) : Prop where
  once : (done.map (·.name)).Nodup
  refs : ∀ n r, supplied.look n = some r ↔ ∃ d ∈ done, d.name = n ∧ r = d.ref

theorem Supplied.name {done : List Done} {supplied : List (String × Ref)} (h : Supplied done supplied) (n : String) (r : Ref) (hr : supplied.look n = some r) : r.name = n := by
  obtain ⟨d, _, rfl, rfl⟩ := (h.refs n r).mp hr
  rfl

theorem Supplied.snoc {done : List Done} {supplied : List (String × Ref)} (h : Supplied done supplied) (d : Done) (hn : d.name ∉ done.map (·.name)) :
    Supplied (done ++ [d]) (put supplied d.name (refOf d.name d.answer)) := by
  refine ⟨?_, fun n r => ?_⟩
  · rw [List.map_append, List.nodup_append]
    exact ⟨h.once, by simp, fun x hx y hy e => hn (by rw [show d.name = x from (List.mem_singleton.mp hy).symm.trans e.symm]; exact hx)⟩
  · rw [lookup_put]
    split
    · rename_i he
      subst he
      simp only [Option.some.injEq, List.mem_append, List.mem_singleton]
      constructor
      · rintro rfl
        exact ⟨d, .inr rfl, rfl, rfl⟩
      · rintro ⟨x, hx | rfl, he, rfl⟩
        · exact absurd (List.mem_map.mpr ⟨x, hx, he⟩) hn
        · rfl
    · rename_i he
      rw [h.refs]
      simp only [List.mem_append, List.mem_singleton]
      constructor
      · rintro ⟨x, hx, hn⟩
        exact ⟨x, .inl hx, hn⟩
      · rintro ⟨x, hx | rfl, hn, hr⟩
        · exact ⟨x, hx, hn, hr⟩
        · exact absurd hn he

theorem getFeatures_are (lib : Library) (n : String) : (getFeatures lib n).getD [] = ((lib.findModule n).map (·.features)).getD [] := by
  unfold getFeatures
  cases lib.findModule n with
  | none => rfl
  | some m =>
    simp only [Option.map_some, Option.getD_some]
    split
    · rename_i h
      simp [h]
    · rfl

theorem right_of {lib : Library} {schemas : List (String × String)} {done : List Done} {supplied : List (String × Ref)} (hs : Supplied done supplied) {ns : List String} (hn : ns.Nodup)
    {rs : List Ref} (hr : findRefs supplied ns = some rs) {n text : String} (ht : schemas.look n = some text) {references : Option (List Ref)}
    (hrefs : references.getD [] = sortRefs rs) {targets : String → Prop} (htar : ∀ m, m ∈ ns ↔ targets m) (r : Registered) :
    Right lib schemas targets done ⟨n, ⟨text, references, getFeatures lib n⟩, r⟩ := by
  obtain ⟨h1, h2⟩ := findRefs_some hs.name hr
  refine ⟨ht, getFeatures_are lib n, ?_, ?_, ?_⟩
  · show (references.getD []).Pairwise _
    rw [hrefs]
    exact sortRefs_order (by rw [h1]; exact hn)
  · intro x
    show x ∈ references.getD [] ↔ _
    rw [hrefs, sortRefs_mem, h2]
    constructor
    · rintro ⟨m, hm, hx⟩
      obtain ⟨d, hd, rfl, rfl⟩ := (hs.refs m x).mp hx
      exact ⟨d, hd, (htar _).mp hm, rfl⟩
    · rintro ⟨d, hd, hm, rfl⟩
      exact ⟨d.name, (htar _).mpr hm, (hs.refs _ _).mpr ⟨d, hd, rfl, rfl⟩⟩
  · intro m hm
    have : m ∈ rs.map (·.name) := by rw [h1]; exact (htar m).mpr hm
    obtain ⟨x, hx, hxm⟩ := List.mem_map.mp this
    obtain ⟨m', hm', hx'⟩ := (h2 x).mp hx
    obtain ⟨d, hd, rfl, rfl⟩ := (hs.refs m' x).mp hx'
    exact ⟨d, hd, hxm⟩

/-- all that was done so far is right -/
def AllRight (lib : Library) (schemas : List (String × String)) (g : Graph) (done : List Done) : Prop :=
  ∀ before d after, done = before ++ d :: after → Right lib schemas (fun m => (m, d.name) ∈ g.edges) before d

theorem AllRight.snoc {lib : Library} {schemas : List (String × String)} {g : Graph} {done : List Done} (h : AllRight lib schemas g done) {d : Done}
    (hd : Right lib schemas (fun m => (m, d.name) ∈ g.edges) done d) : AllRight lib schemas g (done ++ [d]) := by
  intro before x after e
  rcases List.eq_nil_or_concat after with rfl | ⟨after', y, rfl⟩
  · obtain ⟨rfl, he⟩ := List.append_inj' e rfl
    cases he
    exact hd
  · rw [List.concat_eq_append, ← List.cons_append, ← List.append_assoc] at e
    obtain ⟨rfl, _⟩ := List.append_inj' e rfl
    exact h before x after' rfl

theorem registerLoop_right {lib : Library} {schemas : List (String × String)} {subjectPrefix : String} {g : Graph} (hg : g.edges.Nodup) {c : Registry σ} {s₀ : σ} :
    ∀ {order : List String} {s s' : σ} {done done' : List Done} {supplied supplied' : List (String × Ref)},
      registerLoop lib schemas subjectPrefix g c s done supplied order = (s', done', .ok supplied') → order.Nodup → (∀ n ∈ order, n ∉ done.map (·.name)) →
      Taken c subjectPrefix s₀ done s → Supplied done supplied → AllRight lib schemas g done →
      done'.map (·.name) = done.map (·.name) ++ order ∧ Taken c subjectPrefix s₀ done' s' ∧ Supplied done' supplied' ∧ AllRight lib schemas g done'
  | [], s, s', done, done', supplied, supplied', h, _, _, ht, hs, ha => by
    cases h
    exact ⟨by simp, ht, hs, ha⟩
  | n :: ns, s, s', done, done', supplied, supplied', h, hn, hnot, ht, hs, ha => by
    unfold registerLoop at h
    split at h
    · simp at h
    · rename_i e he
      split at h
      · simp at h
      · rename_i s₁ r hr
        unfold entryOf at he
        split at he
        · rename_i rs text hrs htext
          cases he
          have hright : Right lib schemas (fun m => (m, n) ∈ g.edges) done ⟨n, ⟨text, some (sortRefs rs), getFeatures lib n⟩, r⟩ :=
            right_of hs (sources_once hg n) hrs htext rfl (fun m => mem_sources) r
          have hn' : n ∉ done.map (·.name) := hnot n (by simp)
          obtain ⟨h1, h2, h3, h4⟩ := registerLoop_right hg h (List.nodup_cons.mp hn).2 (fun m hm => by
            rw [List.map_append]
            simp only [List.mem_append, List.map_cons, List.map_nil, List.mem_singleton]
            rintro (h | rfl)
            · exact hnot m (by simp [hm]) h
            · exact (List.nodup_cons.mp hn).1 hm) (.snoc ht (registerRetry_takes hr)) (hs.snoc ⟨n, _, r⟩ hn') (ha.snoc hright)
          refine ⟨?_, h2, h3, h4⟩
          rw [h1]
          simp
        · simp at he

end Verif.YangPush.Register
