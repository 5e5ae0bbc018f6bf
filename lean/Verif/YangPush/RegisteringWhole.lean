import Verif.YangPush.RegisteringWell
/-! # Registering as a whole -/
namespace Verif.YangPush.Register
open Collector Load

theorem registerRoot_ok {lib : Library} {schemas : List (String × String)} {subjectPrefix : String} {g : Graph} (hg : g.edges.Nodup) (hnodes : g.nodes.Nodup) {c : Registry σ} {s₀ s s' : σ}
    {done done' : List Done} {supplied : List (String × Ref)} {root : String} {answer : Registered} (hs : Supplied done supplied) (ht : Taken c subjectPrefix s₀ done s)
    (h : registerRoot lib schemas subjectPrefix g c s done supplied root = (s', done', .ok answer)) :
    ∃ last, done' = done ++ [last] ∧ last.name = root ∧ last.answer = answer ∧ Taken c subjectPrefix s₀ done' s' ∧
      Right lib schemas (fun m => (m, root) ∈ g.edges ∨ m ∈ g.nodes ∧ ∀ n, (m, n) ∉ g.edges) done last := by
  unfold registerRoot at h
  split at h
  · rename_i text rs htext hrs
    simp only at h
    split at h
    · simp at h
    · rename_i s₁ r hr
      cases h
      refine ⟨_, rfl, rfl, rfl, .snoc ht (registerRetry_takes hr), right_of hs ?_ hrs htext ?_ ?_ answer⟩
      · rw [List.nodup_append]
        refine ⟨sources_once hg root, hnodes.filter _, ?_⟩
        rintro m hm _ hm' rfl
        exact (mem_sinks.mp hm').2 root (mem_sources.mp hm)
      · split
        · rename_i h
          rw [h]
          simp [sortRefs]
        · rfl
      · intro m
        rw [List.mem_append, mem_sources, mem_sinks]
  · simp at h

/-- what there is if registering succeeds -/
structure Success (lib : Library) (read : String → Option Deps) (schemas : List (String × String)) (subjectPrefix : String) (c : Registry σ) (root : String) (s s' : σ) (done : List Done)
    (answer : Registered) (g : Graph) (ds : List Done) (last : Done) : Prop where
  graph : GraphOf lib read schemas g
  split : done = ds ++ [last]
  name : last.name = root
  same : last.answer = answer
  taken : Taken c subjectPrefix s done s'
  once : (ds.map (·.name)).Nodup
  names : ∀ n, n ∈ ds.map (·.name) ↔ n ∈ g.nodes
  right : ∀ before d after, ds = before ++ d :: after → Right lib schemas (fun m => (m, d.name) ∈ g.edges) before d
  final : Right lib schemas (fun m => (m, root) ∈ g.edges ∨ m ∈ g.nodes ∧ ∀ n, (m, n) ∉ g.edges) ds last

theorem registerSchema_success {lib : Library} {read : String → Option Deps} {schemas : List (String × String)} {subjectPrefix : String} {sort : Graph → Except String (List String)} (hsort : Sorts sort)
    {c : Registry σ} {n : Nat} {s s' : σ} {root : String} {done : List Done} {answer : Registered}
    (h : registerSchema lib read schemas subjectPrefix sort c n s root = some (s', done, .ok answer)) :
    ∃ g ds last, Success lib read schemas subjectPrefix c root s s' done answer g ds last := by
  unfold registerSchema at h
  split at h
  · simp at h
  · split at h
    · simp at h
    · simp at h
    · rename_i g hg
      have hgraph := toGraph_is hg
      split at h
      · simp at h
      · rename_i order horder
        split at h
        · split at h
          · simp at h
          · rename_i s₁ ds supplied hloop
            obtain ⟨h1, h2, h3, h4⟩ := registerLoop_right hgraph.once hloop (hsort.all g order horder).1 (by simp) .nil ⟨by simp, by simp⟩ (by
              intro before d after e
              exact absurd e (by simp))
            have hnodes : g.nodes.Nodup := hgraph.nodes ▸ constructNodes_once lib
            obtain ⟨last, h5, h6, h7, h8, h9⟩ := registerRoot_ok hgraph.once hnodes h3 h2 (Option.some.inj h)
            refine ⟨g, ds, last, hgraph, h5, h6, h7, h8, h3.once, ?_, h4, h9⟩
            intro m
            rw [h1]
            simpa using (hsort.all g order horder).2 m
        · simp at h

theorem Right.congr {lib : Library} {schemas : List (String × String)} {t t' : String → Prop} {before : List Done} {d : Done} (h : Right lib schemas t before d) (he : ∀ m, t m ↔ t' m) :
    Right lib schemas t' before d := by
  have : t = t' := funext fun m => propext (he m)
  exact this ▸ h

theorem prefix_of_snoc {α : Type} {before p q : List α} {d x : α} (e : before ++ [d] = p ++ x :: q) : ∀ y ∈ p, y ∈ before := by
  rcases List.eq_nil_or_concat q with rfl | ⟨q', z, rfl⟩
  · obtain ⟨rfl, _⟩ := List.append_inj' e rfl
    exact fun y hy => hy
  · rw [List.concat_eq_append, ← List.cons_append, ← List.append_assoc] at e
    obtain ⟨rfl, _⟩ := List.append_inj' e rfl
    exact fun y hy => List.mem_append.mpr (.inl hy)

theorem Success.reaches {lib : Library} {read : String → Option Deps} {schemas : List (String × String)} {subjectPrefix : String} {c : Registry σ} {root : String} {s s' : σ} {done : List Done}
    {answer : Registered} {g : Graph} {ds : List Done} {last : Done} (h : Success lib read schemas subjectPrefix c root s s' done answer g ds last) :
    ∀ {after before : List Done}, ds = before ++ after → ∀ d ∈ after, Reaches ds last d
  | [], _, _, d, hd => absurd hd (by simp)
  | d :: after, before, e, d', hd' => by
    have ih := fun x hx => h.reaches (after := after) (before := before ++ [d]) (by rw [e]; simp) x hx
    rcases List.mem_cons.mp hd' with rfl | hd'
    · have hmem : d' ∈ ds := by rw [e]; simp
      by_cases hex : ∃ n, (d'.name, n) ∈ g.edges
      · obtain ⟨n, hn⟩ := hex
        have hnode := (h.graph.ends _ _ hn).2
        obtain ⟨x, hx, hxn⟩ := List.mem_map.mp ((h.names n).mpr hnode)
        have hx' : x ∈ (before ++ [d']) ∨ x ∈ after := by
          rw [e, List.mem_append, List.mem_cons] at hx
          rw [List.mem_append, List.mem_singleton]
          rcases hx with h | h | h
          · exact .inl (.inl h)
          · exact .inl (.inr h)
          · exact .inr h
        rcases hx' with hx' | hx'
        · exfalso
          obtain ⟨p, q, hpq⟩ := List.append_of_mem hx'
          have hsplit : ds = p ++ x :: (q ++ after) := by
            rw [e, ← List.singleton_append, ← List.append_assoc, hpq]
            simp
          obtain ⟨y, hy, hyn⟩ := (h.right _ _ _ hsplit).all d'.name (by rw [hxn]; exact hn)
          have hyb := prefix_of_snoc hpq y hy
          have hnd := h.once
          rw [e, List.map_append, List.nodup_append] at hnd
          exact hnd.2.2 _ (List.mem_map.mpr ⟨y, hyb, rfl⟩) d'.name (by simp) hyn
        · obtain ⟨p, q, hpq⟩ := List.append_of_mem hx
          have hr := h.right _ _ _ hpq
          refine .step (ih x hx') hmem ?_
          rw [hr.refs]
          obtain ⟨y, hy, hyn⟩ := hr.all d'.name (by rw [hxn]; exact hn)
          have hyd : y = d' := by
            have hy' : y ∈ ds := by rw [hpq]; simp [hy]
            have := List.pairwise_map.mp h.once
            exact Classical.byContradiction fun hne => by
              have key : ∀ (l : List Done), l.Pairwise (fun a b => a.name ≠ b.name) → y ∈ l → d' ∈ l → y ≠ d' → y.name ≠ d'.name := by
                intro l hl h1 h2 h3
                induction hl with
                | nil => exact absurd h1 (by simp)
                | cons ha _ ih =>
                  rcases List.mem_cons.mp h1 with h1 | h1 <;> rcases List.mem_cons.mp h2 with h2 | h2
                  · exact absurd (h1.trans h2.symm) h3
                  · exact h1 ▸ ha _ h2
                  · exact h2 ▸ fun e => ha _ h1 e.symm
                  · exact ih h1 h2
              exact key ds this hy' hmem hne hyn
          exact ⟨d', hyd ▸ hy, by rw [hxn]; exact hn, rfl⟩
      · refine .direct hmem ?_
        rw [h.final.refs]
        exact ⟨d', hmem, .inr ⟨(h.names _).mp (List.mem_map.mpr ⟨d', hmem, rfl⟩), fun n hn => hex ⟨n, hn⟩⟩, rfl⟩
    · exact ih d' hd'

/-- registering fails for a reason: there is no such module, there is no graph, it has a circle, or the registry fails -/
theorem registerSchema_fails {lib : Library} {read : String → Option Deps} {schemas : List (String × String)} {subjectPrefix : String} {sort : Graph → Except String (List String)} (hsort : Sorts sort)
    {c : Registry σ} {n : Nat} {s s' : σ} {root : String} {done : List Done} {f : Failure} (htexts : ∀ n r, Lists lib n r → ∃ text, schemas.look n = some text)
    (h : registerSchema lib read schemas subjectPrefix sort c n s root = some (s', done, .error f)) :
    (f = .moduleNotFound ∧ ¬HasModule lib root) ∨ toGraph lib read schemas n = some (.error f) ∨
    (∃ x, f = .cycle x ∧ ∃ a, Relation.TransGen (Refers lib read schemas) a a) ∨ ∃ s subject e s', registerRetry c s subject e = (s', .error f) := by
  unfold registerSchema at h
  split at h
  · rename_i hm
    simp only [Option.some.injEq, Prod.mk.injEq, Except.error.injEq] at h
    exact .inl ⟨h.2.2.symm, fun hm' => by rw [← findModule_some_iff] at hm'; simp_all⟩
  · rename_i hm
    have hroot : HasModule lib root := findModule_some_iff.mp (by cases hf : lib.findModule root <;> simp_all)
    split at h
    · simp at h
    · rename_i f' hg
      simp only [Option.some.injEq, Prod.mk.injEq, Except.error.injEq] at h
      exact .inr (.inl (h.2.2 ▸ hg))
    · rename_i g hg
      have hgraph := toGraph_is hg
      have hnodes : g.nodes.Nodup := hgraph.nodes ▸ constructNodes_once lib
      split at h
      · rename_i x hx
        simp only [Option.some.injEq, Prod.mk.injEq, Except.error.injEq] at h
        obtain ⟨a, ha⟩ := hsort.circle g x hx
        exact .inr (.inr (.inl ⟨x, h.2.2.symm, a, TransGen.flip (fun _ _ he => (hgraph.edges _ _).mp he) ha⟩))
      · rename_i order horder
        rw [if_pos (by rw [hgraph.nodes]; exact listed_node (.inl hroot))] at h
        have hall := hsort.all g order horder
        have hsup : Supplied [] [] := ⟨by simp, by simp⟩
        have htext : ∀ m ∈ g.nodes, ∃ text, schemas.look m = some text := by
          intro m hm
          rw [hgraph.nodes] at hm
          obtain ⟨r, hr⟩ := node_listed hm
          exact htexts m r hr
        split at h
        · rename_i s₁ ds f' hloop
          simp only [Option.some.injEq, Prod.mk.injEq, Except.error.injEq] at h
          obtain ⟨-, -, rfl⟩ := h
          refine .inr (.inr (.inr (registerLoop_fails hloop hall.1 (by simp) hsup ?_ fun m hm => htext m ((hall.2 m).mp hm))))
          intro before m rest e a ha
          exact .inr (hsort.after g order horder a m before rest ha e (hgraph.ends _ _ ha).1)
        · rename_i s₁ ds supplied hloop
          obtain ⟨h1, h2, h3, h4⟩ := registerLoop_right hgraph.once hloop hall.1 (by simp) .nil hsup (by
            intro before d after e
            exact absurd e (by simp))
          have hr := Option.some.inj h
          unfold registerRoot at hr
          obtain ⟨text, ht⟩ := htext root (by rw [hgraph.nodes]; exact listed_node (.inl hroot))
          obtain ⟨rs, hrs⟩ : ∃ rs, findRefs supplied (g.sources root ++ g.sinks) = some rs := by
            refine findRefs_isSome fun m hm => ?_
            have hm' : m ∈ g.nodes := by
              rcases List.mem_append.mp hm with hm | hm
              · exact (hgraph.ends _ _ (mem_sources.mp hm)).1
              · exact (mem_sinks.mp hm).1
            have : m ∈ ds.map (·.name) := by rw [h1]; simpa using (hall.2 m).mpr hm'
            obtain ⟨d, hd, rfl⟩ := List.mem_map.mp this
            exact ⟨d.ref, (h3.refs _ _).mpr ⟨d, hd, rfl, rfl⟩⟩
          rw [ht, hrs] at hr
          simp only at hr
          split at hr
          · rename_i s₂ f' hretry
            simp only [Prod.mk.injEq, Except.error.injEq] at hr
            exact .inr (.inr (.inr ⟨_, _, _, _, hr.2.2 ▸ hretry⟩))
          · simp at hr

end Verif.YangPush.Register
