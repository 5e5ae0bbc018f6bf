import Verif.YangPush.RegisteringLoop
import Verif.YangPush.LoadingInv
/-! # When registering ends, and when it succeeds -/
namespace Verif.YangPush.Register
open Collector Load

/-! ## Ends -/

theorem filter_shorter {α : Type} {p q : α → Bool} (h : ∀ x, p x = true → q x = true) : ∀ {l : List α} {y : α}, y ∈ l → q y = true → p y = false → (l.filter p).length < (l.filter q).length := by
  have hle : ∀ l : List α, (l.filter p).length ≤ (l.filter q).length := by
    intro l
    induction l with
    | nil => exact Nat.le_refl _
    | cons x l ih =>
      simp only [List.filter_cons]
      cases hp : p x with
      | true => rw [if_pos rfl, if_pos (h x hp)]; simpa using ih
      | false =>
        rw [if_neg (by simp)]
        split
        · simp only [List.length_cons]; omega
        · exact ih
  intro l
  induction l with
  | nil => intro y hy; exact absurd hy (by simp)
  | cons x l ih =>
    intro y hy hq hp
    simp only [List.filter_cons]
    rcases List.mem_cons.mp hy with rfl | hy
    · rw [if_neg (by simp [hp]), if_pos hq, List.length_cons]
      exact Nat.lt_succ_of_le (hle l)
    · have := ih hy hq hp
      cases hpx : p x with
      | true => rw [if_pos rfl, if_pos (h x hpx)]; simpa using this
      | false =>
        rw [if_neg (by simp)]
        split
        · simp only [List.length_cons]; omega
        · exact this

open Classical in
/-- how many of the names can be reached by includes -/
noncomputable def rank (names : List String) (inc : String → String → Prop) (x : String) : Nat := (names.filter fun m => decide (Relation.TransGen inc x m)).length

theorem rank_le (names : List String) (inc : String → String → Prop) (x : String) : rank names inc x ≤ names.length := List.length_filter_le _ _

open Classical in
theorem rank_lt {names : List String} {inc : String → String → Prop} (ha : ∀ a, ¬Relation.TransGen inc a a) {x y : String} (hy : y ∈ names) (h : inc x y) : rank names inc y < rank names inc x := by
  unfold rank
  refine filter_shorter (y := y) ?_ hy ?_ ?_
  · intro m hm
    have := of_decide_eq_true hm
    exact decide_eq_true (Relation.TransGen.trans (.single h) this)
  · exact decide_eq_true (.single h)
  · exact decide_eq_false (ha y)

theorem hasSubmodule_listed {lib : Library} {i : String} (h : HasSubmodule lib i) : ∃ r, Lists lib i r := by
  obtain ⟨s, hs, m, hm, u, hu, rfl⟩ := h
  exact ⟨u.revision, s, hs, .inl ⟨m, hm, .inr ⟨u, hu, rfl, rfl⟩⟩⟩

theorem listed_name {lib : Library} {i : String} (h : ∃ r, Lists lib i r) : i ∈ lib.entries.map (·.1) := by
  obtain ⟨r, h⟩ := h
  exact List.mem_map.mpr ⟨(i, r), mem_entries.mpr h, rfl⟩

theorem includeEdges_ends {lib : Library} {read : String → Option Deps} {schemas : List (String × String)} {below : Graph → String → Deps → Option (Except Failure Graph)} {cur : String} :
    ∀ {is : List String} {g : Graph}, (∀ i ∈ is, HasSubmodule lib i → ∀ g d, Reads read schemas i d → below g i d ≠ none) → includeEdges lib read schemas below cur g is ≠ none
  | [], g, _ => nofun
  | i :: is, g, h => by
    unfold includeEdges
    split
    · rename_i hc
      split
      · nofun
      · rename_i text ht
        split
        · nofun
        · rename_i d hd
          split
          · exact includeEdges_ends fun j hj => h j (List.mem_cons_of_mem _ hj)
          · exact h i (by simp) (findSubmodule_some_iff.mp hc.1) _ _ ⟨text, ht, hd⟩
    · nofun

theorem addDeps_ends {lib : Library} {read : String → Option Deps} {schemas : List (String × String)} (ha : ∀ a, ¬Relation.TransGen (Includes lib read schemas) a a) :
    ∀ {n : Nat} {g : Graph} {cur : String} {d : Deps}, Part lib read schemas cur → Reads read schemas cur d → rank (lib.entries.map (·.1)) (Includes lib read schemas) cur < n → addDeps lib read schemas n g cur d ≠ none
  | 0, _, _, _, _, _, h => absurd h (Nat.not_lt_zero _)
  | n + 1, g, cur, d, hp, hr, h => by
    unfold addDeps
    split
    · nofun
    · refine includeEdges_ends fun i hi hs g' d' hr' => addDeps_ends ha (.included hp hr hi) hr' ?_
      have := rank_lt (names := lib.entries.map (·.1)) ha (listed_name (hasSubmodule_listed hs)) (⟨hp, d, hr, hi⟩ : Includes lib read schemas cur i)
      omega

theorem addModules_ends {lib : Library} {read : String → Option Deps} {schemas : List (String × String)} (ha : ∀ a, ¬Relation.TransGen (Includes lib read schemas) a a) {n : Nat}
    (hn : lib.entries.length < n) : ∀ {ms : List (String × List String)} {g : Graph}, (∀ m ∈ ms, m ∈ listedModules lib) → addModules lib read schemas n g ms ≠ none
  | [], _, _ => nofun
  | m :: ms, g, hm => by
    unfold addModules
    split
    · exact addModules_ends ha hn fun x hx => hm x (by simp [hx])
    · unfold addModule
      split
      · nofun
      · rename_i text ht
        split
        · nofun
        · rename_i d hd
          split
          · nofun
          · have := rank_le (lib.entries.map (·.1)) (Includes lib read schemas) m.1
            rw [List.length_map] at this
            exact addDeps_ends ha (.listed (listed_iff.mpr ⟨m, hm m (by simp), rfl⟩)) ⟨text, ht, hd⟩ (by omega)

/-! ## Succeeds -/

theorem moduleExists_of {lib : Library} (hn : Named lib) {m : String} (h : HasModule lib m ∨ HasImport lib m) : moduleExists lib m = true := by
  unfold moduleExists
  rw [Bool.or_eq_true]
  exact h.imp findModule_some_iff.mpr (findImports_some_iff hn).mpr

theorem importEdges_ok {lib : Library} {cur : String} : ∀ {is : List String} {g : Graph}, (∀ i ∈ is, moduleExists lib i = true ∧ i ∈ g.nodes) → ∃ g', importEdges lib cur g is = .ok g'
  | [], g, _ => ⟨g, rfl⟩
  | i :: is, g, h => by
    unfold importEdges
    rw [if_pos (h i (by simp))]
    exact importEdges_ok fun j hj => by rw [(addEdge_adds g i cur).nodes]; exact h j (by simp [hj])

theorem extraEdges_ok {lib : Library} {cur : String} : ∀ {is : List String} {g : Graph}, (∀ i ∈ is, moduleExists lib i = true ∧ i ∈ g.nodes) → ∃ g', extraEdges lib cur g is = .ok g'
  | [], g, _ => ⟨g, rfl⟩
  | i :: is, g, h => by
    unfold extraEdges
    rw [if_pos (h i (by simp))]
    exact extraEdges_ok fun j hj => by rw [(addEdge_adds g cur i).nodes]; exact h j (by simp [hj])

theorem includeEdges_ok {lib : Library} {read : String → Option Deps} {schemas : List (String × String)} {below : Graph → String → Deps → Option (Except Failure Graph)} {cur : String} {nodes : List String} :
    ∀ {is : List String} {g : Graph}, g.nodes = nodes → (∀ i ∈ is, HasSubmodule lib i ∧ i ∈ nodes ∧ ∃ d, Reads read schemas i d) →
      (∀ i ∈ is, ∀ g d, g.nodes = nodes → Reads read schemas i d → ∃ g', below g i d = some (.ok g') ∧ g'.nodes = nodes) →
      ∃ g', includeEdges lib read schemas below cur g is = some (.ok g') ∧ g'.nodes = nodes
  | [], g, hg, _, _ => ⟨g, rfl, hg⟩
  | i :: is, g, hg, h, hb => by
    obtain ⟨h1, h2, d, hd⟩ := h i (by simp)
    obtain ⟨g', hg', hn⟩ := hb i (by simp) (g.addEdge i cur) d (by rw [(addEdge_adds g i cur).nodes, hg]) hd
    obtain ⟨text, ht, hr⟩ := hd
    unfold includeEdges
    rw [if_pos ⟨findSubmodule_some_iff.mpr h1, by rw [hg]; exact h2⟩]
    simp only [ht, hr, hg']
    exact includeEdges_ok hn (fun j hj => h j (by simp [hj])) fun j hj => hb j (by simp [hj])

theorem addDeps_ok {lib : Library} (hl : Named lib) {read : String → Option Deps} {schemas : List (String × String)} (hc : Complete lib read schemas)
    (hsub : ∀ i, HasSubmodule lib i → i ∈ (constructNodes lib).nodes) (ha : ∀ a, ¬Relation.TransGen (Includes lib read schemas) a a) :
    ∀ {n : Nat} {g : Graph} {cur : String} {d : Deps}, g.nodes = (constructNodes lib).nodes → Part lib read schemas cur → Reads read schemas cur d →
      rank (lib.entries.map (·.1)) (Includes lib read schemas) cur < n → ∃ g', addDeps lib read schemas n g cur d = some (.ok g') ∧ g'.nodes = (constructNodes lib).nodes
  | 0, _, _, _, _, _, _, h => absurd h (Nat.not_lt_zero _)
  | n + 1, g, cur, d, hg, hp, hr, h => by
    unfold addDeps
    obtain ⟨g₁, hg₁⟩ := importEdges_ok (lib := lib) (cur := cur) (is := d.imports) (g := g) fun i hi => by
      have := hc.imports _ _ _ hp hr hi
      exact ⟨moduleExists_of hl this, by rw [hg]; exact listed_node this⟩
    rw [hg₁]
    refine includeEdges_ok ((importEdges_adds hg₁).1.nodes.trans hg) ?_ ?_
    · intro i hi
      have := hc.includes _ _ _ hp hr hi
      exact ⟨this, hsub i this, hc.reads i (.included hp hr hi)⟩
    · intro i hi g' d' hg' hr'
      refine addDeps_ok hl hc hsub ha hg' (.included hp hr hi) hr' ?_
      have := rank_lt (names := lib.entries.map (·.1)) ha (listed_name (hasSubmodule_listed (hc.includes _ _ _ hp hr hi))) (⟨hp, d, hr, hi⟩ : Includes lib read schemas cur i)
      omega

theorem addModules_ok {lib : Library} (hl : Named lib) {read : String → Option Deps} {schemas : List (String × String)} (hc : Complete lib read schemas)
    (hsub : ∀ i, HasSubmodule lib i → i ∈ (constructNodes lib).nodes) (ha : ∀ a, ¬Relation.TransGen (Includes lib read schemas) a a) {n : Nat} (hn : lib.entries.length < n) :
    ∀ {ms : List (String × List String)} {g : Graph}, (∀ m ∈ ms, m ∈ listedModules lib) → g.nodes = (constructNodes lib).nodes → ∃ g', addModules lib read schemas n g ms = some (.ok g')
  | [], g, _, _ => ⟨g, rfl⟩
  | m :: ms, g, hm, hg => by
    have hml := hm m (by simp)
    have hlisted : HasModule lib m.1 ∨ HasImport lib m.1 := listed_iff.mpr ⟨m, hml, rfl⟩
    obtain ⟨d, hd⟩ := hc.reads m.1 (.listed hlisted)
    have hrank := rank_le (lib.entries.map (·.1)) (Includes lib read schemas) m.1
    rw [List.length_map] at hrank
    obtain ⟨g₁, hg₁, hn₁⟩ := addDeps_ok hl hc hsub ha hg (.listed hlisted) hd (n := n) (by omega)
    obtain ⟨g₂, hg₂⟩ := extraEdges_ok (lib := lib) (cur := m.1) (is := m.2) (g := g₁) fun i hi => by
      have : HasModule lib i ∨ HasImport lib i := by
        rcases mem_listedModules.mp hml with ⟨x, hx, rfl⟩ | ⟨x, hx, rfl⟩
        · exact hc.others x i hx (List.mem_append.mp hi)
        · exact absurd hi (by simp)
      exact ⟨moduleExists_of hl this, by rw [hn₁]; exact listed_node this⟩
    obtain ⟨text, ht, hr⟩ := hd
    unfold addModules addModule
    simp only [ht, hr, hg₁, hg₂]
    exact addModules_ok hl hc hsub ha hn (fun x hx => hm x (by simp [hx])) ((extraEdges_adds hg₂).1.nodes.trans hn₁)

theorem heads_subs (xs : List (String × List Submodule)) : ∀ (ps : List (String × List Submodule)) (g : Graph),
    (∀ m ∈ g.nodes, ∃ y ∈ ps, m = y.1 ∨ ∃ u ∈ y.2, u.name = m) → (∀ y ∈ ps, ∀ u ∈ y.2, u.name ∈ g.nodes) →
    (∀ x ∈ xs, ∀ y ∈ ps ++ xs, x.1 = y.1 → x.2 = y.2) → (∀ x ∈ xs, ∀ y ∈ ps ++ xs, ∀ u ∈ y.2, u.name ≠ x.1) →
    ∀ y ∈ ps ++ xs, ∀ u ∈ y.2, u.name ∈ (xs.foldl (fun g x => g.addNodes x.1 x.2) g).nodes := by
  induction xs with
  | nil => intro ps g _ h2 _ _ y hy; rw [List.append_nil] at hy; exact h2 y hy
  | cons x xs ih =>
    intro ps g h1 h2 h3 h4 y hy
    rw [List.foldl_cons]
    rw [← List.singleton_append, ← List.append_assoc] at hy h3 h4
    refine ih (ps ++ [x]) _ ?_ ?_ (fun z hz => h3 z (by simp [hz])) (fun z hz => h4 z (by simp [hz])) y hy
    · intro m hm
      rcases addNodes_of _ _ _ _ hm with hm | hm
      · obtain ⟨y, hy, h⟩ := h1 m hm
        exact ⟨y, by simp [hy], h⟩
      · exact ⟨x, by simp, hm⟩
    · intro y hy u hu
      rcases List.mem_append.mp hy with hy | hy
      · exact addNodes_kept _ _ _ _ (h2 y hy u hu)
      · rw [List.mem_singleton] at hy
        subst hy
        by_cases hin : y.1 ∈ g.nodes
        · obtain ⟨z, hz, h | ⟨v, hv, h⟩⟩ := h1 _ hin
          · have := h3 y (by simp) z (by simp [hz]) h
            rw [this] at hu
            exact addNodes_kept _ _ _ _ (h2 z hz u hu)
          · exact absurd h (h4 y (by simp) z (by simp [hz]) v hv)
        · unfold Graph.addNodes
          rw [if_neg hin, addSubs_mem]
          exact .inr ⟨u, hu, rfl⟩

theorem Complete.subs {lib : Library} {read : String → Option Deps} {schemas : List (String × String)} (hc : Complete lib read schemas) {i : String} (h : HasSubmodule lib i) :
    i ∈ (constructNodes lib).nodes := by
  obtain ⟨set, hset⟩ := hc.one
  obtain ⟨s, hs, m, hm, u, hu, rfl⟩ := h
  have hs' : s = set := by rw [hset] at hs; simpa using hs
  subst hs'
  have heads : nodeHeads lib = s.modules.map (fun m => (m.name, m.submodules)) ++ (s.imports.flatMap (·.2)).map fun m => (m.name, m.submodules) := by
    unfold nodeHeads
    rw [hset]
    simp
  rw [constructNodes_eq, heads, List.foldl_append]
  apply heads_kept
  refine heads_subs _ [] _ (by simp) (by simp) ?_ ?_ (m.name, m.submodules) (List.mem_map.mpr ⟨m, hm, rfl⟩) u hu
  · intro x hx y hy he
    obtain ⟨a, ha, rfl⟩ := List.mem_map.mp hx
    obtain ⟨b, hb, rfl⟩ := List.mem_map.mp hy
    exact hc.same a b ⟨s, hs, ha⟩ ⟨s, hs, hb⟩ he
  · intro x hx y hy
    obtain ⟨a, ha, rfl⟩ := List.mem_map.mp hx
    obtain ⟨b, hb, rfl⟩ := List.mem_map.mp hy
    exact hc.apart a b ⟨s, hs, ha⟩ ⟨s, hs, hb⟩

theorem TransGen.map {α : Type} {r q : α → α → Prop} (h : ∀ a b, r a b → q a b) {a b : α} (ht : Relation.TransGen r a b) : Relation.TransGen q a b := by
  induction ht with
  | single h' => exact .single (h _ _ h')
  | tail _ h' ih => exact .tail ih (h _ _ h')

theorem TransGen.flip {α : Type} {r q : α → α → Prop} (h : ∀ a b, r a b → q b a) {a b : α} (ht : Relation.TransGen r a b) : Relation.TransGen q b a := by
  induction ht with
  | single h' => exact .single (h _ _ h')
  | tail _ h' ih => exact Relation.TransGen.trans (.single (h _ _ h')) ih

/-! ## The registry -/

/-- all that fails comes from the registry -/
theorem registerLoop_fails {lib : Library} {schemas : List (String × String)} {subjectPrefix : String} {g : Graph} {c : Registry σ} :
    ∀ {order : List String} {s s' : σ} {done done' : List Done} {supplied : List (String × Ref)} {f : Failure},
      registerLoop lib schemas subjectPrefix g c s done supplied order = (s', done', .error f) → order.Nodup → (∀ n ∈ order, n ∉ done.map (·.name)) → Supplied done supplied →
      (∀ before n rest, order = before ++ n :: rest → ∀ m, (m, n) ∈ g.edges → m ∈ done.map (·.name) ∨ m ∈ before) → (∀ n ∈ order, ∃ text, schemas.look n = some text) →
      ∃ s subject e s', registerRetry c s subject e = (s', .error f)
  | [], s, s', done, done', supplied, f, h, _, _, _, _, _ => by simp [registerLoop] at h
  | n :: ns, s, s', done, done', supplied, f, h, hn, hnot, hs, hbefore, htext => by
    unfold registerLoop at h
    obtain ⟨rs, hrs⟩ : ∃ rs, findRefs supplied (g.sources n) = some rs := by
      refine findRefs_isSome fun m hm => ?_
      have := hbefore [] n ns rfl m (mem_sources.mp hm)
      simp only [List.not_mem_nil, or_false] at this
      obtain ⟨d, hd, rfl⟩ := List.mem_map.mp this
      exact ⟨d.ref, (hs.refs _ _).mpr ⟨d, hd, rfl, rfl⟩⟩
    obtain ⟨text, ht⟩ := htext n (by simp)
    have he : entryOf lib schemas g supplied n = some ⟨text, some (sortRefs rs), getFeatures lib n⟩ := by simp [entryOf, hrs, ht]
    rw [he] at h
    simp only at h
    split at h
    · rename_i hr
      cases h
      exact ⟨_, _, _, _, hr⟩
    · rename_i s₁ r hr
      refine registerLoop_fails h (List.nodup_cons.mp hn).2 ?_ (hs.snoc ⟨n, _, r⟩ (hnot n (by simp))) ?_ fun m hm => htext m (by simp [hm])
      · intro m hm
        rw [List.map_append]
        simp only [List.mem_append, List.map_cons, List.map_nil, List.mem_singleton]
        rintro (h | rfl)
        · exact hnot m (by simp [hm]) h
        · exact (List.nodup_cons.mp hn).1 hm
      · intro before x rest e m hm
        have := hbefore (n :: before) x rest (by rw [e]; rfl) m hm
        rw [List.map_append]
        simp only [List.mem_append, List.map_cons, List.map_nil, List.mem_singleton]
        rcases this with h | h
        · exact .inl (.inl h)
        · rcases List.mem_cons.mp h with h | h
          · exact .inl (.inr h)
          · exact .inr h

theorem Accepts.takes {c : Registry σ} (h : Accepts c) (s : σ) (subject : String) (e : Entry) : ∃ s' r, registerRetry c s subject e = (s', .ok r) := by
  obtain ⟨s', r, h1, h2⟩ := h s subject e
  exact ⟨s', r, by simp [registerRetry, h1, h2]⟩

end Verif.YangPush.Register
