import Verif.YangPush.RegisteringSpec
/-! # The graph of a YANG library -/
namespace Verif.YangPush.Register
open Collector Load

/-- what edges are added to a graph -/
structure Adds (g g' : Graph) (P : String × String → Prop) : Prop where
  nodes : g'.nodes = g.nodes
  edges : ∀ e, e ∈ g'.edges ↔ e ∈ g.edges ∨ P e
  once : g.edges.Nodup → g'.edges.Nodup

theorem Adds.refl (g : Graph) : Adds g g fun _ => False := ⟨rfl, fun _ => by simp, id⟩

theorem Adds.trans {g g' g'' : Graph} {P Q R : String × String → Prop} (h : Adds g g' P) (h' : Adds g' g'' Q) (hR : ∀ e, R e ↔ P e ∨ Q e) : Adds g g'' R :=
  ⟨h'.nodes.trans h.nodes, fun e => by rw [h'.edges, h.edges, hR, or_assoc], fun hn => h'.once (h.once hn)⟩

theorem Adds.congr {g g' : Graph} {P Q : String × String → Prop} (h : Adds g g' P) (hQ : ∀ e, Q e ↔ P e) : Adds g g' Q :=
  ⟨h.nodes, fun e => by rw [h.edges, hQ], h.once⟩

theorem addEdge_adds (g : Graph) (a b : String) : Adds g (g.addEdge a b) fun e => e = (a, b) := by
  unfold Graph.addEdge
  split
  · rename_i h
    exact ⟨rfl, fun e => ⟨.inl, fun h' => h'.elim id fun h' => h' ▸ h⟩, id⟩
  · rename_i h
    refine ⟨rfl, fun e => by simp, fun hn => ?_⟩
    rw [List.nodup_append]
    refine ⟨hn, by simp, fun x hx y hy e => h ?_⟩
    simp only [List.mem_singleton] at hy
    rw [← hy, ← e]
    exact hx

theorem importEdges_adds {lib : Library} {cur : String} : ∀ {is : List String} {g g' : Graph}, importEdges lib cur g is = .ok g' →
    Adds g g' (fun e => ∃ i ∈ is, e = (i, cur)) ∧ ∀ i ∈ is, i ∈ g.nodes
  | [], g, g', h => by
    cases h
    exact ⟨(Adds.refl g).congr (by simp), by simp⟩
  | i :: is, g, g', h => by
    unfold importEdges at h
    split at h
    · rename_i hc
      obtain ⟨h1, h2⟩ := importEdges_adds h
      have ha := addEdge_adds g i cur
      refine ⟨ha.trans h1 (by simp), ?_⟩
      rw [ha.nodes] at h2
      simpa using ⟨hc.2, h2⟩
    · exact nomatch h

theorem extraEdges_adds {lib : Library} {cur : String} : ∀ {is : List String} {g g' : Graph}, extraEdges lib cur g is = .ok g' →
    Adds g g' (fun e => ∃ i ∈ is, e = (cur, i)) ∧ ∀ i ∈ is, i ∈ g.nodes
  | [], g, g', h => by
    cases h
    exact ⟨(Adds.refl g).congr (by simp), by simp⟩
  | i :: is, g, g', h => by
    unfold extraEdges at h
    split at h
    · rename_i hc
      obtain ⟨h1, h2⟩ := extraEdges_adds h
      have ha := addEdge_adds g cur i
      refine ⟨ha.trans h1 (by simp), ?_⟩
      rw [ha.nodes] at h2
      simpa using ⟨hc.2, h2⟩
    · exact nomatch h

/-- the edges that come from what a schema has and what it includes has -/
inductive Below (read : String → Option Deps) (schemas : List (String × String)) : String → Deps → String × String → Prop where
  | imports {n m : String} {d : Deps} : m ∈ d.imports → Below read schemas n d (m, n)
  | includes {n m : String} {d : Deps} : m ∈ d.includes → Below read schemas n d (m, n)
  | deep {n i : String} {d d' : Deps} {e : String × String} : i ∈ d.includes → Reads read schemas i d' → Below read schemas i d' e → Below read schemas n d e

theorem Reads.unique {read : String → Option Deps} {schemas : List (String × String)} {n : String} {d d' : Deps} (h : Reads read schemas n d) (h' : Reads read schemas n d') : d = d' := by
  obtain ⟨t, h1, h2⟩ := h
  obtain ⟨t', h1', h2'⟩ := h'
  rw [h1] at h1'
  cases h1'
  rw [h2] at h2'
  cases h2'
  rfl

theorem includeEdges_adds {lib : Library} {read : String → Option Deps} {schemas : List (String × String)} {below : Graph → String → Deps → Option (Except Failure Graph)}
    (hb : ∀ g i d g', below g i d = some (.ok g') → i ∈ g.nodes →
      Adds g g' (Below read schemas i d) ∧ ∀ e, Below read schemas i d e → e.1 ∈ g.nodes ∧ e.2 ∈ g.nodes) {cur : String} :
    ∀ {is : List String} {g g' : Graph}, includeEdges lib read schemas below cur g is = some (.ok g') → cur ∈ g.nodes →
      Adds g g' (fun e => ∃ i ∈ is, e = (i, cur) ∨ ∃ d, Reads read schemas i d ∧ Below read schemas i d e) ∧
      ∀ e, (∃ i ∈ is, e = (i, cur) ∨ ∃ d, Reads read schemas i d ∧ Below read schemas i d e) → e.1 ∈ g.nodes ∧ e.2 ∈ g.nodes
  | [], g, g', h, _ => by
    cases h
    exact ⟨(Adds.refl g).congr (by simp), by simp⟩
  | i :: is, g, g', h, hcur => by
    unfold includeEdges at h
    split at h
    · rename_i hc
      split at h
      · simp at h
      · rename_i text ht
        split at h
        · simp at h
        · rename_i d hd
          have ha := addEdge_adds g i cur
          split at h
          · rename_i g₁ hg₁
            obtain ⟨h1, h2⟩ := hb _ _ _ _ hg₁ (by rw [ha.nodes]; exact hc.2)
            obtain ⟨h3, h4⟩ := includeEdges_adds hb h (by rw [h1.nodes, ha.nodes]; exact hcur)
            rw [h1.nodes, ha.nodes] at h4
            rw [ha.nodes] at h2
            have hr : Reads read schemas i d := ⟨text, ht, hd⟩
            have hiff : ∀ e, (∃ j ∈ i :: is, e = (j, cur) ∨ ∃ d, Reads read schemas j d ∧ Below read schemas j d e) ↔
                (e = (i, cur) ∨ Below read schemas i d e) ∨ ∃ j ∈ is, e = (j, cur) ∨ ∃ d, Reads read schemas j d ∧ Below read schemas j d e := by
              intro e
              constructor
              · rintro ⟨j, hj, he⟩
                rcases List.mem_cons.mp hj with rfl | hj
                · rcases he with he | ⟨d', hd', he⟩
                  · exact .inl (.inl he)
                  · rw [hd'.unique hr] at he
                    exact .inl (.inr he)
                · exact .inr ⟨j, hj, he⟩
              · rintro ((he | he) | ⟨j, hj, he⟩)
                · exact ⟨i, by simp, .inl he⟩
                · exact ⟨i, by simp, .inr ⟨d, hr, he⟩⟩
                · exact ⟨j, by simp [hj], he⟩
            refine ⟨(ha.trans h1 (fun _ => Iff.rfl)).trans h3 hiff, ?_⟩
            intro e he
            rcases (hiff e).mp he with (he | he) | he
            · subst he
              exact ⟨hc.2, hcur⟩
            · exact h2 e he
            · exact h4 e he
          · rename_i hne
            exact absurd h (hne _)
    · simp at h

theorem addDeps_adds {lib : Library} {read : String → Option Deps} {schemas : List (String × String)} : ∀ {n : Nat} {g g' : Graph} {cur : String} {d : Deps},
    addDeps lib read schemas n g cur d = some (.ok g') → cur ∈ g.nodes →
      Adds g g' (Below read schemas cur d) ∧ ∀ e, Below read schemas cur d e → e.1 ∈ g.nodes ∧ e.2 ∈ g.nodes
  | 0, g, g', cur, d, h, _ => by simp [addDeps] at h
  | n + 1, g, g', cur, d, h, hcur => by
    unfold addDeps at h
    split at h
    · simp at h
    · rename_i g₁ hg₁
      obtain ⟨h1, h2⟩ := importEdges_adds hg₁
      obtain ⟨h3, h4⟩ := includeEdges_adds (fun g i d g' h hi => addDeps_adds h hi) h (by rw [h1.nodes]; exact hcur)
      rw [h1.nodes] at h4
      have hiff : ∀ e, Below read schemas cur d e ↔ (∃ i ∈ d.imports, e = (i, cur)) ∨
          ∃ i ∈ d.includes, e = (i, cur) ∨ ∃ d, Reads read schemas i d ∧ Below read schemas i d e := by
        intro e
        constructor
        · intro he
          cases he with
          | imports h => exact .inl ⟨_, h, rfl⟩
          | includes h => exact .inr ⟨_, h, .inl rfl⟩
          | deep h hr hb => exact .inr ⟨_, h, .inr ⟨_, hr, hb⟩⟩
        · rintro (⟨i, hi, rfl⟩ | ⟨i, hi, rfl | ⟨d', hr, hb⟩⟩)
          · exact .imports hi
          · exact .includes hi
          · exact .deep hi hr hb
      refine ⟨h1.trans h3 hiff, ?_⟩
      intro e he
      rcases (hiff e).mp he with ⟨i, hi, rfl⟩ | he
      · exact ⟨h2 i hi, hcur⟩
      · exact h4 e he

theorem addModules_adds {lib : Library} {read : String → Option Deps} {schemas : List (String × String)} {n : Nat} : ∀ {ms : List (String × List String)} {g g' : Graph},
    addModules lib read schemas n g ms = some (.ok g') → (∀ m ∈ ms, m.1 ∈ g.nodes) →
      Adds g g' (fun e => ∃ m ∈ ms, (∃ d, Reads read schemas m.1 d ∧ Below read schemas m.1 d e) ∨ ∃ i ∈ m.2, e = (m.1, i)) ∧
      (∀ e, (∃ m ∈ ms, (∃ d, Reads read schemas m.1 d ∧ Below read schemas m.1 d e) ∨ ∃ i ∈ m.2, e = (m.1, i)) → e.1 ∈ g.nodes ∧ e.2 ∈ g.nodes) ∧
      ∀ m ∈ ms, ∃ d, Reads read schemas m.1 d
  | [], g, g', h, _ => by
    cases h
    exact ⟨(Adds.refl g).congr (by simp), by simp, by simp⟩
  | m :: ms, g, g', h, hm => by
    unfold addModules at h
    split at h
    · rename_i g₁ hg₁
      unfold addModule at hg₁
      split at hg₁
      · simp at hg₁
      · rename_i text ht
        split at hg₁
        · simp at hg₁
        · rename_i d hd
          split at hg₁
          · rename_i g₂ hg₂
            simp only [Option.some.injEq] at hg₁
            have hr : Reads read schemas m.1 d := ⟨text, ht, hd⟩
            have hm1 := hm m (by simp)
            obtain ⟨h1, h2⟩ := addDeps_adds hg₂ hm1
            obtain ⟨h3, h4⟩ := extraEdges_adds hg₁
            have h13 := h1.trans h3 (fun _ => Iff.rfl)
            obtain ⟨h5, h6, h7⟩ := addModules_adds h (fun x hx => by rw [h13.nodes]; exact hm x (by simp [hx]))
            rw [h13.nodes] at h6
            rw [h1.nodes] at h4
            have hiff : ∀ e, (∃ x ∈ m :: ms, (∃ d, Reads read schemas x.1 d ∧ Below read schemas x.1 d e) ∨ ∃ i ∈ x.2, e = (x.1, i)) ↔
                (Below read schemas m.1 d e ∨ ∃ i ∈ m.2, e = (m.1, i)) ∨
                ∃ x ∈ ms, (∃ d, Reads read schemas x.1 d ∧ Below read schemas x.1 d e) ∨ ∃ i ∈ x.2, e = (x.1, i) := by
              intro e
              constructor
              · rintro ⟨x, hx, he⟩
                rcases List.mem_cons.mp hx with rfl | hx
                · rcases he with ⟨d', hd', he⟩ | he
                  · rw [hd'.unique hr] at he
                    exact .inl (.inl he)
                  · exact .inl (.inr he)
                · exact .inr ⟨x, hx, he⟩
              · rintro ((he | he) | ⟨x, hx, he⟩)
                · exact ⟨m, by simp, .inl ⟨d, hr, he⟩⟩
                · exact ⟨m, by simp, .inr he⟩
                · exact ⟨x, by simp [hx], he⟩
            refine ⟨h13.trans h5 hiff, ?_, ?_⟩
            · intro e he
              rcases (hiff e).mp he with (he | ⟨i, hi, rfl⟩) | he
              · exact h2 e he
              · exact ⟨hm1, h4 i hi⟩
              · exact h6 e he
            · intro x hx
              rcases List.mem_cons.mp hx with rfl | hx
              · exact ⟨d, hr⟩
              · exact h7 x hx
          · rename_i hne
            exact absurd hg₁ (hne _)
    · rename_i hne
      exact absurd h (hne _)

/-! ## Nodes -/

theorem addNode_mem (g : Graph) (n m : String) : m ∈ (g.addNode n).nodes ↔ m ∈ g.nodes ∨ m = n := by
  unfold Graph.addNode
  split
  · rename_i h
    exact ⟨.inl, fun h' => h'.elim id fun e => e ▸ h⟩
  · simp

theorem addNode_edges (g : Graph) (n : String) : (g.addNode n).edges = g.edges := by
  unfold Graph.addNode
  split <;> rfl

theorem addNode_once (g : Graph) (n : String) (h : g.nodes.Nodup) : (g.addNode n).nodes.Nodup := by
  unfold Graph.addNode
  split
  · exact h
  · rename_i hn
    rw [List.nodup_append]
    exact ⟨h, by simp, fun x hx y hy e => hn (by rw [← List.mem_singleton.mp hy, ← e]; exact hx)⟩

theorem addSubs_mem (us : List Submodule) (m : String) : ∀ g : Graph, m ∈ (us.foldl (fun g u => g.addNode u.name) g).nodes ↔ m ∈ g.nodes ∨ ∃ u ∈ us, u.name = m := by
  induction us with
  | nil => simp
  | cons u us ih =>
    intro g
    rw [List.foldl_cons, ih, addNode_mem]
    constructor
    · rintro ((h | h) | ⟨x, hx, h⟩)
      · exact .inl h
      · exact .inr ⟨u, by simp, h.symm⟩
      · exact .inr ⟨x, by simp [hx], h⟩
    · rintro (h | ⟨x, hx, h⟩)
      · exact .inl (.inl h)
      · rcases List.mem_cons.mp hx with rfl | hx
        · exact .inl (.inr h.symm)
        · exact .inr ⟨x, hx, h⟩

theorem addSubs_edges (us : List Submodule) : ∀ g : Graph, (us.foldl (fun g u => g.addNode u.name) g).edges = g.edges := by
  induction us with
  | nil => simp
  | cons u us ih =>
    intro g
    rw [List.foldl_cons, ih, addNode_edges]

theorem addSubs_once (us : List Submodule) : ∀ g : Graph, g.nodes.Nodup → (us.foldl (fun g u => g.addNode u.name) g).nodes.Nodup := by
  induction us with
  | nil => exact fun g h => h
  | cons u us ih => exact fun g h => ih _ (addNode_once g _ h)

theorem addNodes_mem_name (g : Graph) (n : String) (us : List Submodule) : n ∈ (g.addNodes n us).nodes := by
  unfold Graph.addNodes
  split
  · assumption
  · rw [addSubs_mem, addNode_mem]
    exact .inl (.inr rfl)

theorem addNodes_of (g : Graph) (n m : String) (us : List Submodule) (h : m ∈ (g.addNodes n us).nodes) : m ∈ g.nodes ∨ m = n ∨ ∃ u ∈ us, u.name = m := by
  unfold Graph.addNodes at h
  split at h
  · exact .inl h
  · rw [addSubs_mem, addNode_mem] at h
    rcases h with (h | h) | h
    · exact .inl h
    · exact .inr (.inl h)
    · exact .inr (.inr h)

theorem addNodes_kept (g : Graph) (n m : String) (us : List Submodule) (h : m ∈ g.nodes) : m ∈ (g.addNodes n us).nodes := by
  unfold Graph.addNodes
  split
  · exact h
  · rw [addSubs_mem, addNode_mem]
    exact .inl (.inl h)

theorem addNodes_edges (g : Graph) (n : String) (us : List Submodule) : (g.addNodes n us).edges = g.edges := by
  unfold Graph.addNodes
  split
  · rfl
  · rw [addSubs_edges, addNode_edges]

theorem addNodes_once (g : Graph) (n : String) (us : List Submodule) (h : g.nodes.Nodup) : (g.addNodes n us).nodes.Nodup := by
  unfold Graph.addNodes
  split
  · exact h
  · exact addSubs_once _ _ (addNode_once _ _ h)

/-- heads with their submodules, in the order of `constructNodes` -/
def nodeHeads (lib : Library) : List (String × List Submodule) :=
  lib.sets.flatMap fun s => s.modules.map (fun m => (m.name, m.submodules)) ++ (s.imports.flatMap (·.2)).map fun m => (m.name, m.submodules)

theorem constructNodes_eq (lib : Library) : constructNodes lib = (nodeHeads lib).foldl (fun g x => g.addNodes x.1 x.2) ⟨[], []⟩ := by
  unfold constructNodes nodeHeads
  generalize (⟨[], []⟩ : Graph) = g
  induction lib.sets generalizing g with
  | nil => rfl
  | cons s ss ih =>
    rw [List.foldl_cons, List.flatMap_cons, List.foldl_append, List.foldl_append, List.foldl_map, List.foldl_map, ih]

theorem heads_mem (xs : List (String × List Submodule)) (m : String) : ∀ g : Graph, m ∈ (xs.foldl (fun g x => g.addNodes x.1 x.2) g).nodes →
    m ∈ g.nodes ∨ ∃ x ∈ xs, m = x.1 ∨ ∃ u ∈ x.2, u.name = m := by
  induction xs with
  | nil => exact fun g h => .inl h
  | cons x xs ih =>
    intro g h
    rcases ih _ h with h | ⟨y, hy, h⟩
    · rcases addNodes_of _ _ _ _ h with h | h
      · exact .inl h
      · exact .inr ⟨x, by simp, h⟩
    · exact .inr ⟨y, by simp [hy], h⟩

theorem heads_kept (xs : List (String × List Submodule)) (m : String) : ∀ g : Graph, m ∈ g.nodes → m ∈ (xs.foldl (fun g x => g.addNodes x.1 x.2) g).nodes := by
  induction xs with
  | nil => exact fun g h => h
  | cons x xs ih => exact fun g h => ih _ (addNodes_kept _ _ _ _ h)

theorem heads_in (xs : List (String × List Submodule)) {x : String × List Submodule} (hx : x ∈ xs) : ∀ g : Graph, x.1 ∈ (xs.foldl (fun g x => g.addNodes x.1 x.2) g).nodes := by
  induction xs with
  | nil => exact absurd hx (by simp)
  | cons y xs ih =>
    intro g
    rcases List.mem_cons.mp hx with rfl | hx
    · exact heads_kept xs _ _ (addNodes_mem_name _ _ _)
    · exact ih hx _

theorem heads_edges (xs : List (String × List Submodule)) : ∀ g : Graph, (xs.foldl (fun g x => g.addNodes x.1 x.2) g).edges = g.edges := by
  induction xs with
  | nil => exact fun g => rfl
  | cons x xs ih => exact fun g => (ih _).trans (addNodes_edges _ _ _)

theorem heads_once (xs : List (String × List Submodule)) : ∀ g : Graph, g.nodes.Nodup → (xs.foldl (fun g x => g.addNodes x.1 x.2) g).nodes.Nodup := by
  induction xs with
  | nil => exact fun g h => h
  | cons x xs ih => exact fun g h => ih _ (addNodes_once _ _ _ h)

theorem mem_nodeHeads {lib : Library} {x : String × List Submodule} :
    x ∈ nodeHeads lib ↔ (∃ m, IsModule lib m ∧ x = (m.name, m.submodules)) ∨ ∃ m, IsImport lib m ∧ x = (m.name, m.submodules) := by
  unfold nodeHeads IsModule IsImport
  simp only [List.mem_flatMap, List.mem_append, List.mem_map]
  constructor
  · rintro ⟨s, hs, ⟨m, hm, rfl⟩ | ⟨m, ⟨y, hy, hm⟩, rfl⟩⟩
    · exact .inl ⟨m, ⟨s, hs, hm⟩, rfl⟩
    · exact .inr ⟨m, ⟨s, hs, y, hy, hm⟩, rfl⟩
  · rintro (⟨m, ⟨s, hs, hm⟩, rfl⟩ | ⟨m, ⟨s, hs, y, hy, hm⟩, rfl⟩)
    · exact ⟨s, hs, .inl ⟨m, hm, rfl⟩⟩
    · exact ⟨s, hs, .inr ⟨m, ⟨y, hy, hm⟩, rfl⟩⟩

theorem mem_listedModules {lib : Library} {x : String × List String} :
    x ∈ listedModules lib ↔ (∃ m, IsModule lib m ∧ x = (m.name, m.augmentedBy ++ m.deviations)) ∨ ∃ m, IsImport lib m ∧ x = (m.name, []) := by
  unfold listedModules IsModule IsImport
  simp only [List.mem_flatMap, List.mem_append, List.mem_map]
  constructor
  · rintro ⟨s, hs, ⟨m, hm, rfl⟩ | ⟨m, ⟨y, hy, hm⟩, rfl⟩⟩
    · exact .inl ⟨m, ⟨s, hs, hm⟩, rfl⟩
    · exact .inr ⟨m, ⟨s, hs, y, hy, hm⟩, rfl⟩
  · rintro (⟨m, ⟨s, hs, hm⟩, rfl⟩ | ⟨m, ⟨s, hs, y, hy, hm⟩, rfl⟩)
    · exact ⟨s, hs, .inl ⟨m, hm, rfl⟩⟩
    · exact ⟨s, hs, .inr ⟨m, ⟨y, hy, hm⟩, rfl⟩⟩

theorem hasModule_iff {lib : Library} {n : String} : HasModule lib n ↔ ∃ m, IsModule lib m ∧ m.name = n :=
  ⟨fun ⟨s, hs, m, hm, e⟩ => ⟨m, ⟨s, hs, hm⟩, e⟩, fun ⟨m, ⟨s, hs, hm⟩, e⟩ => ⟨s, hs, m, hm, e⟩⟩

theorem hasImport_iff {lib : Library} {n : String} : HasImport lib n ↔ ∃ m, IsImport lib m ∧ m.name = n :=
  ⟨fun ⟨s, hs, x, hx, m, hm, e⟩ => ⟨m, ⟨s, hs, x, hx, hm⟩, e⟩, fun ⟨m, ⟨s, hs, x, hx, hm⟩, e⟩ => ⟨s, hs, x, hx, m, hm, e⟩⟩

theorem listed_iff {lib : Library} {n : String} : (HasModule lib n ∨ HasImport lib n) ↔ ∃ x ∈ listedModules lib, x.1 = n := by
  rw [hasModule_iff, hasImport_iff]
  simp only [mem_listedModules]
  constructor
  · rintro (⟨m, hm, rfl⟩ | ⟨m, hm, rfl⟩)
    · exact ⟨_, .inl ⟨m, hm, rfl⟩, rfl⟩
    · exact ⟨_, .inr ⟨m, hm, rfl⟩, rfl⟩
  · rintro ⟨x, ⟨m, hm, rfl⟩ | ⟨m, hm, rfl⟩, rfl⟩
    · exact .inl ⟨m, hm, rfl⟩
    · exact .inr ⟨m, hm, rfl⟩

theorem listed_node {lib : Library} {n : String} (h : HasModule lib n ∨ HasImport lib n) : n ∈ (constructNodes lib).nodes := by
  rw [constructNodes_eq]
  rw [hasModule_iff, hasImport_iff] at h
  rcases h with ⟨m, hm, rfl⟩ | ⟨m, hm, rfl⟩
  · exact heads_in _ (mem_nodeHeads.mpr (.inl ⟨m, hm, rfl⟩)) _
  · exact heads_in _ (mem_nodeHeads.mpr (.inr ⟨m, hm, rfl⟩)) _

theorem node_listed {lib : Library} {n : String} (h : n ∈ (constructNodes lib).nodes) : ∃ r, Lists lib n r := by
  rw [constructNodes_eq] at h
  rcases heads_mem _ _ _ h with h | ⟨x, hx, h⟩
  · exact absurd h (by simp)
  · rcases mem_nodeHeads.mp hx with ⟨m, ⟨s, hs, hm⟩, rfl⟩ | ⟨m, ⟨s, hs, y, hy, hm⟩, rfl⟩
    · rcases h with h | ⟨u, hu, h⟩
      · exact ⟨m.revision, s, hs, .inl ⟨m, hm, .inl ⟨h.symm, rfl⟩⟩⟩
      · exact ⟨u.revision, s, hs, .inl ⟨m, hm, .inr ⟨u, hu, h, rfl⟩⟩⟩
    · rcases h with h | ⟨u, hu, h⟩
      · exact ⟨m.revision, s, hs, .inr ⟨y, hy, m, hm, .inl ⟨h.symm, rfl⟩⟩⟩
      · exact ⟨u.revision, s, hs, .inr ⟨y, hy, m, hm, .inr ⟨u, hu, h, rfl⟩⟩⟩

theorem constructNodes_edges (lib : Library) : (constructNodes lib).edges = [] := by
  rw [constructNodes_eq, heads_edges]

theorem constructNodes_once (lib : Library) : (constructNodes lib).nodes.Nodup := by
  rw [constructNodes_eq]
  exact heads_once _ _ (by simp)

/-! ## All of the graph -/

theorem below_part {lib : Library} {read : String → Option Deps} {schemas : List (String × String)} {n : String} {d : Deps} {e : String × String}
    (hb : Below read schemas n d e) (hn : Part lib read schemas n) (hr : Reads read schemas n d) : Refers lib read schemas e.2 e.1 := by
  induction hb with
  | imports h => exact .inl ⟨hn, _, hr, .inl h⟩
  | includes h => exact .inl ⟨hn, _, hr, .inr h⟩
  | deep h hr' _ ih => exact ih (.included hn hr h) hr'

theorem part_below {lib : Library} {read : String → Option Deps} {schemas : List (String × String)} {n : String} (hn : Part lib read schemas n) :
    ∀ {d : Deps} {e : String × String}, Reads read schemas n d → Below read schemas n d e →
      ∃ n₀ d₀, (HasModule lib n₀ ∨ HasImport lib n₀) ∧ Reads read schemas n₀ d₀ ∧ Below read schemas n₀ d₀ e := by
  induction hn with
  | listed h => exact fun hr hb => ⟨_, _, h, hr, hb⟩
  | included _ hr hi ih => exact fun hr' hb => ih hr (.deep hi hr' hb)

/-- what the graph of a library is, if there is one -/
structure GraphOf (lib : Library) (read : String → Option Deps) (schemas : List (String × String)) (g : Graph) : Prop where
  nodes : g.nodes = (constructNodes lib).nodes
  once : g.edges.Nodup
  edges : ∀ a b, (a, b) ∈ g.edges ↔ Refers lib read schemas b a
  ends : ∀ a b, (a, b) ∈ g.edges → a ∈ g.nodes ∧ b ∈ g.nodes
  reads : ∀ n, HasModule lib n ∨ HasImport lib n → ∃ d, Reads read schemas n d
  parts : ∀ n, Part lib read schemas n → n ∈ g.nodes

theorem toGraph_is {lib : Library} {read : String → Option Deps} {schemas : List (String × String)} {n : Nat} {g : Graph} (h : toGraph lib read schemas n = some (.ok g)) :
    GraphOf lib read schemas g := by
  unfold toGraph at h
  obtain ⟨h1, h2, h3⟩ := addModules_adds h (fun m hm => listed_node (listed_iff.mpr ⟨m, hm, rfl⟩))
  have hr : ∀ n, HasModule lib n ∨ HasImport lib n → ∃ d, Reads read schemas n d := by
    intro n hn
    obtain ⟨x, hx, rfl⟩ := listed_iff.mp hn
    exact h3 x hx
  have he : ∀ a b, (a, b) ∈ g.edges ↔ Refers lib read schemas b a := by
    intro a b
    rw [h1.edges, constructNodes_edges]
    constructor
    · rintro (h | ⟨m, hm, ⟨d, hd, hb⟩ | ⟨i, hi, he⟩⟩)
      · exact absurd h (by simp)
      · exact below_part hb (.listed (listed_iff.mpr ⟨m, hm, rfl⟩)) hd
      · obtain ⟨rfl, rfl⟩ := Prod.mk.inj he
        rcases mem_listedModules.mp hm with ⟨x, hx, rfl⟩ | ⟨x, hx, rfl⟩
        · exact .inr ⟨x, hx, rfl, List.mem_append.mp hi⟩
        · exact absurd hi (by simp)
    · rintro (⟨hp, d, hd, hm⟩ | ⟨x, hx, rfl, hi⟩)
      · have hb : Below read schemas b d (a, b) := hm.elim .imports .includes
        obtain ⟨n₀, d₀, hl, hr₀, hb₀⟩ := part_below hp hd hb
        obtain ⟨m, hm, rfl⟩ := listed_iff.mp hl
        exact .inr ⟨m, hm, .inl ⟨d₀, hr₀, hb₀⟩⟩
      · exact .inr ⟨_, mem_listedModules.mpr (.inl ⟨x, hx, rfl⟩), .inr ⟨b, List.mem_append.mpr hi, rfl⟩⟩
  have hends : ∀ a b, (a, b) ∈ g.edges → a ∈ g.nodes ∧ b ∈ g.nodes := by
    intro a b hab
    rw [h1.nodes]
    rw [h1.edges, constructNodes_edges] at hab
    rcases hab with hab | hab
    · exact absurd hab (by simp)
    · exact h2 _ hab
  refine ⟨h1.nodes, h1.once (by rw [constructNodes_edges]; exact List.nodup_nil), he, hends, hr, ?_⟩
  intro n hn
  cases hn with
  | listed h => rw [h1.nodes]; exact listed_node h
  | included hp hd hi => exact (hends _ _ ((he _ _).mpr (.inl ⟨hp, _, hd, .inr hi⟩))).1

end Verif.YangPush.Register
