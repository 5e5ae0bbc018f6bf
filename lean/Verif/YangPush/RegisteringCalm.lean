import Verif.YangPush.RegisteringWhole
/-! # Registering does not panic, and sorting is possible -/
namespace Verif.YangPush.Register
open Collector Load

theorem importEdges_error {lib : Library} {cur : String} : ∀ {is : List String} {g : Graph} {f : Failure}, importEdges lib cur g is = .error f → f = .graph
  | [], _, _, h => nomatch h
  | i :: is, g, f, h => by
    unfold importEdges at h
    split at h
    · exact importEdges_error h
    · cases h; rfl

theorem extraEdges_error {lib : Library} {cur : String} : ∀ {is : List String} {g : Graph} {f : Failure}, extraEdges lib cur g is = .error f → f = .graph
  | [], _, _, h => nomatch h
  | i :: is, g, f, h => by
    unfold extraEdges at h
    split at h
    · exact extraEdges_error h
    · cases h; rfl

theorem includeEdges_calm {lib : Library} {read : String → Option Deps} {schemas : List (String × String)} (htexts : ∀ n r, Lists lib n r → ∃ text, schemas.look n = some text)
    {below : Graph → String → Deps → Option (Except Failure Graph)} (hb : ∀ g i d f, below g i d = some (.error f) → f = .graph) {cur : String} :
    ∀ {is : List String} {g : Graph} {f : Failure}, includeEdges lib read schemas below cur g is = some (.error f) → f = .graph
  | [], _, _, h => by simp [includeEdges] at h
  | i :: is, g, f, h => by
    unfold includeEdges at h
    split at h
    · rename_i hc
      split at h
      · rename_i hnone
        obtain ⟨r, hr⟩ := hasSubmodule_listed (findSubmodule_some_iff.mp hc.1)
        obtain ⟨text, ht⟩ := htexts i r hr
        rw [hnone] at ht
        cases ht
      · split at h
        · cases h; rfl
        · split at h
          · exact includeEdges_calm htexts hb h
          · exact hb _ _ _ _ h
    · cases h; rfl

theorem addDeps_calm {lib : Library} {read : String → Option Deps} {schemas : List (String × String)} (htexts : ∀ n r, Lists lib n r → ∃ text, schemas.look n = some text) :
    ∀ {n : Nat} {g : Graph} {cur : String} {d : Deps} {f : Failure}, addDeps lib read schemas n g cur d = some (.error f) → f = .graph
  | 0, _, _, _, _, h => by simp [addDeps] at h
  | n + 1, g, cur, d, f, h => by
    unfold addDeps at h
    split at h
    · rename_i he
      cases h
      exact importEdges_error he
    · exact includeEdges_calm htexts (fun _ _ _ _ h => addDeps_calm htexts h) h

theorem addModules_calm {lib : Library} {read : String → Option Deps} {schemas : List (String × String)} (htexts : ∀ n r, Lists lib n r → ∃ text, schemas.look n = some text) {n : Nat} :
    ∀ {ms : List (String × List String)} {g : Graph} {f : Failure}, addModules lib read schemas n g ms = some (.error f) → f = .graph
  | [], _, _, h => by simp [addModules] at h
  | m :: ms, g, f, h => by
    unfold addModules at h
    split at h
    · exact addModules_calm htexts h
    · unfold addModule at h
      split at h
      · cases h; rfl
      · split at h
        · cases h; rfl
        · split at h
          · exact extraEdges_error (Option.some.inj h)
          · exact addDeps_calm htexts h

theorem registerRetry_calm {c : Registry σ} (hc : ∀ s subject e s' r, c.register s subject e = (s', some r) → r.id ≠ none) {s s' : σ} {subject : String} {e : Entry} {f : Failure}
    (h : registerRetry c s subject e = (s', .error f)) : f = .refused := by
  unfold registerRetry at h
  split at h
  · rename_i s₁ r h1
    split at h
    · split at h
      · rename_i hid
        exact absurd hid (hc _ _ _ _ _ h1)
      · split at h
        · cases h; rfl
        · split at h
          · cases h; rfl
          · simp at h
    · simp at h
  · split at h
    · cases h; rfl
    · split at h
      · cases h; rfl
      · simp at h

theorem nodup_eraseDups' : ∀ (n : Nat) (l : List String), l.length ≤ n → l.eraseDups.Nodup
  | _, [], _ => by simp
  | 0, _ :: _, h => absurd h (by simp)
  | n + 1, a :: l, h => by
    rw [List.eraseDups_cons, List.nodup_cons]
    refine ⟨?_, nodup_eraseDups' n _ ?_⟩
    · rw [List.mem_eraseDups]
      simp
    · have := List.length_filter_le (fun b => !b == a) l
      simp only [List.length_cons] at h
      omega

open Classical in
/-- nodes in the order of how many there are before them -/
noncomputable def someSort (g : Graph) : Except String (List String) :=
  if ∃ a, Relation.TransGen (fun a b => (a, b) ∈ g.edges) a a then .error ""
  else .ok (g.nodes.eraseDups.mergeSort fun a b => decide (rank g.nodes (fun a b => (b, a) ∈ g.edges) a ≤ rank g.nodes (fun a b => (b, a) ∈ g.edges) b))

/-- there is something that sorts -/
theorem someSort_sorts : Sorts someSort := by
  refine ⟨?_, ?_, ?_⟩
  · intro g order h
    unfold someSort at h
    split at h
    · cases h
    · cases h
      exact ⟨(List.mergeSort_perm _ _).nodup_iff.mpr (nodup_eraseDups' _ _ (Nat.le_refl _)), fun n => by rw [List.mem_mergeSort, List.mem_eraseDups]⟩
  · intro g order h a b before rest hab he ha
    unfold someSort at h
    split at h
    · cases h
    · rename_i hno
      have h' := Except.ok.inj h
      have hacyc : ∀ x, ¬Relation.TransGen (fun a b => (b, a) ∈ g.edges) x x := fun x hx => hno ⟨x, TransGen.flip (fun _ _ h => h) hx⟩
      have hmem : a ∈ order := by rw [← h', List.mem_mergeSort, List.mem_eraseDups]; exact ha
      have hpair : order.Pairwise fun a b => rank g.nodes (fun a b => (b, a) ∈ g.edges) a ≤ rank g.nodes (fun a b => (b, a) ∈ g.edges) b := by
        rw [← h']
        refine (List.pairwise_mergeSort (le := fun a b => decide (rank g.nodes (fun a b => (b, a) ∈ g.edges) a ≤ rank g.nodes (fun a b => (b, a) ∈ g.edges) b)) ?_ ?_ _).imp ?_
        · intro x y z hxy hyz
          exact decide_eq_true (Nat.le_trans (of_decide_eq_true hxy) (of_decide_eq_true hyz))
        · intro x y
          rcases Nat.le_total (rank g.nodes (fun a b => (b, a) ∈ g.edges) x) (rank g.nodes (fun a b => (b, a) ∈ g.edges) y) with h | h <;> simp [h]
        · intro x y hxy
          exact of_decide_eq_true hxy
      have hlt : rank g.nodes (fun a b => (b, a) ∈ g.edges) a < rank g.nodes (fun a b => (b, a) ∈ g.edges) b := rank_lt hacyc ha hab
      rw [he] at hmem hpair
      rcases List.mem_append.mp hmem with hm | hm
      · exact hm
      · rcases List.mem_cons.mp hm with rfl | hm
        · omega
        · have := (List.pairwise_cons.mp (List.pairwise_append.mp hpair).2.1).1 a hm
          omega
  · intro g x h
    unfold someSort at h
    split at h
    · assumption
    · cases h

end Verif.YangPush.Register
