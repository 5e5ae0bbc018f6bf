import Verif.Collector.InventorySpec
import Verif.Collector.Ledger
/-!
# Lemmas about the inventory
-/
namespace Verif.Collector.Inventory
open Hist MapFile
variable {A T : Type} [DecidableEq A]

theorem listed_snoc (ms : List (Option (SonataData A))) (m : Option (SonataData A)) (id : UInt32) (n : SonataNode A) :
    Listed (ms ++ [m]) id n ↔ (Listed ms id n ∧ ¬ Concerns m id) ∨ ∃ d, m = some d ∧ d.operation ≠ .delete ∧ d.idNode = id ∧ d.node = some n := by
  constructor
  · rintro ⟨pre, d, post, h, h1, h2, h3, h4⟩
    rcases List.eq_nil_or_concat post with rfl | ⟨post', o2, rfl⟩
    · obtain ⟨-, e⟩ := List.append_inj' h rfl
      simp only [List.cons.injEq, and_true] at e
      exact .inr ⟨d, e, h1, h2, h3⟩
    · rw [List.concat_eq_append, ← List.cons_append, ← List.append_assoc] at h
      obtain ⟨e1, e2⟩ := List.append_inj' h rfl
      simp only [List.cons.injEq, and_true] at e2
      subst e2
      exact .inl ⟨⟨pre, d, post', e1, h1, h2, h3, fun m hm => h4 m (by simp [hm])⟩, h4 m (by simp)⟩
  · rintro (⟨⟨pre, d, post, rfl, h1, h2, h3, h4⟩, h5⟩ | ⟨d, rfl, h1, h2, h3⟩)
    · refine ⟨pre, d, post ++ [m], by simp, h1, h2, h3, fun m' hm => ?_⟩
      rcases List.mem_append.mp hm with hm | hm
      · exact h4 m' hm
      · simp only [List.mem_singleton] at hm
        subst hm; exact h5
    · exact ⟨ms, d, [], rfl, h1, h2, h3, by simp⟩

theorem listed_unique {ms : List (Option (SonataData A))} {id : UInt32} {n n' : SonataNode A} (h : Listed ms id n) (h' : Listed ms id n') : n = n' := by
  induction ms using snoc_induction with
  | nil => obtain ⟨pre, d, post, e, -⟩ := h; simp at e
  | append_singleton ms m ih =>
    rcases (listed_snoc _ _ _ _).mp h with ⟨h1, h2⟩ | ⟨d, rfl, h1, h2, h3⟩ <;> rcases (listed_snoc _ _ _ _).mp h' with ⟨g1, g2⟩ | ⟨d', e, g1, g2, g3⟩
    · exact ih h1 g1
    · exact absurd ⟨d', e, g2, .inr (by rw [g3]; simp)⟩ h2
    · exact absurd ⟨d, rfl, h2, .inr (by rw [h3]; simp)⟩ g2
    · simp only [Option.some.injEq] at e
      subst e
      rw [h3] at g3; simpa using g3

/-- the state after messages -/
def cacheAfter (valid : T → Bool) (remove : A → T) (set : SonataNode A → T) : List (Option (SonataData A)) → List (UInt32 × A) → List (UInt32 × A)
  | [], c => c
  | none :: ms, c => cacheAfter valid remove set ms c
  | some d :: ms, c => cacheAfter valid remove set ms (d.handle valid remove set c).2

/-- the operations for one message -/
def stepOps (valid : T → Bool) (remove : A → T) (set : SonataNode A → T) (m : Option (SonataData A)) (c : List (UInt32 × A)) : List T :=
  match m with
  | none => []
  | some d => (d.handle valid remove set c).1.getD []

theorem run_snoc (valid : T → Bool) (remove : A → T) (set : SonataNode A → T) (ms : List (Option (SonataData A))) (m : Option (SonataData A)) (c : List (UInt32 × A)) :
    sonataRun valid remove set (ms ++ [m]) c = sonataRun valid remove set ms c ++ stepOps valid remove set m (cacheAfter valid remove set ms c) ∧
    cacheAfter valid remove set (ms ++ [m]) c = cacheAfter valid remove set [m] (cacheAfter valid remove set ms c) := by
  induction ms generalizing c with
  | nil =>
    refine ⟨?_, rfl⟩
    cases m <;> simp [sonataRun, cacheAfter, stepOps]
  | cons x ms ih =>
    cases x with
    | none => exact ih c
    | some d =>
      refine ⟨?_, (ih _).2⟩
      have h := (ih (d.handle valid remove set c).2).1
      rw [List.cons_append]
      simp only [sonataRun, cacheAfter]
      rw [h, List.append_assoc]

/-- the addresses that are remembered are those of the nodes that are listed -/
theorem cache_listed (valid : T → Bool) (remove : A → T) (set : SonataNode A → T) (ms : List (Option (SonataData A))) (id : UInt32) (a : A) :
    (cacheAfter valid remove set ms []).look id = some a ↔ ∃ n, Listed ms id n ∧ n.loopback = a := by
  induction ms using snoc_induction generalizing id a with
  | nil =>
    simp only [cacheAfter, look_nil, reduceCtorEq, false_iff]
    rintro ⟨n, ⟨pre, d, post, e, -⟩, -⟩
    simp at e
  | append_singleton ms m ih =>
    rw [(run_snoc valid remove set ms m []).2]
    simp only [listed_snoc]
    cases m with
    | none =>
      simp only [cacheAfter, ih]
      refine exists_congr fun n => and_congr_left fun _ => ⟨fun h => .inl ⟨h, ?_⟩, ?_⟩
      · rintro ⟨d, e, -⟩; simp at e
      · rintro (⟨h, -⟩ | ⟨d, e, -⟩)
        · exact h
        · simp at e
    | some d =>
      simp only [cacheAfter]
      -- whether the message is about the node
      by_cases hc : Concerns (some d) id
      · have hc0 := hc
        obtain ⟨_, e, rfl, hd⟩ := hc0
        simp only [Option.some.injEq] at e
        subst e
        by_cases hdel : d.operation = .delete
        · unfold SonataData.handle
          rw [hdel]
          have : (del (cacheAfter valid remove set ms []) d.idNode).look d.idNode = none := by simp [lookup_del]
          have hno : ¬ ∃ n, ((Listed ms d.idNode n ∧ ¬Concerns (some d) d.idNode) ∨
              ∃ d_1, some d = some d_1 ∧ d_1.operation ≠ SonataOperation.delete ∧ d_1.idNode = d.idNode ∧ d_1.node = some n) ∧ n.loopback = a := by
            rintro ⟨n, ⟨-, h⟩ | ⟨_, e, h, -⟩, -⟩
            · exact h hc
            · simp only [Option.some.injEq] at e
              subst e; exact h hdel
          cases hl : (cacheAfter valid remove set ms []).look d.idNode <;> simp only [this] <;> simp only [reduceCtorEq, false_iff] <;> exact hno
        · have hn : d.node ≠ none := hd.resolve_left hdel
          obtain ⟨n, hn⟩ := Option.ne_none_iff_exists'.mp hn
          have : (d.handle valid remove set (cacheAfter valid remove set ms [])).2 = put (cacheAfter valid remove set ms []) d.idNode n.loopback := by
            unfold SonataData.handle
            rw [hn]
            cases h : d.operation with
            | delete => exact absurd h hdel
            | insert => rfl
            | update => rfl
          rw [this, lookup_put, if_pos rfl]
          constructor
          · rintro h
            simp only [Option.some.injEq] at h
            exact ⟨n, .inr ⟨d, rfl, hdel, rfl, hn⟩, h⟩
          · rintro ⟨n', ⟨-, h⟩ | ⟨_, e, -, -, h⟩, rfl⟩
            · exact absurd hc h
            · simp only [Option.some.injEq] at e
              subst e
              rw [hn] at h
              simp only [Option.some.injEq] at h
              rw [h]
      · have : (d.handle valid remove set (cacheAfter valid remove set ms [])).2.look id = (cacheAfter valid remove set ms []).look id := by
          unfold SonataData.handle
          by_cases hi : d.idNode = id
          · have hdel : d.operation ≠ .delete := fun h => hc ⟨d, rfl, hi, .inl h⟩
            have hn : d.node = none := Classical.byContradiction fun h => hc ⟨d, rfl, hi, .inr h⟩
            rw [hn]
            cases h : d.operation with
            | delete => exact absurd h hdel
            | insert => rfl
            | update => rfl
          · cases h : d.operation with
            | delete => cases hl : (cacheAfter valid remove set ms []).look d.idNode <;> simp [lookup_del, hi]
            | insert => cases hn : d.node <;> simp [lookup_put, hi]
            | update => cases hn : d.node <;> simp [lookup_put, hi]
        rw [this, ih]
        refine exists_congr fun n => and_congr_left fun _ => ⟨fun h => .inl ⟨h, hc⟩, ?_⟩
        rintro (⟨h, -⟩ | ⟨_, e, h1, h2, h3⟩)
        · exact h
        · simp only [Option.some.injEq] at e
          subst e
          exact absurd ⟨d, rfl, h2, .inr (by rw [h3]; simp)⟩ hc

/-- what one message sends -/
theorem step_cases {valid : T → Bool} {remove : A → T} {set : SonataNode A → T} (hv : ∀ a, valid (remove a) = true) (hv' : ∀ n, valid (set n) = true)
    (m : Option (SonataData A)) (c : List (UInt32 × A)) :
    (stepOps valid remove set m c = [] ∧ ∀ id a, c.look id = some a → ¬ Concerns m id) ∨
    (∃ d a, m = some d ∧ d.operation = .delete ∧ c.look d.idNode = some a ∧ stepOps valid remove set m c = [remove a]) ∨
    (∃ d n, m = some d ∧ d.operation ≠ .delete ∧ d.node = some n ∧
      stepOps valid remove set m c = (match c.look d.idNode with | some a => if n.loopback ≠ a then [remove a] else [] | none => []) ++ [set n]) := by
  cases m with
  | none => exact .inl ⟨rfl, fun id a _ ⟨d, e, _⟩ => by simp at e⟩
  | some d =>
    by_cases hdel : d.operation = .delete
    · cases hl : c.look d.idNode with
      | none =>
        refine .inl ⟨by simp [stepOps, SonataData.handle, hdel, hl], ?_⟩
        rintro id a h ⟨_, e, rfl, -⟩
        simp only [Option.some.injEq] at e
        subst e
        rw [hl] at h; simp at h
      | some a => exact .inr (.inl ⟨d, a, rfl, hdel, hl, by simp [stepOps, SonataData.handle, hdel, hl, hv]⟩)
    · cases hn : d.node with
      | none =>
        refine .inl ⟨?_, ?_⟩
        · simp only [stepOps, SonataData.handle, hn]
          cases h : d.operation with
          | delete => exact absurd h hdel
          | insert => rfl
          | update => rfl
        · rintro id a h ⟨_, e, -, h'⟩
          simp only [Option.some.injEq] at e
          subst e
          rcases h' with h' | h'
          · exact hdel h'
          · exact h' hn
      | some n =>
        refine .inr (.inr ⟨d, n, rfl, hdel, hn, ?_⟩)
        have hf : ∀ l : List T, (∀ x ∈ l, valid x = true) → (l ++ [set n]).filter valid = l ++ [set n] := by
          intro l hl
          refine List.filter_eq_self.mpr fun x hx => ?_
          rcases List.mem_append.mp hx with hx | hx
          · exact hl x hx
          · simp only [List.mem_singleton] at hx; subst hx; exact hv' n
        have hgo : ∀ op, op ≠ SonataOperation.delete → d.operation = op → stepOps valid remove set (some d) c =
            (match c.look d.idNode with | some a => if n.loopback ≠ a then [remove a] else [] | none => []) ++ [set n] := by
          intro op hop he
          simp only [stepOps, SonataData.handle, hn, he]
          cases op with
          | delete => exact absurd rfl hop
          | insert =>
            simp only [Option.getD_some]
            apply hf
            intro x hx
            cases hl : c.look d.idNode with
            | none => rw [hl] at hx; simp at hx
            | some a =>
              rw [hl] at hx
              simp only at hx
              split at hx
              · simp only [List.mem_singleton] at hx; subst hx; exact hv a
              · simp at hx
          | update =>
            simp only [Option.getD_some]
            apply hf
            intro x hx
            cases hl : c.look d.idNode with
            | none => rw [hl] at hx; simp at hx
            | some a =>
              rw [hl] at hx
              simp only at hx
              split at hx
              · simp only [List.mem_singleton] at hx; subst hx; exact hv a
              · simp at hx
        exact hgo _ hdel rfl

section
variable {P W V : Type} {puts : T → P → W → V → Prop} {ends : T → P → W → Prop}
variable {valid : T → Bool} {remove : A → T} {set : SonataNode A → T} (hv : ∀ a, valid (remove a) = true) (hv' : ∀ n, valid (set n) = true)
include hv hv'

/-- only what the nodes are that are listed survives -/
theorem inventory_sound (h1 : ∀ n p w f, puts (set n) p w f → ends (remove n.loopback) p w)
    (h2 : ∀ n n' p w f, puts (set n) p w f → n'.loopback = n.loopback → ends (set n') p w) (h3 : ∀ a p w f, ¬ puts (remove a) p w f)
    (ms : List (Option (SonataData A))) (p : P) (w : W) (f : V) (hs : SurvivesIn puts ends (sonataRun valid remove set ms []) p w f) :
    ∃ id n, Listed ms id n ∧ puts (set n) p w f := by
  induction ms using snoc_induction with
  | nil => exact absurd hs (not_in_nil _ _ _)
  | append_singleton ms m ih =>
    rw [(run_snoc valid remove set ms m []).1] at hs
    have hcache := cache_listed valid remove set ms
    generalize cacheAfter valid remove set ms [] = c at hs hcache
    rcases step_cases hv hv' m c with ⟨e, hno⟩ | ⟨d, a, rfl, hd, hl, e⟩ | ⟨d, n, rfl, hd, hn, e⟩
    · rw [e, List.append_nil] at hs
      obtain ⟨id, n, g1, g2⟩ := ih hs
      exact ⟨id, n, (listed_snoc _ _ _ _).mpr (.inl ⟨g1, hno id _ ((hcache id n.loopback).mpr ⟨n, g1, rfl⟩)⟩), g2⟩
    · rw [e] at hs
      rcases (in_append _ _ _ _ _).mp hs with hs | ⟨hs, hne⟩
      · exact absurd ((in_single _ _ _ _).mp hs) (h3 _ _ _ _)
      · obtain ⟨id, n, g1, g2⟩ := ih hs
        refine ⟨id, n, (listed_snoc _ _ _ _).mpr (.inl ⟨g1, ?_⟩), g2⟩
        rintro ⟨_, e', rfl, -⟩
        simp only [Option.some.injEq] at e'
        subst e'
        obtain ⟨n', g3, rfl⟩ := (hcache _ _).mp hl
        rw [listed_unique g3 g1] at hne
        exact hne _ (by simp) (h1 _ _ _ _ g2)
    · rw [e] at hs
      rcases (in_append _ _ _ _ _).mp hs with hs | ⟨hs, hne⟩
      · rcases (in_append _ _ _ _ _).mp hs with hs | ⟨hs, -⟩
        · exact ⟨d.idNode, n, (listed_snoc _ _ _ _).mpr (.inr ⟨d, rfl, hd, rfl, hn⟩), (in_single _ _ _ _).mp hs⟩
        · exfalso
          cases hl : c.look d.idNode with
          | none => rw [hl] at hs; exact not_in_nil _ _ _ hs
          | some a =>
            rw [hl] at hs
            simp only at hs
            split at hs
            · exact h3 _ _ _ _ ((in_single _ _ _ _).mp hs)
            · exact not_in_nil _ _ _ hs
      · obtain ⟨id, n', g1, g2⟩ := ih hs
        refine ⟨id, n', (listed_snoc _ _ _ _).mpr (.inl ⟨g1, ?_⟩), g2⟩
        rintro ⟨_, e', rfl, -⟩
        simp only [Option.some.injEq] at e'
        subst e'
        have hl := (hcache d.idNode n'.loopback).mpr ⟨n', g1, rfl⟩
        rw [hl] at hne
        by_cases heq : n.loopback = n'.loopback
        · exact hne (set n) (by simp) (h2 n' n _ _ _ g2 heq)
        · exact hne (remove n'.loopback) (by simp [heq]) (h1 _ _ _ _ g2)

/-- what the nodes are that are listed survives, if they have different addresses -/
theorem inventory_complete (h4 : ∀ n a p w f, puts (set n) p w f → ends (remove a) p w → a = n.loopback)
    (h5 : ∀ n n' p w f, puts (set n) p w f → ends (set n') p w → n'.loopback = n.loopback)
    (ms : List (Option (SonataData A))) (hd : Distinct ms) (id : UInt32) (n : SonataNode A) (hl : Listed ms id n) (p : P) (w : W) (f : V) (hp : puts (set n) p w f) :
    SurvivesIn puts ends (sonataRun valid remove set ms []) p w f := by
  induction ms using snoc_induction generalizing id n with
  | nil => obtain ⟨pre, d, post, e, -⟩ := hl; simp at e
  | append_singleton ms m ih =>
    have hd' : Distinct ms := fun ms' h => hd ms' (h.trans (List.prefix_append _ _))
    have hnow := hd _ (List.prefix_refl _)
    rw [(run_snoc valid remove set ms m []).1]
    have hcache := cache_listed valid remove set ms
    generalize cacheAfter valid remove set ms [] = c at hcache
    have hl0 := hl
    rcases (listed_snoc _ _ _ _).mp hl with ⟨g1, g2⟩ | ⟨d, rfl, k1, k2, k3⟩
    · have ih := ih hd' id n g1 hp
      -- what is removed belongs to another node
      have hother : ∀ d a, m = some d → (d.operation = .delete ∨ d.node ≠ none) → c.look d.idNode = some a → ¬ ends (remove a) p w := by
        intro d a hm hc hla he
        obtain ⟨n', g3, rfl⟩ := (hcache _ _).mp hla
        have := hd' _ (List.prefix_refl _) _ _ _ _ g3 g1 (h4 _ _ _ _ _ hp he)
        exact g2 ⟨d, hm, this, hc⟩
      rcases step_cases hv hv' m c with ⟨e, -⟩ | ⟨d, a, rfl, k1, k2, e⟩ | ⟨d, n', rfl, k1, k2, e⟩
      · rw [e, List.append_nil]; exact ih
      · rw [e]
        refine (in_append _ _ _ _ _).mpr (.inr ⟨ih, fun o ho => ?_⟩)
        simp only [List.mem_singleton] at ho
        subst ho
        exact hother d a rfl (.inl k1) k2
      · rw [e]
        refine (in_append _ _ _ _ _).mpr (.inr ⟨ih, fun o ho => ?_⟩)
        rcases List.mem_append.mp ho with ho | ho
        · cases hla : c.look d.idNode with
          | none => rw [hla] at ho; simp at ho
          | some a =>
            rw [hla] at ho
            simp only at ho
            split at ho
            · simp only [List.mem_singleton] at ho
              subst ho
              exact hother d a rfl (.inr (by rw [k2]; simp)) hla
            · simp at ho
        · simp only [List.mem_singleton] at ho
          subst ho
          intro he
          have := hnow _ _ _ _ ((listed_snoc _ _ _ _).mpr (.inr ⟨d, rfl, k1, rfl, k2⟩)) hl0 (h5 _ _ _ _ _ hp he)
          exact g2 ⟨d, rfl, this, .inr (by rw [k2]; simp)⟩
    · rcases step_cases hv hv' (some d) c with ⟨e, hno⟩ | ⟨_, a, e, j1, -, -⟩ | ⟨_, n', e, -, j2, e'⟩
      · exfalso
        have : stepOps valid remove set (some d) c ≠ [] := by
          intro h
          rcases step_cases hv hv' (some d) c with ⟨-, -⟩ | ⟨_, a, e, j1, -, -⟩ | ⟨_, n', e, -, j2, e'⟩
          · cases hop : d.operation with
            | delete => exact k1 hop
            | insert => rw [stepOps, SonataData.handle] at h; simp only [hop, k3, Option.getD_some] at h; simp [hv'] at h
            | update => rw [stepOps, SonataData.handle] at h; simp only [hop, k3, Option.getD_some] at h; simp [hv'] at h
          · simp only [Option.some.injEq] at e
            subst e; exact k1 j1
          · rw [e'] at h; simp at h
        exact this e
      · simp only [Option.some.injEq] at e
        subst e; exact absurd j1 k1
      · simp only [Option.some.injEq] at e
        subst e
        rw [k3] at j2
        simp only [Option.some.injEq] at j2
        subst j2
        rw [e', ← List.append_assoc]
        exact (in_append _ _ _ _ _).mpr (.inl ((in_single _ _ _ _).mpr hp))
end

end Verif.Collector.Inventory
