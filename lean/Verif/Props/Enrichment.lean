import Verif.Collector.LookupLemmas
import Verif.Collector.Spec
/-!
# The enrichment cache of the flow collector

C89–C94.
-/
namespace Verif.Props
open Collector Collector.Hist

variable {A F I : Type} [DecidableEq A] [DecidableEq F] [DecidableEq I] [HasIe F I] [FieldOrd F I]

namespace En89
/-- fields that are pairs of an element and a value -/
instance : HasIe (Nat × Nat) Nat := ⟨Prod.fst⟩

/-- in the order of the element, its occurrence and the value -/
def code (a : FieldRef Nat × (Nat × Nat)) : List Nat := [a.1.ie, a.1.index, a.2.1, a.2.2]

def lexLt : List Nat → List Nat → Bool
  | a :: as, b :: bs => a < b || (a = b && lexLt as bs)
  | [], _ :: _ => true
  | _, [] => false

theorem lexLt_irrefl (a : List Nat) : lexLt a a = false := by
  induction a with
  | nil => rfl
  | cons x a ih => simp [lexLt, ih]

theorem lexLt_trans {a b c : List Nat} (h1 : lexLt a b = true) (h2 : lexLt b c = true) : lexLt a c = true := by
  induction a generalizing b c with
  | nil =>
    cases c with
    | nil => cases b <;> simp [lexLt] at h2
    | cons z c => rfl
  | cons x a ih =>
    cases b with
    | nil => simp [lexLt] at h1
    | cons y b =>
      cases c with
      | nil => simp [lexLt] at h2
      | cons z c =>
        simp only [lexLt, Bool.or_eq_true, Bool.and_eq_true, decide_eq_true_eq] at h1 h2 ⊢
        rcases h1 with h1 | ⟨rfl, h1⟩
        · rcases h2 with h2 | ⟨rfl, h2⟩
          · exact .inl (by omega)
          · exact .inl h1
        · rcases h2 with h2 | ⟨rfl, h2⟩
          · exact .inl h2
          · exact .inr ⟨rfl, ih h1 h2⟩

theorem lexLt_total {a b : List Nat} (h : lexLt a b = false) (hne : a ≠ b) : lexLt b a = true := by
  induction a generalizing b with
  | nil =>
    cases b with
    | nil => exact absurd rfl hne
    | cons y b => simp [lexLt] at h
  | cons x a ih =>
    cases b with
    | nil => rfl
    | cons y b =>
      simp only [lexLt, Bool.or_eq_false_iff, Bool.and_eq_false_iff, decide_eq_false_iff_not] at h
      simp only [lexLt, Bool.or_eq_true, Bool.and_eq_true, decide_eq_true_eq]
      by_cases e : x = y
      · subst e
        refine .inr ⟨rfl, ih ?_ fun e => hne (by rw [e])⟩
        rcases h.2 with h | h
        · exact absurd rfl h
        · exact h
      · exact .inl (by omega)

instance : FieldOrd (Nat × Nat) Nat where
  lt a b := lexLt (code a) (code b)
  irrefl _ := lexLt_irrefl _
  trans h1 h2 := lexLt_trans h1 h2
  total h hne := lexLt_total h fun e => hne (by
    rename_i a b
    obtain ⟨⟨a1, a2⟩, a3, a4⟩ := a
    obtain ⟨⟨b1, b2⟩, b3, b4⟩ := b
    simp only [code, List.cons.injEq, and_true] at e
    obtain ⟨rfl, rfl, rfl, rfl⟩ := e
    rfl)
end En89

/-! ## C89 -/

omit [DecidableEq A] [DecidableEq F] [FieldOrd F I] in
theorem survives_snoc (ops : List (Op A F I)) (o : Op A F I) (p : Place A F I) (w : UInt8) (f : F) :
    Survives (ops ++ [o]) p w f ↔ (Survives ops p w f ∧ ¬ Ends o p w) ∨ Puts o p w f := by
  constructor
  · rintro ⟨pre, o1, post, h, h1, h2⟩
    rcases List.eq_nil_or_concat post with rfl | ⟨post', o2, rfl⟩
    · obtain ⟨-, e⟩ := List.append_inj' h rfl
      simp only [List.cons.injEq, and_true] at e
      rw [e]; exact .inr h1
    · rw [List.concat_eq_append, ← List.cons_append, ← List.append_assoc] at h
      obtain ⟨e1, e2⟩ := List.append_inj' h rfl
      simp only [List.cons.injEq, and_true] at e2
      subst e2
      exact .inl ⟨⟨pre, o1, post', e1, h1, fun o' ho => h2 o' (by simp [ho])⟩, h2 o (by simp)⟩
  · rintro (⟨⟨pre, o1, post, rfl, h1, h2⟩, h3⟩ | h)
    · refine ⟨pre, o1, post ++ [o], by simp, h1, fun o' ho => ?_⟩
      rcases List.mem_append.mp ho with ho | ho
      · exact h2 o' ho
      · simp only [List.mem_cons, List.not_mem_nil, or_false] at ho
        rw [ho]; exact h3
    · exact ⟨ops, o, [], rfl, h, by simp⟩

/-- what the cache holds for a place -/
def heldAt (c : Cache A F I) (p : Place A F I) : Option (Weighted F) := c.content p.ip p.domain (mapFields p.scope) ⟨p.ie, p.index⟩

omit [DecidableEq A] [FieldOrd F I] in
theorem at_iff (p : Place A F I) (ip : A) (s : Scope F) :
    At p ip s ↔ ip = p.ip ∧ s.domain = p.domain ∧ (s.key : ScopeKey F I) = mapFields p.scope := by
  unfold At Scope.key
  constructor
  · rintro ⟨h1, h2, h3⟩; exact ⟨h1, h2, by rw [h3]⟩
  · rintro ⟨h1, h2, h3⟩; exact ⟨h1, h2, mapFields_inj h3⟩

theorem heldAt_puts {c : Cache A F I} {o : Op A F I} {p : Place A F I} {w : UInt8} {f : F} (h : Puts o p w f) :
    heldAt (c.apply o) p = join (heldAt c p) (some ⟨w, f⟩) := by
  obtain ⟨ip, s, fs, rfl, ha, hf⟩ := h
  unfold heldAt
  simp only [Cache.apply]
  rw [content_upsert, if_pos ((at_iff _ _ _).mp ha), incoming_lookup]
  have : (fs.filter fun f => ie f = p.ie)[p.index]? = some f := hf
  simp only [this, Option.map_some]

theorem heldAt_drops {c : Cache A F I} (hc : CacheWF c) {o : Op A F I} {p : Place A F I} {w : UInt8} (h : Drops o p w) :
    heldAt (c.apply o) p = (heldAt c p).bind fun x => if x.weight ≤ w then none else some x := by
  unfold heldAt
  rcases h with ⟨ip, s, ies, rfl, ha, hi⟩ | ⟨ip, s, rfl, ha⟩
  · simp only [Cache.apply]
    obtain ⟨h1, h2, h3⟩ := (at_iff _ _ _).mp ha
    rw [content_delete hc _ _ _ (by rintro e; simp only [Option.some.injEq] at e; subst e; simp at hi),
      if_pos ⟨h1, h2, h3, by simpa using hi⟩]
  · simp only [Cache.apply]
    obtain ⟨h1, h2, h3⟩ := (at_iff _ _ _).mp ha
    rw [content_delete hc _ _ _ (by simp), if_pos ⟨h1, h2, h3, by simp⟩]

theorem heldAt_other {c : Cache A F I} (hc : CacheWF c) {o : Op A F I} {p : Place A F I} (h1 : ∀ w f, ¬ Puts o p w f) (h2 : ∀ w, ¬ Drops o p w) :
    heldAt (c.apply o) p = heldAt c p := by
  unfold heldAt
  cases o with
  | upsert ip s w fs =>
    simp only [Cache.apply]
    rw [content_upsert]
    split
    · rename_i ha
      rw [incoming_lookup]
      cases hn : (fs.filter fun f => ie f = p.ie)[p.index]? with
      | none => simp only [hn, Option.map_none, join]
      | some f => exact absurd ⟨ip, s, fs, rfl, (at_iff _ _ _).mpr ha, hn⟩ (h1 w f)
    · rfl
  | delete ip s w ies =>
    simp only [Cache.apply]
    by_cases hi : ies = []
    · subst hi; simp [Cache.delete]
    · rw [content_delete hc _ _ _ (by simpa using hi)]
      split
      · rename_i ha
        exact absurd (.inl ⟨ip, s, ies, rfl, (at_iff _ _ _).mpr ⟨ha.1, ha.2.1, ha.2.2.1⟩, ha.2.2.2 _ rfl⟩) (h2 w)
      · rfl
  | deleteAll ip s w =>
    simp only [Cache.apply]
    rw [content_delete hc _ _ _ (by simp)]
    split
    · rename_i ha
      exact absurd (.inr ⟨ip, s, rfl, (at_iff _ _ _).mpr ⟨ha.1, ha.2.1, ha.2.2.1⟩⟩) (h2 w)
    · rfl

omit [DecidableEq A] [DecidableEq F] [FieldOrd F I] in
theorem puts_unique {o : Op A F I} {p : Place A F I} {w w' : UInt8} {f f' : F} (h : Puts o p w f) (h' : Puts o p w' f') : w = w' ∧ f = f' := by
  obtain ⟨ip, s, fs, rfl, -, h1⟩ := h
  obtain ⟨ip', s', fs', e, -, h2⟩ := h'
  simp only [Op.upsert.injEq] at e
  obtain ⟨-, -, rfl, rfl⟩ := e
  rw [h1, Option.some.injEq] at h2
  exact ⟨rfl, h2⟩

omit [DecidableEq A] [DecidableEq F] [FieldOrd F I] in
theorem drops_unique {o : Op A F I} {p : Place A F I} {w w' : UInt8} (h : Drops o p w) (h' : Drops o p w') : w = w' := by
  rcases h with ⟨_, _, _, rfl, -, -⟩ | ⟨_, _, rfl, -⟩ <;> rcases h' with ⟨_, _, _, e, -, -⟩ | ⟨_, _, e, -⟩ <;> simp_all

omit [DecidableEq A] [DecidableEq F] [FieldOrd F I] in
theorem not_puts_drops {o : Op A F I} {p : Place A F I} {w w' : UInt8} {f : F} (h : Puts o p w f) : ¬ Drops o p w' := by
  obtain ⟨ip, s, fs, rfl, -, h1⟩ := h
  rintro (⟨_, _, _, e, -, -⟩ | ⟨_, _, e, -⟩) <;> simp at e

omit [DecidableEq A] [DecidableEq F] [FieldOrd F I] in
theorem survives_unique (ops : List (Op A F I)) (p : Place A F I) {w : UInt8} {f f' : F} (h : Survives ops p w f) (h' : Survives ops p w f') : f = f' := by
  induction ops using snoc_induction with
  | nil => obtain ⟨pre, o, post, e, -⟩ := h; simp at e
  | append_singleton ops o ih =>
    rcases (survives_snoc _ _ _ _ _).mp h with ⟨h1, h2⟩ | h1
    · rcases (survives_snoc _ _ _ _ _).mp h' with ⟨h3, -⟩ | h3
      · exact ih h1 h3
      · exact absurd ⟨w, UInt8.le_refl _, .inl ⟨_, h3⟩⟩ h2
    · rcases (survives_snoc _ _ _ _ _).mp h' with ⟨-, h2⟩ | h3
      · exact absurd ⟨w, UInt8.le_refl _, .inl ⟨_, h1⟩⟩ h2
      · exact (puts_unique h1 h3).2

theorem held_run (ops : List (Op A F I)) (p : Place A F I) :
    (∀ w f, heldAt (Cache.run ops) p = some ⟨w, f⟩ → Held ops p w f) ∧ (heldAt (Cache.run ops) p = none → ∀ w f, ¬ Survives ops p w f) := by
  induction ops using snoc_induction with
  | nil =>
    refine ⟨fun w f h => by simp [heldAt, Cache.run, Cache.content, Cache.scopes] at h, fun _ w f h => ?_⟩
    obtain ⟨pre, o, post, e, -⟩ := h
    simp at e
  | append_singleton ops o ih =>
    obtain ⟨i1, i2⟩ := ih
    rw [run_snoc]
    by_cases hp : ∃ w f, Puts o p w f
    · obtain ⟨w, f, hp⟩ := hp
      rw [heldAt_puts hp]
      cases hc : heldAt (Cache.run ops) p with
      | none =>
        simp only [join]
        refine ⟨fun w' f' e => ?_, fun e => by simp at e⟩
        simp only [Option.some.injEq, Weighted.mk.injEq] at e
        obtain ⟨rfl, rfl⟩ := e
        refine ⟨(survives_snoc _ _ _ _ _).mpr (.inr hp), fun w' f' h => ?_⟩
        rcases (survives_snoc _ _ _ _ _).mp h with ⟨h, -⟩ | h
        · exact absurd h (i2 hc _ _)
        · rw [(puts_unique hp h).1]; exact UInt8.le_refl _
      | some x =>
        obtain ⟨w0, f0⟩ := x
        obtain ⟨g1, g2⟩ := i1 _ _ hc
        simp only [join]
        by_cases hw : w0 ≤ w
        · rw [if_pos hw]
          refine ⟨fun w' f' e => ?_, fun e => by simp at e⟩
          simp only [Option.some.injEq, Weighted.mk.injEq] at e
          obtain ⟨rfl, rfl⟩ := e
          refine ⟨(survives_snoc _ _ _ _ _).mpr (.inr hp), fun w' f' h => ?_⟩
          rcases (survives_snoc _ _ _ _ _).mp h with ⟨h, -⟩ | h
          · exact UInt8.le_trans (g2 _ _ h) hw
          · rw [(puts_unique hp h).1]; exact UInt8.le_refl _
        · rw [if_neg hw]
          refine ⟨fun w' f' e => ?_, fun e => by simp at e⟩
          simp only [Option.some.injEq, Weighted.mk.injEq] at e
          obtain ⟨rfl, rfl⟩ := e
          refine ⟨(survives_snoc _ _ _ _ _).mpr (.inl ⟨g1, ?_⟩), fun w' f' h => ?_⟩
          · rintro ⟨w', hw', ⟨f', h⟩ | h⟩
            · rw [(puts_unique hp h).1] at hw; exact hw hw'
            · exact not_puts_drops hp h
          · rcases (survives_snoc _ _ _ _ _).mp h with ⟨h, -⟩ | h
            · exact g2 _ _ h
            · rw [← (puts_unique hp h).1]; exact UInt8.le_of_lt (UInt8.not_le.mp hw)
    · have hp' : ∀ w f, ¬ Puts o p w f := fun w f h => hp ⟨w, f, h⟩
      by_cases hd : ∃ w, Drops o p w
      · obtain ⟨w, hd⟩ := hd
        rw [heldAt_drops (run_wf ops) hd]
        cases hc : heldAt (Cache.run ops) p with
        | none =>
          refine ⟨fun w' f' e => by simp at e, fun _ w' f' h => ?_⟩
          rcases (survives_snoc _ _ _ _ _).mp h with ⟨h, -⟩ | h
          · exact i2 hc _ _ h
          · exact hp' _ _ h
        | some x =>
          obtain ⟨w0, f0⟩ := x
          obtain ⟨g1, g2⟩ := i1 _ _ hc
          simp only [Option.bind_some]
          by_cases hw : w0 ≤ w
          · rw [if_pos hw]
            refine ⟨fun w' f' e => by simp at e, fun _ w' f' h => ?_⟩
            rcases (survives_snoc _ _ _ _ _).mp h with ⟨h, h2⟩ | h
            · exact h2 ⟨w, UInt8.le_trans (g2 _ _ h) hw, .inr hd⟩
            · exact hp' _ _ h
          · rw [if_neg hw]
            refine ⟨fun w' f' e => ?_, fun e => by simp at e⟩
            simp only [Option.some.injEq, Weighted.mk.injEq] at e
            obtain ⟨rfl, rfl⟩ := e
            refine ⟨(survives_snoc _ _ _ _ _).mpr (.inl ⟨g1, ?_⟩), fun w' f' h => ?_⟩
            · rintro ⟨w', hw', ⟨f', h⟩ | h⟩
              · exact hp' _ _ h
              · rw [drops_unique hd h] at hw; exact hw hw'
            · rcases (survives_snoc _ _ _ _ _).mp h with ⟨h, -⟩ | h
              · exact g2 _ _ h
              · exact absurd h (hp' _ _)
      · have hd' : ∀ w, ¬ Drops o p w := fun w h => hd ⟨w, h⟩
        have he : ∀ w, ¬ Ends o p w := by
          rintro w ⟨w', -, ⟨f, h⟩ | h⟩
          · exact hp' _ _ h
          · exact hd' _ h
        have hs : ∀ w f, Survives (ops ++ [o]) p w f ↔ Survives ops p w f := by
          intro w f
          rw [survives_snoc]
          exact ⟨fun h => h.elim (·.1) fun h => absurd h (hp' _ _), fun h => .inl ⟨h, he _⟩⟩
        rw [heldAt_other (run_wf ops) hp' hd']
        refine ⟨fun w f h => ?_, fun h w f => by rw [hs]; exact i2 h w f⟩
        obtain ⟨g1, g2⟩ := i1 w f h
        exact ⟨(hs _ _).mpr g1, fun w' f' h => g2 w' f' ((hs _ _).mp h)⟩

theorem heldAt_iff (ops : List (Op A F I)) (p : Place A F I) (w : UInt8) (f : F) : heldAt (Cache.run ops) p = some ⟨w, f⟩ ↔ Held ops p w f := by
  refine ⟨(held_run ops p).1 w f, fun h => ?_⟩
  cases hc : heldAt (Cache.run ops) p with
  | none => exact absurd h.1 ((held_run ops p).2 hc w f)
  | some x =>
    obtain ⟨w', f'⟩ := x
    obtain ⟨g1, g2⟩ := (held_run ops p).1 _ _ hc
    have e : w' = w := UInt8.le_antisymm (h.2 _ _ g1) (g2 _ _ h.1)
    subst e
    rw [survives_unique ops p h.1 g1]

omit [FieldOrd F I] in
theorem applies_iff (dom : UInt32) (record : List F) (d : UInt32) (s : List F) :
    Applies dom record d s ↔ (d = 0 ∨ d = dom) ∧ ScopeKey.matches (mapFields s : ScopeKey F I) (mapFields record) = true := by
  unfold Applies
  rw [matches_iff]
  rfl

theorem before_iff (a b : UInt32 × List F) : KeyBefore (a.1, (mapFields a.2 : ScopeKey F I)) (b.1, mapFields b.2) ↔ Before a b := by
  unfold KeyBefore Before
  rw [lex_iff]

theorem chosen_iff (ops : List (Op A F I)) (ip : A) (dom : UInt32) (record : List F) (r : FieldRef I) (f : F) :
    (∃ w, Chosen (fun d s x => (Cache.run ops).content ip d (mapFields s : ScopeKey F I) r = some x) dom record ⟨w, f⟩) ↔ Best ops ip dom record r f := by
  have hh : ∀ d s w f, (Cache.run ops).content ip d (mapFields s : ScopeKey F I) r = some ⟨w, f⟩ ↔ Held ops ⟨ip, d, s, r.ie, r.index⟩ w f :=
    fun d s w f => heldAt_iff ops ⟨ip, d, s, r.ie, r.index⟩ w f
  constructor
  · rintro ⟨w, d, s, h1, h2, h3, h4⟩
    refine ⟨d, s, w, (applies_iff _ _ _ _).mpr ⟨h1, h2⟩, (hh _ _ _ _).mp h3, fun d' s' w' f' ha hh' => ?_⟩
    obtain ⟨a1, a2⟩ := (applies_iff _ _ _ _).mp ha
    rcases h4 d' s' ⟨w', f'⟩ a1 a2 ((hh _ _ _ _).mpr hh') with h | ⟨h, h5 | h5⟩
    · exact .inl h
    · exact .inr ⟨h, .inl h5⟩
    · exact .inr ⟨h, .inr ((before_iff _ _).mp h5)⟩
  · rintro ⟨d, s, w, ha, h3, h4⟩
    obtain ⟨a1, a2⟩ := (applies_iff _ _ _ _).mp ha
    refine ⟨w, d, s, a1, a2, (hh _ _ _ _).mpr h3, fun d' s' y b1 b2 hy => ?_⟩
    rcases h4 d' s' y.weight y.field ((applies_iff _ _ _ _).mpr ⟨b1, b2⟩) ((hh _ _ _ _).mp hy) with h | ⟨h, h5 | h5⟩
    · exact .inl h
    · exact .inr ⟨h, .inl h5⟩
    · exact .inr ⟨h, .inr ((before_iff _ _).mpr h5)⟩

/-- what is returned for a record after any history -/
theorem returns_run (ops : List (Op A F I)) (ip : A) (dom : UInt32) (record : List F) (res : Option (List F)) :
    (Cache.run ops).Returns ip dom record res ↔ Answers (Best ops ip dom record) res := by
  rw [returns_iff (run_wf ops)]
  have : (fun r f => ∃ w, Chosen (fun d s x => (Cache.run ops).content ip d (mapFields s : ScopeKey F I) r = some x) dom record ⟨w, f⟩) = Best ops ip dom record := by
    funext r f
    exact propext (chosen_iff ops ip dom record r f)
  rw [this]


theorem best_exists {ops : List (Op A F I)} {p : Place A F I} {dom : UInt32} {record : List F} {w : UInt8} {f : F}
    (ha : Applies dom record p.domain p.scope) (hs : Survives ops p w f) : ∃ f', Best ops p.ip dom record ⟨p.ie, p.index⟩ f' := by
  obtain ⟨a1, a2⟩ := (applies_iff _ _ _ _).mp ha
  cases hc : heldAt (Cache.run ops) p with
  | none => exact absurd hs ((held_run ops p).2 hc w f)
  | some x =>
    obtain ⟨⟨w', f'⟩, hy⟩ := chosen_exists (run_wf ops) a1 a2 hc
    exact ⟨f', (chosen_iff _ _ _ _ _ _).mp ⟨w', hy⟩⟩

omit [DecidableEq A] [DecidableEq F] [FieldOrd F I] in
theorem held_ie {ops : List (Op A F I)} {p : Place A F I} {w : UInt8} {f : F} (h : Survives ops p w f) : ie f = p.ie := by
  obtain ⟨pre, o, post, -, ⟨ip, s, fs, -, -, hn⟩, -⟩ := h
  have := List.mem_of_getElem? hn
  simpa using (List.mem_filter.mp this).2

/-- C89: whatever the operations so far, what is returned for a record was brought by an upsert for a scope that applies to it, and nothing ended it -/
theorem c89_sound (ops : List (Op A F I)) (ip : A) (dom : UInt32) (record l : List F) (h : (Cache.run ops).Returns ip dom record (some l)) (f : F) (hf : f ∈ l) :
    ∃ p w, p.ip = ip ∧ Applies dom record p.domain p.scope ∧ Survives ops p w f := by
  obtain ⟨m, -, h2, h3⟩ := (returns_run _ _ _ _ _).mp h
  by_cases hm : m = []
  · rw [if_pos hm] at h3; simp at h3
  · rw [if_neg hm, Option.some.injEq] at h3
    subst h3
    obtain ⟨⟨r, f'⟩, hx, rfl⟩ := List.mem_map.mp hf
    obtain ⟨d, s, w, ha, hh, -⟩ := (h2 _ _).mp hx
    exact ⟨_, w, rfl, ha, hh.1⟩

/-- C89: for each occurrence of an element that an upsert brought for a scope that applies, and that nothing ended, a value of that element is returned, and
none of a lower weight -/
theorem c89_complete (ops : List (Op A F I)) (p : Place A F I) (dom : UInt32) (record : List F) (w : UInt8) (f : F)
    (ha : Applies dom record p.domain p.scope) (hs : Survives ops p w f) (res : Option (List F)) (h : (Cache.run ops).Returns p.ip dom record res) :
    ∃ l f', res = some l ∧ f' ∈ l ∧ ie f' = p.ie ∧
      ∃ p' w', w ≤ w' ∧ Applies dom record p'.domain p'.scope ∧ p'.ip = p.ip ∧ p'.ie = p.ie ∧ p'.index = p.index ∧ Held ops p' w' f' := by
  obtain ⟨f', hb⟩ := best_exists ha hs
  obtain ⟨m, -, h2, h3⟩ := (returns_run _ _ _ _ _).mp h
  have hx := (h2 _ _).mpr hb
  have hm : m ≠ [] := by rintro rfl; simp at hx
  rw [if_neg hm] at h3
  obtain ⟨d, s, w', ha', hh, hmax⟩ := hb
  refine ⟨_, f', h3, List.mem_map.mpr ⟨_, hx, rfl⟩, held_ie (p := ⟨p.ip, d, s, p.ie, p.index⟩) hh.1, ⟨p.ip, d, s, p.ie, p.index⟩, w', ?_, ha', rfl, rfl, rfl, hh⟩
  cases hc : heldAt (Cache.run ops) p with
  | none => exact absurd hs ((held_run ops p).2 hc w f)
  | some x =>
    obtain ⟨w1, f1⟩ := x
    have h1 := (held_run ops p).1 _ _ hc
    rcases hmax _ _ _ _ ha h1 with h | ⟨h, -⟩
    · exact UInt8.le_trans (h1.2 _ _ hs) (UInt8.le_of_lt h)
    · rw [← h]; exact h1.2 _ _ hs

/-- C89: nothing is returned just when nothing that applies is left -/
theorem c89_none (ops : List (Op A F I)) (ip : A) (dom : UInt32) (record : List F) :
    (Cache.run ops).Returns ip dom record none ↔ ∀ p w f, p.ip = ip → Applies dom record p.domain p.scope → ¬ Survives ops p w f := by
  rw [returns_run]
  constructor
  · rintro ⟨m, -, h2, h3⟩ p w f rfl ha hs
    obtain ⟨f', hb⟩ := best_exists ha hs
    have hx := (h2 _ _).mpr hb
    have hm : m ≠ [] := by rintro rfl; simp at hx
    rw [if_neg hm] at h3
    simp at h3
  · intro h
    refine ⟨[], by simp, fun r f => ⟨by simp, fun hb => ?_⟩, rfl⟩
    obtain ⟨d, s, w, ha, hh, -⟩ := hb
    exact absurd hh.1 (h ⟨ip, d, s, r.ie, r.index⟩ w f rfl ha)

/-- a value is brought, one of a lower weight does not replace it, and after its deletion nothing is left -/
def c89Ops : List (Op Nat (Nat × Nat) Nat) :=
  [.upsert 1 ⟨0, none⟩ 10 [(7, 70), (7, 71), (8, 80)], .upsert 1 ⟨0, none⟩ 5 [(7, 99)], .delete 1 ⟨0, none⟩ 10 [8]]

example : Survives c89Ops ⟨1, 0, [], 7, 1⟩ 10 (7, 71) :=
  ⟨[], _, _, rfl, ⟨_, _, _, rfl, ⟨rfl, rfl, rfl⟩, by decide⟩, by
    rintro o ho ⟨w, hw, ⟨f, _, _, _, rfl, ha, hn⟩ | ⟨_, _, _, rfl, ha, hi⟩ | ⟨_, _, rfl, ha⟩⟩
    · simp at ho; obtain ⟨-, -, rfl, rfl⟩ := ho; simp [nth, ie] at hn
    · simp at ho; obtain ⟨-, -, -, rfl⟩ := ho; simp at hi
    · simp at ho⟩
example : (Cache.run c89Ops).Returns 1 33 [(1, 1)] (some [(7, 70), (7, 71)]) := .inr ⟨by decide, _, rfl, by decide⟩
example : (Cache.run (c89Ops ++ [.deleteAll 1 ⟨0, none⟩ 9])).Returns 1 33 [(1, 1)] (some [(7, 70), (7, 71)]) := .inr ⟨by decide, _, rfl, by decide⟩
example : (Cache.run (c89Ops ++ [.deleteAll 1 ⟨0, none⟩ 10])).Returns 1 33 [(1, 1)] none := .inl ⟨by decide, rfl⟩

/-! ## C90 -/

/-- C90, for any history: exactly one value is returned for each occurrence of an element for which something is left that applies, it is the one of the
highest weight, and among equal ones that of the last scope: the domain of the record after all domains, and then in the order of the fields -/
theorem c90_partial (ops : List (Op A F I)) (ip : A) (dom : UInt32) (record : List F) (res : Option (List F)) :
    (Cache.run ops).Returns ip dom record res ↔ Answers (Best ops ip dom record) res := returns_run ops ip dom record res

/-- C90: a higher weight wins, whatever the scopes -/
theorem c90_weight {ops : List (Op A F I)} {ip : A} {dom : UInt32} {record : List F} {r : FieldRef I} {f g : F} {d d' : UInt32} {s s' : List F} {w w' : UInt8}
    (hw : Wins ops ip dom record r d s w f) (ha : Applies dom record d' s') (hh : Held ops ⟨ip, d', s', r.ie, r.index⟩ w' g) : w' ≤ w := by
  rcases hw.2.2 _ _ _ _ ha hh with h | ⟨h, -⟩
  · exact UInt8.le_of_lt h
  · rw [h]; exact UInt8.le_refl _

/-- C90: at equal weights a scope for the domain of the record wins over those for all domains -/
theorem c90_domain {ops : List (Op A F I)} {ip : A} {dom : UInt32} {record : List F} {r : FieldRef I} {f g : F} {d : UInt32} {s s' : List F} {w : UInt8}
    (hw : Wins ops ip dom record r d s w f) (ha : Applies dom record dom s') (hh : Held ops ⟨ip, dom, s', r.ie, r.index⟩ w g) : d = dom := by
  rcases hw.2.2 _ _ _ _ ha hh with h | ⟨-, h | ⟨h1, h2⟩ | ⟨h, -⟩⟩
  · exact absurd h (UInt8.lt_irrefl _)
  · simp only [Prod.mk.injEq] at h; exact h.1.symm
  · rcases hw.1.1 with h | h
    · exact absurd h h2
    · exact h
  · exact h.symm

theorem lex_asymm {s t : List F} (h1 : LexBefore s t) (h2 : LexBefore t s) : False := by
  rw [← lex_iff] at h1 h2
  have := ScopeKey.lt_trans h1 h2
  rw [ScopeKey.lt_irrefl] at this
  simp at this

/-- C90: at equal weights and for the same domain, a scope wins over those it extends by further fields at the end -/
theorem c90_longer {ops : List (Op A F I)} {ip : A} {dom : UInt32} {record : List F} {r : FieldRef I} {f g : F} {d : UInt32} {s t : List F} {w w' : UInt8}
    (hw : Wins ops ip dom record r d s w f) (ht : t ≠ []) (ha : Applies dom record d (s ++ t)) (hh : Held ops ⟨ip, d, s ++ t, r.ie, r.index⟩ w' g) : w' < w := by
  have hl : LexBefore s (s ++ t) := ⟨s, [], t, by simp, rfl, .inl ⟨rfl, ht⟩⟩
  rcases hw.2.2 _ _ _ _ ha hh with h | ⟨-, h | ⟨h1, h2⟩ | ⟨-, h⟩⟩
  · exact h
  · simp only [Prod.mk.injEq, List.append_right_eq_self, true_and] at h; exact absurd h ht
  · exact absurd h1 h2
  · exact (lex_asymm hl h).elim

/-- what is returned does not depend on more than the order -/
theorem c90_unique (ops : List (Op A F I)) (ip : A) (dom : UInt32) (record l l' : List F)
    (h : (Cache.run ops).Returns ip dom record (some l)) (h' : (Cache.run ops).Returns ip dom record (some l')) : l.Perm l' := by
  rcases h with ⟨-, h⟩ | ⟨-, k, e, h⟩
  · simp at h
  · rcases h' with ⟨-, h'⟩ | ⟨-, k', e', h'⟩
    · simp at h'
    · simp only [Option.some.injEq] at e e'
      subst e; subst e'
      exact h.trans h'.symm

/-- and something is -/
theorem c90_total (ops : List (Op A F I)) (ip : A) (dom : UInt32) (record : List F) : ∃ res, (Cache.run ops).Returns ip dom record res := by
  by_cases h : (match (Cache.run ops).look ip with
    | none => []
    | some p => p.enrichment dom record : Metadata F I) = []
  · exact ⟨none, .inl ⟨h, rfl⟩⟩
  · exact ⟨_, .inr ⟨h, _, rfl, List.Perm.refl _⟩⟩

/-- of equal weight: a scope for all domains, one for a domain, one for a domain and an interface, and one with a higher weight for another interface -/
def c90Ops : List (Op Nat (Nat × Nat) Nat) :=
  [.upsert 1 ⟨20, some [(10, 3)]⟩ 8 [(7, 72)], .upsert 1 ⟨20, none⟩ 8 [(7, 71)], .upsert 1 ⟨0, none⟩ 8 [(7, 70), (8, 80)], .upsert 1 ⟨0, some [(10, 4)]⟩ 9 [(7, 73)]]

example : (Cache.run c90Ops).Returns 1 20 [(10, 3)] (some [(8, 80), (7, 72)]) := .inr ⟨by decide, _, rfl, by decide⟩
example : (Cache.run c90Ops).Returns 1 20 [(10, 5)] (some [(8, 80), (7, 71)]) := .inr ⟨by decide, _, rfl, by decide⟩
example : (Cache.run c90Ops).Returns 1 21 [(10, 3)] (some [(8, 80), (7, 70)]) := .inr ⟨by decide, _, rfl, by decide⟩
example : (Cache.run c90Ops).Returns 1 20 [(10, 4)] (some [(8, 80), (7, 73)]) := .inr ⟨by decide, _, rfl, by decide⟩

/-- C90 is false as documented: of two scopes of equal weight, the one that asks for more need not win. Here the scope of an output interface alone wins over
that of the input interface and the same output interface. -/
theorem c90_disproved : ∃ (ops : List (Op Nat (Nat × Nat) Nat)) (s t : List (Nat × Nat)),
    s ⊆ t ∧ ¬ t ⊆ s ∧ Applies 20 [(10, 3), (14, 4)] 20 t ∧
    ops = [.upsert 1 ⟨20, some s⟩ 8 [(7, 70)], .upsert 1 ⟨20, some t⟩ 8 [(7, 71)]] ∧
    (Cache.run ops).Returns 1 20 [(10, 3), (14, 4)] (some [(7, 70)]) ∧ ¬ (Cache.run ops).Returns 1 20 [(10, 3), (14, 4)] (some [(7, 71)]) := by
  refine ⟨_, [(14, 4)], [(10, 3), (14, 4)], by decide, by decide, ⟨.inr rfl, fun i n f h => h⟩, rfl, .inr ⟨by decide, _, rfl, by decide⟩, ?_⟩
  rintro (⟨-, h⟩ | ⟨-, l, h, hp⟩)
  · simp at h
  · simp only [Option.some.injEq] at h
    subst h
    exact absurd hp (by decide)

/-- C90: scopes of the same fields in another order are different, and a deletion for one does not reach the other -/
theorem c90_order_disproved : ∃ (ops : List (Op Nat (Nat × Nat) Nat)),
    ops = [.upsert 1 ⟨20, some [(10, 3), (14, 4)]⟩ 8 [(7, 70)], .deleteAll 1 ⟨20, some [(14, 4), (10, 3)]⟩ 255] ∧
    (Cache.run ops).Returns 1 20 [(10, 3), (14, 4)] (some [(7, 70)]) := ⟨_, rfl, .inr ⟨by decide, _, rfl, by decide⟩⟩

/-! ## C91 -/

omit [DecidableEq A] [DecidableEq F] [FieldOrd F I] in
theorem survives_congr {ops ops' : List (Op A F I)} {p : Place A F I} (q : Op A F I → Bool) (hops : ops' = ops.filter q)
    (hq : ∀ o, q o = false → (∀ w f, ¬ Puts o p w f) ∧ ∀ w, ¬ Drops o p w) (w : UInt8) (f : F) : Survives ops' p w f ↔ Survives ops p w f := by
  subst hops
  induction ops using snoc_induction generalizing w f with
  | nil => rfl
  | append_singleton ops o ih =>
    rw [List.filter_append, survives_snoc]
    cases hqo : q o with
    | true => rw [List.filter_cons_of_pos (by simp [hqo]), List.filter_nil, survives_snoc, ih]
    | false =>
      rw [List.filter_cons_of_neg (by simp [hqo]), List.filter_nil, List.append_nil, ih]
      obtain ⟨h1, h2⟩ := hq o hqo
      refine ⟨fun h => .inl ⟨h, ?_⟩, fun h => h.elim (·.1) fun h => absurd h (h1 _ _)⟩
      rintro ⟨w', -, ⟨f', h⟩ | h⟩
      · exact h1 _ _ h
      · exact h2 _ h

omit [DecidableEq A] [DecidableEq F] [FieldOrd F I] in
theorem held_congr {ops ops' : List (Op A F I)} {p : Place A F I} (h : ∀ w f, Survives ops' p w f ↔ Survives ops p w f) (w : UInt8) (f : F) :
    Held ops' p w f ↔ Held ops p w f := by
  unfold Held
  simp only [h]

theorem returns_congr {ops ops' : List (Op A F I)} {ip : A} {dom : UInt32} {record : List F}
    (h : ∀ p : Place A F I, p.ip = ip → (p.domain = 0 ∨ p.domain = dom) → ∀ w f, Held ops' p w f ↔ Held ops p w f) (res : Option (List F)) :
    (Cache.run ops').Returns ip dom record res ↔ (Cache.run ops).Returns ip dom record res := by
  rw [returns_run, returns_run]
  have : Best ops' ip dom record = Best ops ip dom record := by
    funext r f
    unfold Best Wins
    apply propext
    constructor
    · rintro ⟨d, s, w, h1, h2, h3⟩
      exact ⟨d, s, w, h1, (h ⟨ip, d, s, r.ie, r.index⟩ rfl h1.1 _ _).mp h2, fun d' s' w' f' g1 g2 => h3 d' s' w' f' g1 ((h ⟨ip, d', s', r.ie, r.index⟩ rfl g1.1 _ _).mpr g2)⟩
    · rintro ⟨d, s, w, h1, h2, h3⟩
      exact ⟨d, s, w, h1, (h ⟨ip, d, s, r.ie, r.index⟩ rfl h1.1 _ _).mpr h2, fun d' s' w' f' g1 g2 => h3 d' s' w' f' g1 ((h ⟨ip, d', s', r.ie, r.index⟩ rfl g1.1 _ _).mp g2)⟩
  rw [this]

/-- C91: what a record of a peer and a domain gets depends on the operations for this peer and this domain or all domains only -/
theorem c91_isolated (ops : List (Op A F I)) (ip : A) (dom : UInt32) (record : List F) (res : Option (List F)) :
    (Cache.run (ops.filter fun o => decide (peer o = ip ∧ (domain o = 0 ∨ domain o = dom)))).Returns ip dom record res ↔
      (Cache.run ops).Returns ip dom record res := by
  refine returns_congr (fun p hp hd => held_congr (survives_congr _ rfl ?_)) res
  intro o ho
  simp only [decide_eq_false_iff_not] at ho
  constructor
  · rintro w f ⟨_, _, _, rfl, ⟨rfl, h2, -⟩, -⟩
    exact ho ⟨hp, by rw [← h2] at hd; exact hd⟩
  · rintro w (⟨_, _, _, rfl, ⟨rfl, h2, -⟩, -⟩ | ⟨_, _, rfl, ⟨rfl, h2, -⟩⟩)
    · exact ho ⟨hp, by rw [← h2] at hd; exact hd⟩
    · exact ho ⟨hp, by rw [← h2] at hd; exact hd⟩

example : c90Ops.filter (fun o => decide (peer o = 1 ∧ (domain o = 0 ∨ domain o = 21))) ≠ c90Ops := by decide

/-! ## C92 -/

theorem returns_survives {ops ops' : List (Op A F I)} {ip : A} {dom : UInt32} {record : List F}
    (h : ∀ p : Place A F I, ∀ w f, Survives ops' p w f ↔ Survives ops p w f) (res : Option (List F)) :
    (Cache.run ops').Returns ip dom record res ↔ (Cache.run ops).Returns ip dom record res := returns_congr (fun p _ _ => held_congr (h p)) res

omit [DecidableEq A] [DecidableEq F] [FieldOrd F I] in
theorem puts_undo {ip : A} {s : Scope F} {w : UInt8} {fs : List F} {p : Place A F I} {v : UInt8} {f : F} (h : Puts (.upsert ip s w fs : Op A F I) p v f) :
    v = w ∧ Drops (Op.undo (.upsert ip s w fs : Op A F I)) p w := by
  obtain ⟨_, _, _, e, ha, hn⟩ := h
  simp only [Op.upsert.injEq] at e
  obtain ⟨rfl, rfl, rfl, rfl⟩ := e
  refine ⟨rfl, .inl ⟨_, _, _, rfl, ha, ?_⟩⟩
  have := List.mem_filter.mp (List.mem_of_getElem? hn)
  exact List.mem_map.mpr ⟨f, this.1, by simpa using this.2⟩

omit [DecidableEq A] [DecidableEq F] [FieldOrd F I] in
theorem survives_undo (ops : List (Op A F I)) (ip : A) (s : Scope F) (w : UInt8) (fs : List F) (p : Place A F I) (v : UInt8) (f : F) :
    Survives (ops ++ [.upsert ip s w fs, Op.undo (.upsert ip s w fs)]) p v f ↔ Survives (ops ++ [Op.undo (.upsert ip s w fs)]) p v f := by
  have e : ops ++ [Op.upsert ip s w fs, Op.undo (.upsert ip s w fs)] = (ops ++ [.upsert ip s w fs]) ++ [Op.undo (.upsert ip s w fs)] := by simp
  rw [e, survives_snoc, survives_snoc, survives_snoc]
  constructor
  · rintro (⟨⟨h1, -⟩ | h1, h2⟩ | h)
    · exact .inl ⟨h1, h2⟩
    · obtain ⟨rfl, h3⟩ := puts_undo h1
      exact absurd ⟨v, UInt8.le_refl _, .inr h3⟩ h2
    · exact .inr h
  · rintro (⟨h1, h2⟩ | h)
    · refine .inl ⟨.inl ⟨h1, ?_⟩, h2⟩
      rintro ⟨w', hw', ⟨f', h⟩ | h⟩
      · obtain ⟨rfl, h3⟩ := puts_undo h
        exact h2 ⟨w', hw', .inr h3⟩
      · rcases h with ⟨_, _, _, e, -⟩ | ⟨_, _, e, -⟩ <;> simp at e
    · exact .inr h

/-- C92: after an upsert and the deletion made from it, what is returned is as if there had been the deletion only -/
theorem c92_undo (ops : List (Op A F I)) (ip : A) (s : Scope F) (w : UInt8) (fs : List F) (ip' : A) (dom : UInt32) (record : List F) (res : Option (List F)) :
    (Cache.run (ops ++ [.upsert ip s w fs, Op.undo (.upsert ip s w fs)])).Returns ip' dom record res ↔
      (Cache.run (ops ++ [Op.undo (.upsert ip s w fs)])).Returns ip' dom record res := returns_survives (survives_undo ops ip s w fs) res

/-- C92: hence, as before the upsert, if nothing of at most its weight was left for its scope and elements -/
theorem c92_partial (ops : List (Op A F I)) (ip : A) (s : Scope F) (w : UInt8) (fs : List F)
    (hn : ∀ p v f, At p ip s → p.ie ∈ fs.map ie → Survives ops p v f → w < v)
    (ip' : A) (dom : UInt32) (record : List F) (res : Option (List F)) :
    (Cache.run (ops ++ [.upsert ip s w fs, Op.undo (.upsert ip s w fs)])).Returns ip' dom record res ↔ (Cache.run ops).Returns ip' dom record res := by
  refine returns_survives (fun p v f => ?_) res
  rw [survives_undo, survives_snoc]
  constructor
  · rintro (⟨h, -⟩ | ⟨_, _, _, e, -⟩)
    · exact h
    · simp [Op.undo] at e
  · refine fun h => .inl ⟨h, ?_⟩
    rintro ⟨w', hw', ⟨f', _, _, _, e, -⟩ | h'⟩
    · simp [Op.undo] at e
    · rcases h' with ⟨_, _, _, e, ha, hi⟩ | ⟨_, _, e, -⟩
      · simp only [Op.undo, Op.delete.injEq] at e
        obtain ⟨rfl, rfl, rfl, rfl⟩ := e
        exact absurd (UInt8.lt_of_lt_of_le (hn p v f ha hi h) hw') (UInt8.lt_irrefl _)
      · simp [Op.undo] at e

example : (Cache.run ([.upsert 1 ⟨0, none⟩ 10 [(7, 70)], .upsert 1 ⟨0, none⟩ 5 [(7, 71), (8, 80)], Op.undo (.upsert 1 ⟨0, none⟩ 5 [(7, 71), (8, 80)])] :
    List (Op Nat (Nat × Nat) Nat))).Returns 1 3 [] (some [(7, 70)]) := .inr ⟨by decide, _, rfl, by decide⟩

/-- C92 is false in general: what the upsert replaced is not restored, not even by another source of a lower weight -/
theorem c92_disproved : ∃ (u v : Op Nat (Nat × Nat) Nat), u = .upsert 1 ⟨0, none⟩ 5 [(7, 70)] ∧ v = .upsert 1 ⟨0, none⟩ 9 [(7, 71)] ∧
    (Cache.run [u]).Returns 1 0 [] (some [(7, 70)]) ∧ (Cache.run [u, v, v.undo]).Returns 1 0 [] none :=
  ⟨_, _, rfl, rfl, .inr ⟨by decide, _, rfl, by decide⟩, .inl ⟨by decide, rfl⟩⟩

/-! ## C93 -/

/-- the operations only bring values -/
def Loads (ops : List (Op A F I)) : Prop := ∀ o ∈ ops, ∃ ip s w fs, o = .upsert ip s w fs

/-- no two of them bring different values for a place with the same weight -/
def Consistent (ops : List (Op A F I)) : Prop := ∀ o ∈ ops, ∀ o' ∈ ops, ∀ p w f f', Puts o p w f → Puts o' p w f' → f = f'

omit [DecidableEq A] [DecidableEq F] [FieldOrd F I] in
theorem survives_load {ops : List (Op A F I)} (hl : Loads ops) {p : Place A F I} {w : UInt8} {f : F} (o : Op A F I) (ho : o ∈ ops) (hp : Puts o p w f) :
    ∃ w' f', w ≤ w' ∧ Survives ops p w' f' := by
  induction ops using snoc_induction generalizing o w f with
  | nil => simp at ho
  | append_singleton ops o1 ih =>
    have hl' : Loads ops := fun o h => hl o (by simp [h])
    by_cases h1 : ∃ w1 f1, Puts o1 p w1 f1 ∧ w ≤ w1
    · obtain ⟨w1, f1, h1, h2⟩ := h1
      exact ⟨w1, f1, h2, (survives_snoc _ _ _ _ _).mpr (.inr h1)⟩
    · rcases List.mem_append.mp ho with ho | ho
      · obtain ⟨w', f', h2, h3⟩ := ih hl' o ho hp
        refine ⟨w', f', h2, (survives_snoc _ _ _ _ _).mpr (.inl ⟨h3, ?_⟩)⟩
        rintro ⟨v, hv, ⟨g, h⟩ | h⟩
        · exact h1 ⟨v, g, h, UInt8.le_trans h2 hv⟩
        · obtain ⟨_, _, _, _, rfl⟩ := hl o1 (by simp)
          rcases h with ⟨_, _, _, e, -⟩ | ⟨_, _, e, -⟩ <;> simp at e
      · simp only [List.mem_cons, List.not_mem_nil, or_false] at ho
        subst ho
        exact absurd ⟨w, f, hp, UInt8.le_refl _⟩ h1

omit [DecidableEq A] [DecidableEq F] [FieldOrd F I] in
theorem held_load {ops : List (Op A F I)} (hl : Loads ops) (hc : Consistent ops) (p : Place A F I) (w : UInt8) (f : F) :
    Held ops p w f ↔ (∃ o ∈ ops, Puts o p w f) ∧ ∀ o ∈ ops, ∀ w' f', Puts o p w' f' → w' ≤ w := by
  have hs : ∀ w f, Survives ops p w f → ∃ o ∈ ops, Puts o p w f := by
    rintro w f ⟨pre, o, post, rfl, h, -⟩
    exact ⟨o, by simp, h⟩
  constructor
  · rintro ⟨h1, h2⟩
    refine ⟨hs _ _ h1, fun o ho w' f' hp => ?_⟩
    obtain ⟨v, g, h3, h4⟩ := survives_load hl o ho hp
    exact UInt8.le_trans h3 (h2 _ _ h4)
  · rintro ⟨⟨o, ho, hp⟩, h2⟩
    obtain ⟨v, g, h3, h4⟩ := survives_load hl o ho hp
    obtain ⟨o', ho', hp'⟩ := hs _ _ h4
    have e : v = w := UInt8.le_antisymm (h2 _ ho' _ _ hp') h3
    subst e
    rw [hc o ho o' ho' _ _ _ _ hp hp']
    refine ⟨h4, fun w' f' h => ?_⟩
    obtain ⟨o1, ho1, hp1⟩ := hs _ _ h
    exact h2 _ ho1 _ _ hp1

/-- C93: when values are only brought, and never different ones for the same place and weight, neither their order nor repetition makes a difference -/
theorem c93_order (ops ops' : List (Op A F I)) (hl : Loads ops) (hc : Consistent ops) (hm : ∀ o, o ∈ ops' ↔ o ∈ ops)
    (ip : A) (dom : UInt32) (record : List F) (res : Option (List F)) :
    (Cache.run ops').Returns ip dom record res ↔ (Cache.run ops).Returns ip dom record res := by
  have hl' : Loads ops' := fun o h => hl o ((hm o).mp h)
  have hc' : Consistent ops' := fun o h o' h' => hc o ((hm o).mp h) o' ((hm o').mp h')
  refine returns_congr (fun p _ _ w f => ?_) res
  rw [held_load hl hc, held_load hl' hc']
  simp only [hm]

example : Loads c90Ops ∧ Consistent c90Ops := by
  refine ⟨by intro o ho; simp [c90Ops] at ho; rcases ho with rfl | rfl | rfl | rfl <;> exact ⟨_, _, _, _, rfl⟩, ?_⟩
  rintro o ho o' ho' p w f f' ⟨_, _, _, rfl, ⟨a1, a2, a3⟩, hn⟩ ⟨_, _, _, rfl, ⟨b1, b2, b3⟩, hn'⟩
  simp only [c90Ops, List.mem_cons, List.not_mem_nil, or_false, Op.upsert.injEq] at ho ho'
  rcases ho with ⟨rfl, rfl, rfl, rfl⟩ | ⟨rfl, rfl, rfl, rfl⟩ | ⟨rfl, rfl, rfl, rfl⟩ | ⟨rfl, rfl, rfl, rfl⟩ <;>
    rcases ho' with ⟨-, rfl, e, rfl⟩ | ⟨-, rfl, e, rfl⟩ | ⟨-, rfl, e, rfl⟩ | ⟨-, rfl, e, rfl⟩ <;>
    first | exact absurd (a2.trans b2.symm) (by decide) | simp_all

/-- C93: of different values with the same weight the last one is returned, so that their order matters -/
theorem c93_last (ops : List (Op A F I)) (ip : A) (s : Scope F) (w : UInt8) (fs : List F) (p : Place A F I) (f : F) (ha : At p ip s)
    (hf : nth fs p.ie p.index = some f) (hn : ∀ v g, Survives ops p v g → v ≤ w) : Held (ops ++ [.upsert ip s w fs]) p w f := by
  have hp : Puts (.upsert ip s w fs : Op A F I) p w f := ⟨_, _, _, rfl, ha, hf⟩
  refine ⟨(survives_snoc _ _ _ _ _).mpr (.inr hp), fun v g h => ?_⟩
  rcases (survives_snoc _ _ _ _ _).mp h with ⟨h, -⟩ | h
  · exact hn _ _ h
  · rw [(puts_unique h hp).1]; exact UInt8.le_refl _

example : (Cache.run ([.upsert 1 ⟨0, none⟩ 5 [(7, 70)], .upsert 1 ⟨0, none⟩ 5 [(7, 71)]] : List (Op Nat (Nat × Nat) Nat))).Returns 1 3 [] (some [(7, 71)]) :=
  .inr ⟨by decide, _, rfl, by decide⟩

/-! ## C94 -/

/-- C94: the cache counts the peers that it holds something for, and no others: everything that is deleted is given up -/
theorem c94_count (ops : List (Op A F I)) :
    ∃ l : List A, l.Nodup ∧ (∀ ip, ip ∈ l ↔ ∃ p w f, p.ip = ip ∧ Survives ops p w f) ∧ (Cache.run ops).peerCount = l.length := by
  have hw := run_wf ops
  refine ⟨(Cache.run ops).map (fun x : A × PeerMetadata F I => x.1), (List.pairwise_map (R := fun a b : A => a ≠ b)).mpr hw.1, fun ip => ?_, by simp [Cache.peerCount]⟩
  rw [peer_iff hw]
  constructor
  · rintro ⟨d, s, r, ⟨w, f⟩, h⟩
    exact ⟨⟨ip, d, s, r.ie, r.index⟩, w, f, rfl, ((heldAt_iff ops ⟨ip, d, s, r.ie, r.index⟩ w f).mp h).1⟩
  · rintro ⟨p, w, f, rfl, h⟩
    cases hc : heldAt (Cache.run ops) p with
    | none => exact absurd h ((held_run ops p).2 hc w f)
    | some x => exact ⟨p.domain, p.scope, ⟨p.ie, p.index⟩, x, hc⟩

example : (Cache.run c90Ops).peerCount = 1 := by decide
example : (Cache.run (c89Ops ++ [.deleteAll 1 ⟨0, none⟩ 10])).peerCount = 0 := by decide

end Verif.Props
