import Verif.Collector.CacheLemmas
import Verif.Collector.Spec
/-! # What the enrichment cache returns, in terms of what it holds -/
namespace Verif.Collector
open Hist (Answers occ LexBefore)
variable {A F I : Type} [DecidableEq A] [DecidableEq F] [DecidableEq I] [HasIe F I] [FieldOrd F I]

/-- a domain and a scope come before others: all domains before one, then the order of the scopes -/
def KeyBefore (a b : UInt32 × ScopeKey F I) : Prop := (a.1 = 0 ∧ b.1 ≠ 0) ∨ (a.1 = b.1 ∧ ScopeKey.lt a.2 b.2 = true)

theorem KeyBefore.irrefl (a : UInt32 × ScopeKey F I) : ¬ KeyBefore a a := by
  rintro (⟨h1, h2⟩ | ⟨-, h⟩)
  · exact h2 h1
  · rw [ScopeKey.lt_irrefl] at h; simp at h

theorem KeyBefore.asymm {a b : UInt32 × ScopeKey F I} (h1 : KeyBefore a b) (h2 : KeyBefore b a) : False := by
  rcases h1 with ⟨h1, h1'⟩ | ⟨e, h1⟩
  · rcases h2 with ⟨h2, h2'⟩ | ⟨e, -⟩
    · exact h1' h2
    · exact h1' (e.trans h1)
  · rcases h2 with ⟨h2, h2'⟩ | ⟨-, h2⟩
    · exact h2' (e.trans h2)
    · have := ScopeKey.lt_trans h1 h2
      rw [ScopeKey.lt_irrefl] at this; simp at this

/-- the value that is chosen from a list in which the later ones win -/
theorem foldl_join_sorted {γ : Type} {R : γ → γ → Prop} (hi : ∀ a, ¬ R a a) (ha : ∀ a b, R a b → R b a → False) {es : List γ} (hs : es.Pairwise R)
    (v : γ → Option (Weighted F)) (x : Weighted F) :
    (es.map v).foldl join none = some x ↔
      ∃ e ∈ es, v e = some x ∧ ∀ e' ∈ es, ∀ y, v e' = some y → y.weight < x.weight ∨ (y.weight = x.weight ∧ (e' = e ∨ R e' e)) := by
  rw [foldl_join_iff]
  constructor
  · rintro ⟨a, b, h, h1, h2⟩
    obtain ⟨ea, eb', rfl, rfl, h'⟩ := List.map_eq_append_iff.mp h
    obtain ⟨e, eb, rfl, hx, rfl⟩ := List.map_eq_cons_iff.mp h'
    refine ⟨e, by simp, hx, fun e' he' y hy => ?_⟩
    rcases List.mem_append.mp he' with he' | he'
    · have hw := h1 y (by rw [← hy]; exact List.mem_map_of_mem he')
      rcases UInt8.le_iff_lt_or_eq.mp hw with hw | hw
      · exact .inl hw
      · exact .inr ⟨hw, .inr ((List.pairwise_append.mp hs).2.2 _ he' _ (by simp))⟩
    · rcases List.mem_cons.mp he' with rfl | he'
      · rw [hx, Option.some.injEq] at hy
        exact .inr ⟨by rw [hy], .inl rfl⟩
      · exact .inl (h2 y (by rw [← hy]; exact List.mem_map_of_mem he'))
  · rintro ⟨e, he, hx, hb⟩
    obtain ⟨ea, eb, rfl⟩ := List.append_of_mem he
    obtain ⟨s1, s2, s3⟩ := List.pairwise_append.mp hs
    refine ⟨ea.map v, eb.map v, by simp [hx], fun y hy => ?_, fun y hy => ?_⟩
    · obtain ⟨e', he', hy⟩ := List.mem_map.mp hy
      rcases hb e' (by simp [he']) y hy with h | h
      · exact UInt8.le_of_lt h
      · rw [h.1]; exact UInt8.le_refl _
    · obtain ⟨e', he', hy⟩ := List.mem_map.mp hy
      have hr := (List.pairwise_cons.mp s2).1 e' he'
      rcases hb e' (by simp [he']) y hy with h | ⟨-, h | h⟩
      · exact h
      · rw [h] at hr; exact absurd hr (hi _)
      · exact absurd h fun h => ha _ _ h hr

/-- the scopes that apply, with their domains, in the order of the loops -/
def entries (c : Cache A F I) (ip : A) (dom : UInt32) (record : List F) : List ((UInt32 × ScopeKey F I) × Metadata F I) :=
  ((applicable record (c.scopes ip 0)).map fun x => ((0, x.1), x.2)) ++
    ((applicable record (if dom = 0 then [] else c.scopes ip dom)).map fun x => ((dom, x.1), x.2))

theorem mem_applicable {record : List F} {t : Scopes F I} {x : ScopeKey F I × Metadata F I} (h : Uniq t) :
    x ∈ applicable record t ↔ t.look x.1 = some x.2 ∧ x.1.matches (mapFields record) = true := by
  unfold applicable
  rw [List.mem_filter]
  constructor
  · rintro ⟨h1, h2⟩
    exact ⟨lookup_of_mem h h1, h2⟩
  · rintro ⟨h1, h2⟩
    exact ⟨mem_of_lookup h1, h2⟩

theorem ScopesWF.uniq {t : Scopes F I} (h : ScopesWF t) : Uniq t := Incr.uniq ScopeKey.lt_irrefl h.1

theorem mem_entries {c : Cache A F I} (hc : CacheWF c) {ip : A} {dom : UInt32} {record : List F} {e : (UInt32 × ScopeKey F I) × Metadata F I} :
    e ∈ entries c ip dom record ↔ (e.1.1 = 0 ∨ e.1.1 = dom) ∧ (c.scopes ip e.1.1).look e.1.2 = some e.2 ∧ e.1.2.matches (mapFields record) = true := by
  unfold entries
  obtain ⟨⟨d, k⟩, m⟩ := e
  rw [List.mem_append, List.mem_map, List.mem_map]
  constructor
  · rintro (⟨x, hx, e⟩ | ⟨x, hx, e⟩)
    · rw [mem_applicable (hc.scopes _ _).uniq] at hx
      simp only [Prod.mk.injEq] at e
      obtain ⟨⟨rfl, rfl⟩, rfl⟩ := e
      exact ⟨.inl rfl, hx⟩
    · by_cases h0 : dom = 0
      · rw [if_pos h0] at hx; simp [applicable] at hx
      · rw [if_neg h0, mem_applicable (hc.scopes _ _).uniq] at hx
        simp only [Prod.mk.injEq] at e
        obtain ⟨⟨rfl, rfl⟩, rfl⟩ := e
        exact ⟨.inr rfl, hx⟩
  · simp only
    rintro ⟨hd, hx⟩
    by_cases h0 : d = 0
    · subst h0
      exact .inl ⟨(k, m), (mem_applicable (hc.scopes _ _).uniq).mpr hx, rfl⟩
    · rcases hd with hd | rfl
      · exact absurd hd h0
      · refine .inr ⟨(k, m), ?_, rfl⟩
        rw [if_neg h0]
        exact (mem_applicable (hc.scopes _ _).uniq).mpr hx

theorem entries_sorted {c : Cache A F I} (hc : CacheWF c) (ip : A) (dom : UInt32) (record : List F) :
    (entries c ip dom record).Pairwise fun a b => KeyBefore a.1 b.1 := by
  unfold entries
  rw [List.pairwise_append, List.pairwise_map, List.pairwise_map]
  refine ⟨List.Pairwise.imp (fun h => .inr ⟨rfl, h⟩) (List.Pairwise.filter _ (hc.scopes ip 0).1), ?_, ?_⟩
  · by_cases h0 : dom = 0
    · rw [if_pos h0]; exact List.Pairwise.nil
    · rw [if_neg h0]
      exact List.Pairwise.imp (fun h => .inr ⟨rfl, h⟩) (List.Pairwise.filter _ (hc.scopes ip dom).1)
  · intro a ha b hb
    obtain ⟨x, -, rfl⟩ := List.mem_map.mp ha
    obtain ⟨y, hy, rfl⟩ := List.mem_map.mp hb
    by_cases h0 : dom = 0
    · rw [if_pos h0] at hy; simp [applicable] at hy
    · exact .inl ⟨rfl, h0⟩

/-- the map of which the values are returned -/
def Cache.enriched (c : Cache A F I) (ip : A) (dom : UInt32) (record : List F) : Metadata F I :=
  match c.look ip with
  | none => []
  | some p => p.enrichment dom record

theorem enriched_eq {c : Cache A F I} (hc : CacheWF c) (ip : A) (dom : UInt32) (record : List F) :
    c.enriched ip dom record = ((entries c ip dom record).map (·.2)).foldl mergeFields [] := by
  unfold Cache.enriched entries Cache.scopes
  cases hl : c.look ip with
  | none => simp [applicable]
  | some p =>
    simp only
    rw [enrichment_eq (hc.2 _ (mem_of_lookup hl)), List.map_append, List.map_append, List.map_map, List.map_map]
    rfl

/-- what is chosen for a reference, among what is held -/
def Chosen (held : UInt32 → List F → Weighted F → Prop) (dom : UInt32) (record : List F) (x : Weighted F) : Prop :=
  ∃ d s, (d = 0 ∨ d = dom) ∧ ScopeKey.matches (mapFields s : ScopeKey F I) (mapFields record) = true ∧ held d s x ∧
    ∀ d' s' y, (d' = 0 ∨ d' = dom) → ScopeKey.matches (mapFields s' : ScopeKey F I) (mapFields record) = true → held d' s' y →
      y.weight < x.weight ∨ (y.weight = x.weight ∧ ((d', s') = (d, s) ∨ KeyBefore (d', (mapFields s' : ScopeKey F I)) (d, mapFields s)))

theorem enriched_lookup {c : Cache A F I} (hc : CacheWF c) (ip : A) (dom : UInt32) (record : List F) (r : FieldRef I) (x : Weighted F) :
    (c.enriched ip dom record).look r = some x ↔ Chosen (fun d s x => c.content ip d (mapFields s) r = some x) dom record x := by
  rw [enriched_eq hc]
  rw [foldl_mergeFields_lookup]
  · rw [List.map_map]
    have := foldl_join_sorted (R := fun a b : (UInt32 × ScopeKey F I) × Metadata F I => KeyBefore a.1 b.1) (fun a => KeyBefore.irrefl _)
      (fun a b h1 h2 => KeyBefore.asymm h1 h2) (entries_sorted hc ip dom record) (fun e => e.2.look r) x
    rw [look_nil]
    refine Iff.trans this ?_
    have hcont : ∀ (d : UInt32) (k : ScopeKey F I) (y : Weighted F), c.content ip d k r = some y ↔ ∃ m, (c.scopes ip d).look k = some m ∧ m.look r = some y := by
      intro d k y
      unfold Cache.content
      exact Option.bind_eq_some_iff
    constructor
    · rintro ⟨⟨⟨d, k⟩, m⟩, he, hx, hb⟩
      obtain ⟨h1, h2, h3⟩ := (mem_entries hc).mp he
      obtain ⟨s, hs⟩ := ((hc.scopes ip d).2 _ (mem_of_lookup h2)).2
      simp only at hs h1 h2 h3
      subst hs
      refine ⟨d, s, h1, h3, (hcont _ _ _).mpr ⟨m, h2, hx⟩, fun d' s' y hd' hm' hy => ?_⟩
      obtain ⟨m', h4, h5⟩ := (hcont _ _ _).mp hy
      rcases hb ((d', mapFields s'), m') ((mem_entries hc).mpr ⟨hd', h4, hm'⟩) y h5 with h | ⟨hw, h | h⟩
      · exact .inl h
      · simp only [Prod.mk.injEq] at h
        exact .inr ⟨hw, .inl (by rw [h.1.1, mapFields_inj h.1.2])⟩
      · exact .inr ⟨hw, .inr h⟩
    · rintro ⟨d, s, h1, h3, hx, hb⟩
      obtain ⟨m, h2, hx⟩ := (hcont _ _ _).mp hx
      refine ⟨((d, mapFields s), m), (mem_entries hc).mpr ⟨h1, h2, h3⟩, hx, ?_⟩
      rintro ⟨⟨d', k'⟩, m'⟩ he' y hy
      obtain ⟨g1, g2, g3⟩ := (mem_entries hc).mp he'
      obtain ⟨s', hs'⟩ := ((hc.scopes ip d').2 _ (mem_of_lookup g2)).2
      simp only at hs' g1 g2 g3
      subst hs'
      rcases hb d' s' y g1 g3 ((hcont _ _ _).mpr ⟨m', g2, hy⟩) with h | ⟨hw, h | h⟩
      · exact .inl h
      · simp only [Prod.mk.injEq] at h
        obtain ⟨rfl, rfl⟩ := h
        rw [h2, Option.some.injEq] at g2
        exact .inr ⟨hw, .inl (by rw [g2])⟩
      · exact .inr ⟨hw, .inr h⟩
  · intro m hm
    obtain ⟨e, he, rfl⟩ := List.mem_map.mp hm
    exact ((hc.scopes ip e.1.1).meta ((mem_entries hc).mp he).2.1).1

theorem enriched_uniq {c : Cache A F I} (hc : CacheWF c) (ip : A) (dom : UInt32) (record : List F) : Uniq (c.enriched ip dom record) := by
  rw [enriched_eq hc]
  exact foldl_mergeFields_uniq _ List.Pairwise.nil

theorem nodup_of_map {α β : Type} {g : α → β} {l : List α} (h : (l.map g).Nodup) : l.Nodup :=
  List.Pairwise.imp (fun {a b} hab e => hab (by rw [e])) (List.pairwise_map.mp h)

theorem perm_map_lift {α β : Type} {g : α → β} {l : List α} {k : List β} (h : k.Perm (l.map g)) : ∃ m : List α, m.Perm l ∧ m.map g = k := by
  generalize hl : l.map g = k' at h
  induction h generalizing l with
  | nil => exact ⟨l, List.Perm.refl _, hl⟩
  | cons x h ih =>
    obtain ⟨a, l', rfl, rfl, rfl⟩ := List.map_eq_cons_iff.mp hl
    obtain ⟨m, h1, h2⟩ := ih rfl
    exact ⟨a :: m, h1.cons a, by simp [h2]⟩
  | swap x y k =>
    obtain ⟨a, l', rfl, rfl, hl'⟩ := List.map_eq_cons_iff.mp hl
    obtain ⟨b, l'', rfl, rfl, rfl⟩ := List.map_eq_cons_iff.mp hl'
    exact ⟨b :: a :: l'', List.Perm.swap _ _ _, by simp⟩
  | trans h1 h2 ih1 ih2 =>
    obtain ⟨m, g1, g2⟩ := ih2 hl
    obtain ⟨m', g3, g4⟩ := ih1 g2
    exact ⟨m', g3.trans g1, g4⟩

theorem returns_iff {c : Cache A F I} (hc : CacheWF c) (ip : A) (dom : UInt32) (record : List F) (res : Option (List F)) :
    c.Returns ip dom record res ↔
      Answers (fun r f => ∃ w, Chosen (fun d s x => c.content ip d (mapFields s : ScopeKey F I) r = some x) dom record ⟨w, f⟩) res := by
  have hm0 : ∀ r f, (r, f) ∈ (c.enriched ip dom record).map (fun x => (x.1, x.2.field)) ↔
      ∃ w, Chosen (fun d s x => c.content ip d (mapFields s : ScopeKey F I) r = some x) dom record ⟨w, f⟩ := by
    intro r f
    rw [List.mem_map]
    constructor
    · rintro ⟨⟨k, ⟨w, g⟩⟩, hx, e⟩
      simp only [Prod.mk.injEq] at e
      obtain ⟨rfl, rfl⟩ := e
      exact ⟨w, (enriched_lookup hc ip dom record _ _).mp (lookup_of_mem (enriched_uniq hc ip dom record) hx)⟩
    · rintro ⟨w, h⟩
      exact ⟨(r, ⟨w, f⟩), mem_of_lookup ((enriched_lookup hc ip dom record _ _).mpr h), rfl⟩
  have hn0 : (((c.enriched ip dom record).map (fun x => (x.1, x.2.field))).map (·.1)).Nodup := by
    rw [List.map_map]
    exact List.pairwise_map.mpr (enriched_uniq hc ip dom record)
  have hr : c.Returns ip dom record res ↔ (c.enriched ip dom record = [] ∧ res = none) ∨
      (c.enriched ip dom record ≠ [] ∧ ∃ l, res = some l ∧ l.Perm ((c.enriched ip dom record).map fun x => x.2.field)) := Iff.rfl
  rw [hr]
  generalize hE : c.enriched ip dom record = E at *
  constructor
  · rintro (⟨rfl, rfl⟩ | ⟨hne, l, rfl, hp⟩)
    · exact ⟨[], by simp, by simpa using hm0, rfl⟩
    · obtain ⟨m, hmp, rfl⟩ : ∃ m : List (FieldRef I × F), m.Perm (E.map fun x => (x.1, x.2.field)) ∧ m.map (·.2) = l := by
        have e : E.map (fun x => x.2.field) = (E.map fun x => (x.1, x.2.field)).map (·.2) := by simp [List.map_map, Function.comp_def]
        rw [e] at hp
        exact perm_map_lift hp
      refine ⟨m, (hmp.map _).nodup_iff.mpr hn0, fun r f => (hmp.mem_iff).trans (hm0 r f), ?_⟩
      rw [if_neg]
      rintro rfl
      have := hmp.symm.eq_nil
      simp only [List.map_eq_nil_iff] at this
      exact hne this
  · rintro ⟨m, hn, hm, rfl⟩
    have hp : m.Perm (E.map fun x => (x.1, x.2.field)) := by
      refine (List.perm_ext_iff_of_nodup (nodup_of_map hn) (nodup_of_map hn0)).mpr ?_
      rintro ⟨r, f⟩
      rw [hm, hm0]
    by_cases hE0 : E = []
    · subst hE0
      have := hp.eq_nil
      subst this
      exact .inl ⟨rfl, rfl⟩
    · refine .inr ⟨hE0, m.map (·.2), ?_, ?_⟩
      · rw [if_neg]
        rintro rfl
        have := hp.symm.eq_nil
        simp only [List.map_eq_nil_iff] at this
        exact hE0 this
      · have := hp.map (·.2)
        rw [List.map_map] at this
        exact this

/-! ## More -/

theorem foldl_join_ne_none {l : List (Option (Weighted F))} {b : Option (Weighted F)} {y : Weighted F} (h : some y ∈ l ∨ b ≠ none) : l.foldl join b ≠ none := by
  induction l generalizing b with
  | nil => simpa using h
  | cons o l ih =>
    rw [List.foldl_cons]
    refine ih ?_
    rcases h with h | h
    · rcases List.mem_cons.mp h with e | h
      · right
        rw [← e]
        cases b with
        | none => simp [join]
        | some c => simp only [join]; split <;> simp
      · exact .inl h
    · right
      cases b with
      | none => exact absurd rfl h
      | some c =>
        cases o with
        | none => simp [join]
        | some w => simp only [join]; split <;> simp

/-- if something that applies is held, something is chosen -/
theorem chosen_exists {c : Cache A F I} (hc : CacheWF c) {ip : A} {dom : UInt32} {record : List F} {r : FieldRef I} {d : UInt32} {s : List F} {x : Weighted F}
    (hd : d = 0 ∨ d = dom) (hm : ScopeKey.matches (mapFields s : ScopeKey F I) (mapFields record) = true)
    (hx : c.content ip d (mapFields s) r = some x) : ∃ y, Chosen (fun d s x => c.content ip d (mapFields s) r = some x) dom record y := by
  obtain ⟨m, h1, h2⟩ := Option.bind_eq_some_iff.mp hx
  have he : ((d, (mapFields s : ScopeKey F I)), m) ∈ entries c ip dom record := (mem_entries hc).mpr ⟨hd, h1, hm⟩
  have hn : (c.enriched ip dom record).look r ≠ none := by
    rw [enriched_eq hc, foldl_mergeFields_lookup]
    · refine foldl_join_ne_none (y := x) (.inl ?_)
      rw [List.map_map, ← h2]
      exact List.mem_map.mpr ⟨_, he, rfl⟩
    · intro m hm
      obtain ⟨e, he, rfl⟩ := List.mem_map.mp hm
      exact ((hc.scopes ip e.1.1).meta ((mem_entries hc).mp he).2.1).1
  obtain ⟨y, hy⟩ := Option.ne_none_iff_exists'.mp hn
  exact ⟨y, (enriched_lookup hc _ _ _ _ _).mp hy⟩

/-- the number of fields of an element -/
def cnt (p : List F) (i : I) : Nat := (p.filter fun g => ie g = i).length

theorem cnt_snoc (p : List F) (f : F) : (fun i => if i = ie f then cnt p (ie f) + 1 else cnt p i) = cnt (p ++ [f]) := by
  funext i
  unfold cnt
  rw [List.filter_append, List.length_append]
  by_cases h : i = ie f
  · subst h; simp
  · rw [if_neg h, List.filter_cons_of_neg (by simpa using Ne.symm h)]; simp

theorem lex_from (p s t : List F) :
    ScopeKey.lt (mapFieldsFrom (cnt p) s : ScopeKey F I) (mapFieldsFrom (cnt p) t) = true ↔
      ∃ c x y, s = c ++ x ∧ t = c ++ y ∧
        ((x = [] ∧ y ≠ []) ∨ ∃ f x' g y', x = f :: x' ∧ y = g :: y' ∧ FieldOrd.lt (occ (p ++ c) f, f) (occ (p ++ c) g, g) = true) := by
  induction s generalizing p t with
  | nil =>
    cases t with
    | nil =>
      simp only [mapFieldsFrom, ScopeKey.lt]
      constructor
      · simp
      · rintro ⟨c, x, y, h1, h2, h3⟩
        simp only [List.nil_eq, List.append_eq_nil_iff] at h1 h2
        obtain ⟨rfl, rfl⟩ := h1
        rcases h3 with ⟨-, h3⟩ | ⟨f, x', g, y', h, -⟩
        · exact absurd h2.2 h3
        · simp at h
    | cons b t =>
      simp only [mapFieldsFrom, ScopeKey.lt, true_iff]
      exact ⟨[], [], b :: t, rfl, rfl, .inl ⟨rfl, by simp⟩⟩
  | cons a s ih =>
    cases t with
    | nil =>
      simp only [mapFieldsFrom, ScopeKey.lt]
      constructor
      · simp
      · rintro ⟨c, x, y, h1, h2, h3⟩
        simp only [List.nil_eq, List.append_eq_nil_iff] at h2
        obtain ⟨rfl, rfl⟩ := h2
        rcases h3 with ⟨-, h3⟩ | ⟨f, x', g, y', -, h, -⟩
        · exact absurd rfl h3
        · simp at h
    | cons b t =>
      simp only [mapFieldsFrom, ScopeKey.lt, Bool.or_eq_true, Bool.and_eq_true, decide_eq_true_eq]
      constructor
      · rintro (h | ⟨h1, h2⟩)
        · exact ⟨[], a :: s, b :: t, rfl, rfl, .inr ⟨a, s, b, t, rfl, rfl, by rw [List.append_nil]; exact h⟩⟩
        · simp only [Prod.mk.injEq] at h1
          obtain ⟨-, rfl⟩ := h1
          rw [cnt_snoc] at h2
          obtain ⟨c, x, y, rfl, rfl, h3⟩ := (ih _ _).mp h2
          refine ⟨a :: c, x, y, rfl, rfl, ?_⟩
          rw [List.append_cons]; exact h3
      · rintro ⟨c, x, y, h1, h2, h3⟩
        cases c with
        | nil =>
          rw [List.nil_append] at h1 h2
          subst h1; subst h2
          rcases h3 with ⟨h3, -⟩ | ⟨f, x', g, y', e1, e2, h3⟩
          · simp at h3
          · simp only [List.cons.injEq] at e1 e2
            obtain ⟨rfl, rfl⟩ := e1
            obtain ⟨rfl, rfl⟩ := e2
            rw [List.append_nil] at h3
            exact .inl h3
        | cons e c =>
          simp only [List.cons_append, List.cons.injEq] at h1 h2
          obtain ⟨rfl, h1⟩ := h1
          obtain ⟨rfl, h2⟩ := h2
          refine .inr ⟨rfl, ?_⟩
          rw [cnt_snoc]
          refine (ih _ _).mpr ⟨c, x, y, h1, h2, ?_⟩
          rw [List.append_cons] at h3; exact h3

theorem lex_iff (s t : List F) : ScopeKey.lt (mapFields s : ScopeKey F I) (mapFields t) = true ↔ LexBefore s t := by
  have := lex_from ([] : List F) s t
  simp only [List.nil_append] at this
  exact this

/-- the peers of a cache are those something is held for -/
theorem peer_iff {c : Cache A F I} (hc : CacheWF c) (ip : A) :
    ip ∈ c.map (·.1) ↔ ∃ d s r x, c.content ip d (mapFields s : ScopeKey F I) r = some x := by
  constructor
  · intro h
    obtain ⟨⟨ip', p⟩, hp, rfl⟩ := List.mem_map.mp h
    have hl := lookup_of_mem hc.1 hp
    obtain ⟨w1, -, w3, w4⟩ := hc.2 _ hp
    have key : ∀ d, c.scopes ip' d ≠ [] → ∃ d s r x, c.content ip' d (mapFields s : ScopeKey F I) r = some x := by
      intro d hd
      obtain ⟨⟨k, m⟩, t, ht⟩ := List.exists_cons_of_ne_nil hd
      have hm : (k, m) ∈ c.scopes ip' d := by rw [ht]; simp
      obtain ⟨⟨hu, hne⟩, s, hs⟩ := (hc.scopes ip' d).2 _ hm
      simp only at hs hu hne
      subst hs
      obtain ⟨⟨r, x⟩, m', rfl⟩ := List.exists_cons_of_ne_nil hne
      refine ⟨d, s, r, x, ?_⟩
      unfold Cache.content
      rw [lookup_of_mem (hc.scopes ip' d).uniq hm, Option.bind_some]
      exact lookup_of_mem hu (by simp)
    by_cases hg : p.global = []
    · have hd : p.domains ≠ [] := fun h => w4 ⟨hg, h⟩
      obtain ⟨⟨d, t⟩, l, hl'⟩ := List.exists_cons_of_ne_nil hd
      have hm : (d, t) ∈ p.domains := by rw [hl']; simp
      obtain ⟨g1, g2, -⟩ := w3 _ hm
      refine key d ?_
      unfold Cache.scopes
      simp only [hl]
      unfold PeerMetadata.scopes
      rw [if_neg g1, hl', lookup_cons', if_pos rfl]
      exact g2
    · refine key 0 ?_
      unfold Cache.scopes
      simp only [hl]
      unfold PeerMetadata.scopes
      rw [if_pos rfl]; exact hg
  · rintro ⟨d, s, r, x, h⟩
    cases hl : c.look ip with
    | none => simp [Cache.content, Cache.scopes, hl] at h
    | some p => exact List.mem_map.mpr ⟨_, mem_of_lookup hl, rfl⟩

end Verif.Collector
