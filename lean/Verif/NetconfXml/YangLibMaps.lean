import Verif.NetconfXml.YangLib
/-!
# The maps of a YANG library
-/
namespace Verif.Xml
open Verif.Collector (Text trim)

section
variable {α κ : Type} [DecidableEq κ] (key : α → κ)

theorem insertBy_new {x : α} {l : List α} (h : ∀ y ∈ l, key y ≠ key x) : insertBy key x l = l ++ [x] := by
  induction l with
  | nil => rfl
  | cons y l ih =>
    unfold insertBy
    rw [if_neg (h y List.mem_cons_self), ih fun z hz => h z (List.mem_cons_of_mem _ hz)]; rfl

/-- the keys of values -/
def Distinct (l : List α) : Prop := l.Pairwise fun a b => key a ≠ key b

theorem foldl_insertBy {acc l : List α} (h : Distinct key (acc ++ l)) : l.foldl (fun m x => insertBy key x m) acc = acc ++ l := by
  induction l generalizing acc with
  | nil => simp
  | cons x l ih =>
    simp only [List.foldl_cons]
    have h' := List.pairwise_append.1 h
    rw [insertBy_new key fun y hy => h'.2.2 y hy x List.mem_cons_self, ih (by simpa [Distinct] using h)]
    simp

/-- values with different keys stay as they are -/
theorem mapOf_distinct {l : List α} (h : Distinct key l) : mapOf key l = l := by
  have := foldl_insertBy key (acc := []) (l := l) (by simpa using h)
  simpa [mapOf] using this

theorem mem_insertBy {x y : α} {l : List α} (h : y ∈ insertBy key x l) : y = x ∨ y ∈ l := by
  induction l with
  | nil => simp [insertBy] at h; exact .inl h
  | cons z l ih =>
    unfold insertBy at h
    split at h
    · rcases List.mem_cons.1 h with h | h
      · exact .inl h
      · exact .inr (List.mem_cons_of_mem _ h)
    · rcases List.mem_cons.1 h with h | h
      · exact .inr (h ▸ List.mem_cons_self)
      · rcases ih h with h | h
        · exact .inl h
        · exact .inr (List.mem_cons_of_mem _ h)

theorem distinct_insertBy {x : α} {l : List α} (h : Distinct key l) : Distinct key (insertBy key x l) := by
  induction l with
  | nil => simp [insertBy, Distinct]
  | cons y l ih =>
    have hl := List.pairwise_cons.1 h
    unfold insertBy
    split
    · next e => exact List.pairwise_cons.2 ⟨fun z hz => by rw [← e]; exact hl.1 z hz, hl.2⟩
    · next e =>
      refine List.pairwise_cons.2 ⟨fun z hz => ?_, ih hl.2⟩
      rcases mem_insertBy key hz with rfl | hz
      · exact e
      · exact hl.1 z hz

theorem distinct_foldl (l : List α) : ∀ acc, Distinct key acc → Distinct key (l.foldl (fun m x => insertBy key x m) acc) := by
  induction l with
  | nil => intro acc h; exact h
  | cons x l ih => intro acc h; exact ih _ (distinct_insertBy key h)

theorem distinct_mapOf (l : List α) : Distinct key (mapOf key l) := distinct_foldl key l [] List.Pairwise.nil

theorem mem_mapOf {x : α} {l : List α} (h : x ∈ mapOf key l) : x ∈ l := by
  unfold mapOf at h
  suffices H : ∀ (l : List α) acc, x ∈ l.foldl (fun m x => insertBy key x m) acc → x ∈ acc ∨ x ∈ l by
    rcases H l [] h with h | h
    · simp at h
    · exact h
  intro l
  induction l with
  | nil => intro acc h; exact .inl h
  | cons y l ih =>
    intro acc h
    rcases ih _ h with h | h
    · rcases mem_insertBy key h with rfl | h
      · exact .inr List.mem_cons_self
      · exact .inl h
    · exact .inr (List.mem_cons_of_mem _ h)

/-- making a map of the values of a map changes nothing -/
theorem mapOf_mapOf (l : List α) : mapOf key (mapOf key l) = mapOf key l := mapOf_distinct key (distinct_mapOf key l)

theorem find_insertBy (k : κ) (x : α) (l : List α) : (insertBy key x l).find? (fun y => key y = k) = if key x = k then some x else l.find? (fun y => key y = k) := by
  induction l with
  | nil => simp [insertBy, List.find?]
  | cons y l ih =>
    unfold insertBy
    split
    · next e => simp only [List.find?_cons]; rw [← e]; split <;> simp_all
    · next e =>
      simp only [List.find?_cons, ih]
      by_cases h1 : key y = k
      · have : key x ≠ k := fun h => e (h1.trans h.symm)
        simp [h1, this]
      · simp [h1]

/-- what is found under a key is the last value that has it -/
theorem find_mapOf (k : κ) (l : List α) : (mapOf key l).find? (fun y => key y = k) = l.reverse.find? (fun y => key y = k) := by
  unfold mapOf
  suffices H : ∀ (l acc : List α), (l.foldl (fun m x => insertBy key x m) acc).find? (fun y => key y = k) = ((l.reverse.find? (fun y => key y = k)).or (acc.find? (fun y => key y = k))) by
    rw [H l []]; simp
  intro l
  induction l with
  | nil => intro acc; simp
  | cons x l ih =>
    intro acc
    simp only [List.foldl_cons, ih, find_insertBy, List.reverse_cons, List.find?_append, List.find?_cons, List.find?_nil]
    cases l.reverse.find? (fun y => key y = k) with
    | some a => simp
    | none =>
      by_cases h : key x = k <;> simp [h]

end

/-! ## Modules to import only -/

/-- as the map of the modules to import only is kept -/
structure Grouped (m : List (Text × List YImport)) : Prop where
  names : m.Pairwise fun a b => a.1 ≠ b.1
  groups : ∀ g ∈ m, g.2 ≠ [] ∧ (∀ x ∈ g.2, x.name = g.1) ∧ Distinct YImport.revision g.2

theorem insertImport_new {x : YImport} {m : List (Text × List YImport)} (h : ∀ g ∈ m, g.1 ≠ x.name) : insertImport x m = m ++ [(x.name, [x])] := by
  induction m with
  | nil => rfl
  | cons g m ih =>
    obtain ⟨n, g⟩ := g
    unfold insertImport
    rw [if_neg (h (n, g) List.mem_cons_self), ih fun z hz => h z (List.mem_cons_of_mem _ hz)]; rfl

theorem insertImport_last {x : YImport} {m : List (Text × List YImport)} {g : List YImport} (h : ∀ g ∈ m, g.1 ≠ x.name) (hg : ∀ y ∈ g, y.revision ≠ x.revision) :
    insertImport x (m ++ [(x.name, g)]) = m ++ [(x.name, g ++ [x])] := by
  induction m with
  | nil => simp [insertImport, insertBy_new _ hg]
  | cons e m ih =>
    obtain ⟨n, e⟩ := e
    rw [List.cons_append]
    unfold insertImport
    rw [if_neg (h (n, e) List.mem_cons_self), ih fun z hz => h z (List.mem_cons_of_mem _ hz)]; rfl

theorem foldl_group {m : List (Text × List YImport)} {n : Text} {l : List YImport} (hm : ∀ g ∈ m, g.1 ≠ n) (hn : ∀ x ∈ l, x.name = n) :
    ∀ {acc : List YImport}, Distinct YImport.revision (acc ++ l) → l.foldl (fun m x => insertImport x m) (m ++ [(n, acc)]) = m ++ [(n, acc ++ l)] := by
  induction l with
  | nil => intro acc _; simp
  | cons x l ih =>
    intro acc h
    have hx := hn x List.mem_cons_self
    subst hx
    have h' := List.pairwise_append.1 h
    simp only [List.foldl_cons]
    rw [insertImport_last hm fun y hy => h'.2.2 y hy x List.mem_cons_self, ih (fun y hy => hn y (List.mem_cons_of_mem _ hy)) (by simpa [Distinct] using h)]
    simp

/-- modules to import only that are read in the order of the map make the map again -/
theorem importsOf_flatten {m : List (Text × List YImport)} (h : Grouped m) : importsOf (m.flatMap Prod.snd) = m := by
  unfold importsOf
  suffices H : ∀ (acc : List (Text × List YImport)), Grouped (acc ++ m) → (m.flatMap Prod.snd).foldl (fun m x => insertImport x m) acc = acc ++ m by
    simpa using H [] (by simpa using h)
  clear h
  induction m with
  | nil => intro acc _; simp
  | cons g m ih =>
    intro acc h
    obtain ⟨n, g⟩ := g
    obtain ⟨h1, h2, h3⟩ := h.groups (n, g) (by simp)
    have hnames := List.pairwise_append.1 h.names
    cases g with
    | nil => exact absurd rfl h1
    | cons x l =>
      have hx : x.name = n := h2 x List.mem_cons_self
      simp only [List.flatMap_cons, List.cons_append, List.foldl_cons, List.foldl_append]
      rw [insertImport_new fun e he => by rw [hx]; exact hnames.2.2 e he (n, x :: l) List.mem_cons_self, hx]
      rw [foldl_group (fun e he => hnames.2.2 e he (n, x :: l) List.mem_cons_self) (fun y hy => h2 y (List.mem_cons_of_mem _ hy)) (by simpa using h3)]
      rw [ih _ (by simpa using h)]
      simp

theorem grouped_insert {x : YImport} {m : List (Text × List YImport)} (h : Grouped m) : Grouped (insertImport x m) ∧ ∀ g ∈ insertImport x m, g.1 = x.name ∨ ∃ g' ∈ m, g'.1 = g.1 := by
  induction m with
  | nil =>
    refine ⟨⟨by simp [insertImport], ?_⟩, by simp [insertImport]⟩
    intro g hg
    simp [insertImport] at hg
    subst hg
    simp [Distinct]
  | cons e m ih =>
    obtain ⟨n, e⟩ := e
    have hnames := List.pairwise_cons.1 h.names
    have hm : Grouped m := ⟨hnames.2, fun g hg => h.groups g (List.mem_cons_of_mem _ hg)⟩
    obtain ⟨i1, i2⟩ := ih hm
    obtain ⟨h1, h2, h3⟩ := h.groups (n, e) List.mem_cons_self
    unfold insertImport
    split
    · next hn =>
      refine ⟨⟨List.pairwise_cons.2 ⟨fun g hg => hnames.1 g hg, hnames.2⟩, ?_⟩, ?_⟩
      · intro g hg
        rcases List.mem_cons.1 hg with rfl | hg
        · refine ⟨?_, ?_, distinct_insertBy _ h3⟩
          · cases e with
            | nil => simp [insertBy]
            | cons y e => simp only [insertBy]; split <;> simp
          · intro y hy
            rcases mem_insertBy _ hy with rfl | hy
            · exact hn.symm
            · exact h2 y hy
        · exact hm.groups g hg
      · intro g hg
        rcases List.mem_cons.1 hg with rfl | hg
        · exact .inl hn
        · exact .inr ⟨g, List.mem_cons_of_mem _ hg, rfl⟩
    · next hn =>
      refine ⟨⟨List.pairwise_cons.2 ⟨fun g hg => ?_, i1.names⟩, ?_⟩, ?_⟩
      · rcases i2 g hg with hg | ⟨g', hg', hg⟩
        · rw [hg]; exact hn
        · rw [← hg]; exact hnames.1 g' hg'
      · intro g hg
        rcases List.mem_cons.1 hg with rfl | hg
        · exact ⟨h1, h2, h3⟩
        · exact i1.groups g hg
      · intro g hg
        rcases List.mem_cons.1 hg with rfl | hg
        · exact .inr ⟨(n, e), List.mem_cons_self, rfl⟩
        · rcases i2 g hg with hg | ⟨g', hg', hg⟩
          · exact .inl hg
          · exact .inr ⟨g', List.mem_cons_of_mem _ hg', hg⟩

theorem grouped_importsOf (l : List YImport) : Grouped (importsOf l) := by
  unfold importsOf
  suffices H : ∀ (l : List YImport) m, Grouped m → Grouped (l.foldl (fun m x => insertImport x m) m) from H l [] ⟨List.Pairwise.nil, by simp⟩
  intro l
  induction l with
  | nil => intro m h; exact h
  | cons x l ih => intro m h; exact ih _ (grouped_insert h).1

/-- the module to import only under a name and a revision -/
def findImport (m : List (Text × List YImport)) (name : Text) (revision : Option Text) : Option YImport :=
  (m.find? fun g => g.1 = name).bind fun g => g.2.find? fun x => x.revision = revision

theorem find_insertImport (x : YImport) (m : List (Text × List YImport)) (name : Text) (revision : Option Text) :
    findImport (insertImport x m) name revision = if x.name = name ∧ x.revision = revision then some x else findImport m name revision := by
  induction m with
  | nil =>
    by_cases h1 : x.name = name <;> by_cases h2 : x.revision = revision <;> simp [insertImport, findImport, h1, h2]
  | cons e m ih =>
    obtain ⟨n, e⟩ := e
    unfold insertImport
    split
    · next hn =>
      subst hn
      by_cases h1 : x.name = name
      · have hf := find_insertBy YImport.revision revision x e
        by_cases h2 : x.revision = revision <;> simp_all [findImport]
      · simp [findImport, h1]
    · next hn =>
      by_cases h1 : n = name
      · have : x.name ≠ name := fun h => hn (h1.trans h.symm)
        simp [findImport, h1, this]
      · simp only [findImport] at ih
        simp [findImport, h1, ih]

/-- what is found under a name and a revision is the last that has them -/
theorem find_importsOf (l : List YImport) (name : Text) (revision : Option Text) :
    findImport (importsOf l) name revision = l.reverse.find? fun x => x.name = name ∧ x.revision = revision := by
  unfold importsOf
  suffices H : ∀ (l : List YImport) m, findImport (l.foldl (fun m x => insertImport x m) m) name revision = (l.reverse.find? fun x => x.name = name ∧ x.revision = revision).or (findImport m name revision) by
    rw [H l []]; simp [findImport]
  intro l
  induction l with
  | nil => intro acc; simp
  | cons x l ih =>
    intro acc
    simp only [List.foldl_cons, ih, find_insertImport, List.reverse_cons, List.find?_append, List.find?_cons, List.find?_nil]
    cases l.reverse.find? fun x => x.name = name ∧ x.revision = revision with
    | some a => simp
    | none =>
      by_cases h1 : x.name = name <;> by_cases h2 : x.revision = revision <;> simp [h1, h2]

theorem mem_importsOf {x : YImport} {l : List YImport} {g : Text × List YImport} (hg : g ∈ importsOf l) (hx : x ∈ g.2) : x ∈ l := by
  have hd := grouped_importsOf l
  obtain ⟨_, h2, h3⟩ := hd.groups g hg
  have hfind : findImport (importsOf l) g.1 x.revision = some x := by
    unfold findImport
    have e1 : (importsOf l).find? (fun g' => g'.1 = g.1) = some g := by
      generalize importsOf l = m at hg hd ⊢
      have hn := hd.names
      clear hd
      induction m with
      | nil => simp at hg
      | cons e m ih =>
        have hn' := List.pairwise_cons.1 hn
        rcases List.mem_cons.1 hg with rfl | hg
        · simp
        · have : e.1 ≠ g.1 := hn'.1 g hg
          simp only [List.find?_cons, this, decide_false]
          exact ih hg hn'.2
    rw [e1, Option.bind_some]
    generalize g.2 = gl at hx h3 ⊢
    induction gl with
    | nil => simp at hx
    | cons e m ih =>
      have hn' := List.pairwise_cons.1 h3
      rcases List.mem_cons.1 hx with rfl | hx
      · simp
      · have : e.revision ≠ x.revision := hn'.1 x hx
        simp only [List.find?_cons, this, decide_false]
        exact ih hx hn'.2
  rw [find_importsOf] at hfind
  exact List.mem_reverse.1 (List.mem_of_find?_eq_some hfind)

end Verif.Xml
