import Verif.NetconfXml.YangLibWrites
/-!
# Elements of the YANG library that are passed over
-/
namespace Verif.Xml
open Verif.Collector (Text trim)

theorem map_raw_append {es : List Ev} {a b : List Raw} (h : es.map (·.raw) = a ++ b) : ∃ ea eb, es = ea ++ eb ∧ ea.map (·.raw) = a ∧ eb.map (·.raw) = b := by
  obtain ⟨ea, eb, h1, h2, h3⟩ := List.map_eq_append_iff.1 h
  exact ⟨ea, eb, h1, h2, h3⟩

theorem map_raw_cons {es : List Ev} {r : Raw} {b : List Raw} (h : es.map (·.raw) = r :: b) : ∃ e eb, es = e :: eb ∧ e.raw = r ∧ eb.map (·.raw) = b := by
  obtain ⟨e, eb, h1, h2, h3⟩ := List.map_eq_cons_iff.1 h
  exact ⟨e, eb, h1, h2, h3⟩

theorem readToEnd_open {q p : QName} {as : List Attr} {d : Nat} {e : Ev} {es : List Ev} (h : e.raw = .start p as) : readToEnd q d (e :: es) = readToEnd q (if p = q then d + 1 else d) es := by
  rw [readToEnd.eq_def]; simp only [h]

theorem readToEnd_close {q p : QName} {d : Nat} {e : Ev} {es : List Ev} (h : e.raw = .close p) :
    readToEnd q d (e :: es) = if p = q then (match d with | 0 => some es | d + 1 => readToEnd q d es) else readToEnd q d es := by
  rw [readToEnd.eq_def]; simp only [h]
  cases d <;> rfl

theorem readToEnd_single {q : QName} {d : Nat} {e : Ev} {es : List Ev} (h : e.raw.single = true) : readToEnd q d (e :: es) = readToEnd q d es := by
  rw [readToEnd.eq_def]; simp only
  obtain ⟨r, sc⟩ := e
  cases r <;> simp [Raw.single] at h <;> rfl

theorem readToEnd_bal {c : List Raw} (h : Bal c) (q : QName) (rest : List Ev) : ∀ (d : Nat) (es : List Ev), es.map (·.raw) = c → readToEnd q d (es ++ rest) = readToEnd q d rest := by
  induction h generalizing rest with
  | nil => intro d es he; simp at he; subst he; rfl
  | @single r c hr _ ih =>
    intro d es he
    obtain ⟨e, eb, rfl, he1, he2⟩ := map_raw_cons he
    rw [List.cons_append, readToEnd_single (by rw [he1]; exact hr)]
    exact ih rest d eb he2
  | @tag p as a b _ _ iha ihb =>
    intro d es he
    obtain ⟨e, eb, rfl, he1, he2⟩ := map_raw_cons he
    obtain ⟨ea, er, rfl, ha, hb⟩ := map_raw_append he2
    obtain ⟨ec, eb, rfl, hc, hb⟩ := map_raw_cons hb
    rw [List.cons_append, List.append_assoc, List.cons_append, readToEnd_open he1, iha _ _ ea ha, readToEnd_close hc]
    by_cases hpq : p = q
    · simp only [hpq, if_true]
      exact ihb rest d eb hb
    · simp only [hpq, if_false]
      exact ihb rest d eb hb

theorem bal_fine {c : List Raw} (h : Bal c) {es : List Ev} (he : es.map (·.raw) = c) {rest : List Ev} (hr : headBad rest = false) : headBad (es ++ rest) = false := by
  cases h with
  | nil => simp at he; subst he; exact hr
  | @single r c hr' _ =>
    obtain ⟨e, eb, rfl, he1, he2⟩ := map_raw_cons he
    simp only [List.cons_append, headBad, he1]
    cases r <;> simp [Raw.single] at hr' <;> rfl
  | @tag p as a b _ _ =>
    obtain ⟨e, eb, rfl, he1, he2⟩ := map_raw_cons he
    simp only [List.cons_append, headBad, he1]; rfl

theorem closeF_bal {q : QName} {sc : Scope} {rest : List Ev} (hrest : headBad rest = false) {c : List Raw} (h : Bal c) :
    ∀ (n : Nat) (es : List Ev) (ps : List Bool), es.map (·.raw) = c → es.length < n → closeF n ⟨es ++ ⟨.close q, sc⟩ :: rest, ps⟩ = (.ok (), ⟨rest, ps.tail⟩) := by
  induction h with
  | nil =>
    intro n es ps he hn
    simp at he; subst he
    obtain ⟨n, rfl⟩ : ∃ m, n = m + 1 := ⟨n - 1, by simp at hn; omega⟩
    simp [closeF, next, hrest]
  | @single r c hr hc ih =>
    intro n es ps he hn
    obtain ⟨e, eb, rfl, he1, he2⟩ := map_raw_cons he
    obtain ⟨n, rfl⟩ : ∃ m, n = m + 1 := ⟨n - 1, by simp at hn; omega⟩
    have hf : headBad (eb ++ ⟨.close q, sc⟩ :: rest) = false := bal_fine hc he2 (by rfl)
    have hskip : skip ⟨e :: (eb ++ ⟨.close q, sc⟩ :: rest), ps⟩ = (.ok (), ⟨eb ++ ⟨.close q, sc⟩ :: rest, ps⟩) := by
      unfold skip
      simp only [he1]
      cases r <;> simp [Raw.single] at hr <;> simp [next, hf]
    rw [List.cons_append]
    obtain ⟨er, es⟩ := e
    simp only at he1
    subst he1
    unfold closeF
    rw [hskip]
    have := ih n eb ps he2 (by simp at hn; omega)
    cases er <;> simp [Raw.single] at hr <;> exact this
  | @tag p as a b ha hb iha ihb =>
    intro n es ps he hn
    obtain ⟨e, eb, rfl, he1, he2⟩ := map_raw_cons he
    obtain ⟨ea, er, rfl, ha', hb'⟩ := map_raw_append he2
    obtain ⟨ec, eb, rfl, hc, hb'⟩ := map_raw_cons hb'
    obtain ⟨n, rfl⟩ : ∃ m, n = m + 1 := ⟨n - 1, by simp at hn; omega⟩
    have hf : headBad (eb ++ ⟨.close q, sc⟩ :: rest) = false := bal_fine hb hb' (by rfl)
    have hskip : skip ⟨e :: (ea ++ ec :: (eb ++ ⟨.close q, sc⟩ :: rest)), ps⟩ = (.ok (), ⟨eb ++ ⟨.close q, sc⟩ :: rest, ps⟩) := by
      unfold skip
      simp only [he1]
      have : readToEnd p 0 (ea ++ ec :: (eb ++ ⟨.close q, sc⟩ :: rest)) = some (eb ++ ⟨.close q, sc⟩ :: rest) := by
        rw [readToEnd_bal ha p _ 0 ea ha', readToEnd_close hc]
        simp
      rw [this]
      simp [hf]
    rw [List.cons_append, List.append_assoc, List.cons_append]
    obtain ⟨er, es⟩ := e
    simp only at he1
    subst he1
    unfold closeF
    rw [hskip]
    exact ihb n eb ps hb' (by simp at hn; omega)

/-- closing an element passes over what is left of its content -/
theorem close_bal {c : List Raw} (h : Bal c) {st : Stack} {q : QName} {sc : Scope} {R : List Raw} {ps : List Bool} (hR : headBad (annotate st R) = false) :
    close ⟨annotate ((q, sc) :: st) (c ++ .close q :: R), true :: ps⟩ = (.ok (), ⟨annotate st R, ps⟩) := by
  obtain ⟨es, h1, h2⟩ := annotate_bal h ((q, sc) :: st)
  rw [h2, annotate_close]
  unfold close
  simp only [hasChild, if_true]
  exact closeF_bal hR h _ es _ h1 (by simp; omega)

/-- the element of a module with more at its end -/
def moduleRawsMore (m : YModule) (more : List Raw) : List Raw :=
  elem "module" (leafRaws "name" m.name ++ (optRaws (leafRaws "revision") m.revision ++ (leafRaws "namespace" m.uri ++ (m.locations.flatMap (leafRaws "location") ++
    (m.submodules.flatMap submoduleRaws ++ (m.features.flatMap (leafRaws "feature") ++ (m.deviations.flatMap (leafRaws "deviation") ++ (m.augmentedBy.flatMap augmentedRaws ++ more))))))))

theorem reads_moduleMore {st : Stack} (h : InNs st nsYangLibrary) {m : YModule} (hm : m.Ok) {more : List Raw} (hb : Bal more)
    (hx : ∀ sc R, Next (annotate ((⟨none, "module"⟩, sc) :: st) (more ++ .close ⟨none, "module"⟩ :: R)))
    (ho : ∀ k ∈ ["location", "submodule", "feature", "deviation", "augmented-by"], ∀ ns sc R, isTagL ns k (annotate ((⟨none, "module"⟩, sc) :: st) (more ++ .close ⟨none, "module"⟩ :: R)) = false) :
    Reads readYModule st (moduleRawsMore m more) m := by
  intro R ps hR
  have h' : InNs ((⟨none, "module"⟩, st.scope) :: st) nsYangLibrary := h
  refine (bind_ok (skipText_next (next_elem _ _ _ _))).trans ?_
  rw [elem_append]
  simp only [List.append_assoc]
  refine (bind_ok (open_elem h (fine_leafRaws _ _ _ _))).trans ?_
  generalize hst : ((⟨none, "module"⟩, st.scope) :: st : Stack) = st' at h' ⊢
  have x0 : Next (annotate st' (more ++ .close ⟨none, "module"⟩ :: R)) := by rw [← hst]; exact hx _ _
  have n0 : ∀ k ∈ ["location", "submodule", "feature", "deviation", "augmented-by"], ∀ ns, isTagL ns k (annotate st' (more ++ .close ⟨none, "module"⟩ :: R)) = false := fun k hk ns => by rw [← hst]; exact ho k hk _ _ _
  have x1 := next_flatMap (next_augmented st') m.augmentedBy x0
  have x2 := next_flatMap (next_leafRaws st' "deviation") m.deviations x1
  have x3 := next_flatMap (next_leafRaws st' "feature") m.features x2
  have x4 := next_flatMap (next_submodule st') m.submodules x3
  have x5 := next_flatMap (next_leafRaws st' "location") m.locations x4
  refine (bind_ok (reads_name h' "name" hm.name _ _ (next_opt2 (next_leafRaws _ _) _ (next_leafRaws _ _ _ _)))).trans ?_
  refine (bind_ok (reads_revision h' hm.revision _ (next_leafRaws _ _ _ _) (other_leafRaws _ (by decide) _ _))).trans ?_
  refine (bind_ok (reads_name h' "namespace" hm.uri _ _ x5)).trans ?_
  refine (bind_ok (reads_texts h' "location" hm.locations x4 (other_flatMap (other_submodule _ (by decide)) _ (other_flatMap (other_leafRaws _ (by decide)) _
    (other_flatMap (other_leafRaws _ (by decide)) _ (other_flatMap (other_augmented _ (by decide)) _ (n0 _ (by simp) _))))) _)).trans ?_
  refine (bind_ok (reads_submodules h' hm.submodules x3 (other_flatMap (other_leafRaws _ (by decide)) _
    (other_flatMap (other_leafRaws _ (by decide)) _ (other_flatMap (other_augmented _ (by decide)) _ (n0 _ (by simp) _)))) _)).trans ?_
  refine (bind_ok (reads_texts h' "feature" hm.features x2 (other_flatMap (other_leafRaws _ (by decide)) _ (other_flatMap (other_augmented _ (by decide)) _ (n0 _ (by simp) _))) _)).trans ?_
  refine (bind_ok (reads_texts h' "deviation" hm.deviations x1 (other_flatMap (other_augmented _ (by decide)) _ (n0 _ (by simp) _)) _)).trans ?_
  refine (bind_ok (reads_leaves (opens_augmented st') bal_augmented (fun t => by simp [augmentedRaws]) (next_augmented st') hm.augmentedBy x0 (n0 _ (by simp) _) _)).trans ?_
  subst hst
  exact (bind_ok (close_bal hb (next_fine hR))).trans rfl

end Verif.Xml
