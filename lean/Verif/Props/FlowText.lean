import Verif.Props.FlowOutput
/-!
# Texts of flow records (C284)
-/
namespace Verif.Props
open Verif.Flow
open Verif.FlowOut
open Verif.Collector (Text FieldRef mapFields)
open Verif.Collector.Hist (nth)

/-- what a field of the output with one element is, if the transformation gives a text -/
theorem text_cell {el : Elements} {cfg : OutputConfig} {fields : List Field} {rec : List (Text × Cell)} (h : recordOf el cfg fields = .ok rec) {n : Text} {r : FieldRef Ie} {d : Option RawValue} {t : Transform}
    (hm : (n, ⟨.single r, d, t⟩) ∈ cfg) (hn : ¬ primPrefix <+: n) {f : Field} (hf : nth fields r.ie r.index = some f) {y : Text} (ht : t.apply el (some [f]) = .ok (some (.string y))) :
    ∃ c, (n, c) ∈ rec ∧ publishedText c = some y := by
  refine ⟨_, record_mem h hm hn, ?_⟩
  have hval : FieldConfig.value el ⟨.single r, d, t⟩ (mapFields fields) = .ok (some (.string y)) := by
    unfold FieldConfig.value
    simp only
    rw [c237_single, hf]
    simp only [Option.map_some, ht]
    rfl
  rw [cellFor, hval]
  cases d <;> rfl

/-- C284: the text of an element is published as it is -/
theorem c284_text {el : Elements} {cfg : OutputConfig} {fields : List Field} {rec : List (Text × Cell)} (h : recordOf el cfg fields = .ok rec) {n : Text} {r : FieldRef Ie} {d : Option RawValue}
    (hm : (n, ⟨.single r, d, .string⟩) ∈ cfg) (hn : ¬ primPrefix <+: n) {f : Field} (hf : nth fields r.ie r.index = some f) {x : Text} (hx : toText el f = some x) :
    ∃ c, (n, c) ∈ rec ∧ publishedText c = some x :=
  text_cell h hm hn hf (by simp [Transform.apply, textOf, hx, Res.map])

theorem drop_zeros (t : Text) : ∃ k, t = List.replicate k (Char.ofNat 0) ++ t.dropWhile (· = Char.ofNat 0) ∧ (t.dropWhile (· = Char.ofNat 0)).head? ≠ some (Char.ofNat 0) := by
  induction t with
  | nil => exact ⟨0, rfl, by simp⟩
  | cons c t ih =>
    by_cases hc : c = Char.ofNat 0
    · obtain ⟨k, h1, h2⟩ := ih
      refine ⟨k + 1, ?_, by rw [List.dropWhile_cons_of_pos (by simpa using hc)]; exact h2⟩
      rw [List.dropWhile_cons_of_pos (by simpa using hc), List.replicate_succ, List.cons_append, ← h1, hc]
    · refine ⟨0, ?_, ?_⟩
      · rw [List.dropWhile_cons_of_neg (by simpa using hc)]; rfl
      · rw [List.dropWhile_cons_of_neg (by simpa using hc)]; simpa using hc

/-- C284: with zeros left out, the text is published up to the zeros at its end -/
theorem c284_trimmed {el : Elements} {cfg : OutputConfig} {fields : List Field} {rec : List (Text × Cell)} (h : recordOf el cfg fields = .ok rec) {n : Text} {r : FieldRef Ie} {d : Option RawValue}
    (hm : (n, ⟨.single r, d, .trimmed⟩) ∈ cfg) (hn : ¬ primPrefix <+: n) {f : Field} (hf : nth fields r.ie r.index = some f) {y : Text} {k : Nat} (hy : y.getLast? ≠ some (Char.ofNat 0))
    (hx : toText el f = some (y ++ List.replicate k (Char.ofNat 0))) : ∃ c, (n, c) ∈ rec ∧ publishedText c = some y := by
  refine text_cell h hm hn hf ?_
  have : trimZeros (y ++ List.replicate k (Char.ofNat 0)) = y := by
    unfold trimZeros
    rw [List.reverse_append, List.reverse_replicate]
    have h0 : ∀ k, (List.replicate k (Char.ofNat 0) ++ y.reverse).dropWhile (· = Char.ofNat 0) = y.reverse := by
      intro k
      induction k with
      | zero =>
        rw [List.replicate_zero, List.nil_append]
        cases hr : y.reverse with
        | nil => rfl
        | cons c t =>
          have hl : y.getLast? = some c := by rw [← List.head?_reverse, hr]; rfl
          rw [List.dropWhile_cons_of_neg]
          simp only [decide_eq_true_eq]
          intro e; exact hy (by rw [hl, e])
      | succ k ih => rw [List.replicate_succ, List.cons_append, List.dropWhile_cons_of_pos (by simp), ih]
    rw [h0, List.reverse_reverse]
  simp [Transform.apply, textOf, hx, Res.map, this]

/-- every text is one without zeros at its end, and zeros -/
theorem c284_trimmed_all (x : Text) : ∃ y k, x = y ++ List.replicate k (Char.ofNat 0) ∧ y.getLast? ≠ some (Char.ofNat 0) := by
  obtain ⟨k, h1, h2⟩ := drop_zeros x.reverse
  refine ⟨(x.reverse.dropWhile (· = Char.ofNat 0)).reverse, k, ?_, by rw [List.getLast?_reverse]; exact h2⟩
  have := congrArg List.reverse h1
  rw [List.reverse_reverse, List.reverse_append, List.reverse_replicate] at this
  exact this

/-- C284: a text that has another name is published with that name, and others as they are -/
theorem c284_renamed {el : Elements} {cfg : OutputConfig} {fields : List Field} {rec : List (Text × Cell)} (h : recordOf el cfg fields = .ok rec) {n : Text} {r : FieldRef Ie} {d : Option RawValue} {l : List (Text × Text)}
    (hl : l.Pairwise fun a b => a.1 ≠ b.1) (hm : (n, ⟨.single r, d, .rename l⟩) ∈ cfg) (hn : ¬ primPrefix <+: n) {f : Field} (hf : nth fields r.ie r.index = some f) {x : Text} (hx : toText el f = some x) :
    (∀ y, (x, y) ∈ l → ∃ c, (n, c) ∈ rec ∧ publishedText c = some y) ∧ ((∀ y, (x, y) ∉ l) → ∃ c, (n, c) ∈ rec ∧ publishedText c = some x) := by
  have key : (∀ y, (x, y) ∈ l → l.look x = some y) ∧ ((∀ y, (x, y) ∉ l) → l.look x = none) := by
    clear hm
    induction l with
    | nil => exact ⟨fun y hy => (by cases hy), fun _ => rfl⟩
    | cons e l ih =>
      obtain ⟨h1, h2⟩ := List.pairwise_cons.mp hl
      obtain ⟨i1, i2⟩ := ih h2
      refine ⟨fun y hy => ?_, fun hy => ?_⟩
      · rcases List.mem_cons.mp hy with rfl | hy
        · simp [List.look]
        · have := h1 _ hy
          simp only at this
          simpa [List.look, this] using i1 y hy
      · have : e.1 ≠ x := fun he => hy e.2 (by rw [← he]; exact List.mem_cons_self)
        simpa [List.look, this] using i2 fun y hm => hy y (List.mem_cons_of_mem _ hm)
  refine ⟨fun y hy => text_cell h hm hn hf ?_, fun hy => text_cell h hm hn hf ?_⟩
  · simp [Transform.apply, textOf, hx, Res.map, key.1 y hy]
  · simp [Transform.apply, textOf, hx, Res.map, key.2 hy]

/-- C284: an array of many elements has the texts of those that the record has, in the order of the configuration, and there is no array of none -/
theorem c284_array {el : Elements} {cfg : OutputConfig} {fields : List Field} {rec : List (Text × Cell)} (h : recordOf el cfg fields = .ok rec) {n : Text} {l : List (FieldRef Ie)} (hm : (n, ⟨.multi l, none, .arrayAgg⟩) ∈ cfg)
    (hn : ¬ primPrefix <+: n) : ∃ c, (n, c) ∈ rec ∧
      ((∃ r ∈ l, nth fields r.ie r.index ≠ none) → ∃ ts, publishedTexts c = some ts ∧ ts.map some = (l.filterMap fun r => nth fields r.ie r.index).map (toText el)) ∧
      ((∀ r ∈ l, nth fields r.ie r.index = none) → c = .null) := by
  have hok : ∃ v, FieldConfig.value el ⟨.multi l, none, .arrayAgg⟩ (mapFields fields) = .ok v := by
    unfold recordOf at h
    obtain ⟨⟨F, P⟩, hcell, _⟩ := map_some h
    exact (cells_ok hcell).2.1 _ hm
  obtain ⟨v, hok⟩ := hok
  refine ⟨_, record_mem h hm hn, fun ⟨r, hr, hx⟩ => ?_, fun hx => ?_⟩
  · obtain ⟨f, hf⟩ := Option.ne_none_iff_exists'.mp hx
    have hfm : f ∈ l.filterMap fun r => nth fields r.ie r.index := List.mem_filterMap.mpr ⟨r, hr, hf⟩
    have hsel : (Select.multi l).apply (mapFields fields) = some (l.filterMap fun r => nth fields r.ie r.index) := (c237_multi ..).mpr ⟨rfl, List.ne_nil_of_mem hfm⟩
    have hne : (l.filterMap fun r => nth fields r.ie r.index).isEmpty = false := by
      cases hh : (l.filterMap fun r => nth fields r.ie r.index) with
      | nil => rw [hh] at hfm; cases hfm
      | cons => rfl
    have hval : FieldConfig.value el ⟨.multi l, none, .arrayAgg⟩ (mapFields fields) =
        ((Res.all ((l.filterMap fun r => nth fields r.ie r.index).map (textOf el))).map fun l => some (RawValue.stringArray l)).map fun v => (v.or none).map RawValue.toAvro := by
      unfold FieldConfig.value
      simp only
      rw [hsel, Transform.apply]
      simp only [hne]
      rfl
    have hok2 := hok
    rw [hval] at hok2
    obtain ⟨a, ha, hu1⟩ := map_some hok2
    obtain ⟨ts, hts, hu2⟩ := map_some ha
    have hall := all_ok hts
    rw [hts] at hval
    refine ⟨ts, by rw [cellFor, hval]; rfl, ?_⟩
    generalize (l.filterMap fun r => nth fields r.ie r.index) = fs at hall
    clear hts hval ha hok2 hok hu1 hu2
    induction fs generalizing ts with
    | nil => cases ts with
      | nil => rfl
      | cons => cases hall
    | cons g fs ih =>
      cases ts with
      | nil => cases hall
      | cons t ts =>
        simp only [List.map_cons, List.cons.injEq] at hall ⊢
        refine ⟨?_, ih ts hall.2⟩
        have := hall.1
        unfold textOf at this
        split at this
        · rename_i e; injection this with this; rw [e, this]
        · cases this
  · have hsel : (Select.multi l).apply (mapFields fields) = none := by
      cases hs : (Select.multi l).apply (mapFields fields) with
      | none => rfl
      | some fs =>
        obtain ⟨h1, h2⟩ := (c237_multi ..).mp hs
        refine absurd ?_ h2
        rw [← h1, List.filterMap_eq_nil_iff]
        exact hx
    have hval : FieldConfig.value el ⟨.multi l, none, .arrayAgg⟩ (mapFields fields) = .ok none := by
      unfold FieldConfig.value
      simp only
      rw [hsel]
      rfl
    rw [cellFor, hval]

def textConfig : OutputConfig := [
  ("plain".toList, ⟨.single ⟨.known 0 82 .string, 0⟩, none, .string⟩),
  ("trimmed".toList, ⟨.single ⟨.known 0 82 .string, 0⟩, none, .trimmed⟩),
  ("renamed".toList, ⟨.single ⟨.known 0 4 .unsigned8, 0⟩, none, .rename [("TCP".toList, "tcp".toList), ("UDP".toList, "udp".toList)]⟩),
  ("all".toList, ⟨.multi [⟨.known 0 4 .unsigned8, 0⟩, ⟨.known 0 83 .string, 0⟩, ⟨.known 0 82 .string, 0⟩], none, .arrayAgg⟩)]

def textFields : List Field := [.known 0 82 (.string "a\x00\x00"), .known 0 4 (.unsigned8 6)]

example : textConfig.validate.toBool = true ∧ recordOf demoElements textConfig textFields = .ok [("plain".toList, .branch (.string "a\x00\x00".toList)), ("trimmed".toList, .branch (.string "a".toList)),
    ("renamed".toList, .branch (.string "tcp".toList)), ("all".toList, .branch (.array ["TCP".toList, "a\x00\x00".toList]))] ∧
    nth textFields (.known 0 82 .string) 0 = some (.known 0 82 (.string "a\x00\x00")) ∧ toText demoElements (.known 0 82 (.string "a\x00\x00")) = some ("a".toList ++ List.replicate 2 (Char.ofNat 0)) ∧
    nth textFields (.known 0 4 .unsigned8) 0 = some (.known 0 4 (.unsigned8 6)) ∧ toText demoElements (.known 0 4 (.unsigned8 6)) = some "TCP".toList := by
  refine ⟨by decide +kernel, by decide +kernel, by decide +kernel, by decide +kernel, by decide +kernel, by decide +kernel⟩

end Verif.Props
