import Verif.YangPush.Loading
import Verif.YangPush.LibrarySpec
import Verif.Collector.Lemmas
/-! # Content identifiers of YANG libraries: texts that are put together -/
namespace Verif.YangPush.Load
open Collector

/-- a text with holes -/
def fill (l : List (Option (List Char))) (x : List Char) : List Char := l.flatMap fun o => o.getD x

theorem fill_length (l : List (Option (List Char))) (x : List Char) : (fill l x).length = (fill l []).length + (l.countP (·.isNone)) * x.length := by
  induction l with
  | nil => simp [fill]
  | cons o l ih =>
    unfold fill at ih ⊢
    cases o with
    | none => simp only [List.flatMap_cons, List.length_append, ih, Option.getD_none, List.length_nil, List.countP_cons, Option.isNone_none, if_true, Nat.add_mul]; omega
    | some t => simp only [List.flatMap_cons, List.length_append, ih, Option.getD_some, List.countP_cons, Option.isNone_some]; simp; omega

/-- what is in the holes is known from the text -/
theorem fill_inj {l : List (Option (List Char))} (h : none ∈ l) {x y : List Char} (e : fill l x = fill l y) : x = y := by
  have hlen : x.length = y.length := by
    have := congrArg List.length e
    rw [fill_length l x, fill_length l y] at this
    have hc : 0 < l.countP (·.isNone) := List.countP_pos_iff.mpr ⟨none, h, rfl⟩
    have : l.countP (·.isNone) * x.length = l.countP (·.isNone) * y.length := by omega
    exact Nat.eq_of_mul_eq_mul_left hc this
  induction l with
  | nil => cases h
  | cons o l ih =>
    unfold fill at e ih
    simp only [List.flatMap_cons] at e
    cases o with
    | none => exact (List.append_inj e hlen).1
    | some t =>
      simp only [Option.getD_some] at e
      exact ih (by simpa using h) (List.append_cancel_left e)

theorem join_toList (l : List String) : (String.join l).toList = l.flatMap String.toList := by
  rw [String.toList_join]

/-! ## What is hashed -/

/-- texts, and names whose schemas are texts -/
def skeleton (sets : List ModuleSet) : List (String ⊕ String) :=
  sets.flatMap fun s => s.modules.flatMap (fun m => m.features.map .inl ++ m.submodules.map (fun u => .inr u.name) ++ [.inr m.name]) ++
    s.imports.flatMap fun x => x.2.flatMap fun m => m.submodules.map (fun u => .inr u.name) ++ [.inr m.name]

def evalText (schemas : List (String × String)) : String ⊕ String → Option String
  | .inl t => some t
  | .inr n => schemas.look n

theorem flatMap_congr' {α β : Type} {l : List α} {f g : α → List β} (h : ∀ x, f x = g x) : l.flatMap f = l.flatMap g := by
  induction l with
  | nil => rfl
  | cons x l ih => rw [List.flatMap_cons, List.flatMap_cons, h x, ih]

theorem texts_eq (b : Builder) : b.texts = ((skeleton [⟨"ALL", b.modules.map (·.2), b.imports⟩]).map (evalText b.schemas)).mapM id := by
  unfold Builder.texts skeleton
  congr 1
  simp only [List.flatMap_cons, List.flatMap_nil, List.append_nil, List.map_append, List.map_flatMap, List.flatMap_map]
  congr 1
  · apply flatMap_congr'
    intro x
    simp [List.map_append, Function.comp_def, evalText]
  · apply flatMap_congr'
    intro x
    apply flatMap_congr'
    intro m
    simp [List.map_append, Function.comp_def, evalText]

theorem mapM_id_eq {l : List (Option String)} {ts : List String} (h : l.mapM id = some ts) : ts = l.map (·.getD "") ∧ ∀ x ∈ l, x.isSome := by
  induction l generalizing ts with
  | nil => cases h; simp
  | cons x l ih =>
    rw [List.mapM_cons] at h
    cases x with
    | none => cases h
    | some t =>
      cases hl : l.mapM id with
      | none => rw [hl] at h; cases h
      | some ts' =>
        rw [hl] at h
        cases h
        obtain ⟨e, hs⟩ := ih hl
        exact ⟨by rw [List.map_cons, ← e]; rfl, fun y hy => by rcases List.mem_cons.mp hy with rfl | hy; rfl; exact hs y hy⟩

/-- the text of a skeleton with a name left out -/
def holes (schemas : List (String × String)) (n : String) (l : List (String ⊕ String)) : List (Option (List Char)) :=
  l.map fun
    | .inl t => some t.toList
    | .inr k => if k = n then none else some ((schemas.look k).getD "").toList

theorem join_holes (schemas : List (String × String)) (n : String) (l : List (String ⊕ String)) :
    (String.join ((l.map (evalText schemas)).map (·.getD ""))).toList = fill (holes schemas n l) ((schemas.look n).getD "").toList := by
  rw [join_toList]
  unfold fill holes
  rw [List.flatMap_map, List.flatMap_map, List.flatMap_map]
  apply flatMap_congr'
  intro x
  cases x with
  | inl t => rfl
  | inr k =>
    simp only [evalText]
    split
    · rename_i e; subst e; rfl
    · rfl

theorem holes_congr {schemas schemas' : List (String × String)} {n : String} (h : ∀ k, k ≠ n → schemas.look k = schemas'.look k) (l : List (String ⊕ String)) :
    holes schemas n l = holes schemas' n l := by
  unfold holes
  apply List.map_congr_left
  intro x _
  cases x with
  | inl t => rfl
  | inr k =>
    simp only
    split
    · rfl
    · rename_i e; rw [h k e]

theorem skeleton_lists {lib : Library} {n : String} {r : Option String} (h : Lists lib n r) : .inr n ∈ skeleton lib.sets := by
  obtain ⟨s, hs, ⟨m, hm, h⟩ | ⟨x, hx, m, hm, h⟩⟩ := h
  · refine List.mem_flatMap.mpr ⟨s, hs, List.mem_append_left _ (List.mem_flatMap.mpr ⟨m, hm, ?_⟩)⟩
    rcases h with ⟨rfl, _⟩ | ⟨u, hu, rfl, _⟩
    · simp
    · simp only [List.mem_append, List.mem_map]
      exact .inl (.inr ⟨u, hu, rfl⟩)
  · refine List.mem_flatMap.mpr ⟨s, hs, List.mem_append_right _ (List.mem_flatMap.mpr ⟨x, hx, List.mem_flatMap.mpr ⟨m, hm, ?_⟩⟩)⟩
    rcases h with ⟨rfl, _⟩ | ⟨u, hu, rfl, _⟩
    · simp
    · simp only [List.mem_append, List.mem_map]
      exact .inl ⟨u, hu, rfl⟩

end Verif.YangPush.Load
