import Verif.NetconfXml.YangLib
import Verif.NetconfXml.RoundTripAll
/-!
# The YANG library of a device is read back: its parts
-/
namespace Verif.Xml
open Verif.Collector (Text trim)

theorem next_flatMap {α : Type} {g : α → List Raw} {st : Stack} (hg : ∀ a R, Next (annotate st (g a ++ R))) (l : List α) {R : List Raw} (hR : Next (annotate st R)) :
    Next (annotate st (l.flatMap g ++ R)) := by
  cases l with
  | nil => exact hR
  | cons a l => simp only [List.flatMap_cons, List.append_assoc]; exact hg a _

theorem other_flatMap {α : Type} {ns : Text} {key : String} {g : α → List Raw} {st : Stack} (hg : ∀ a R, isTagL ns key (annotate st (g a ++ R)) = false) (l : List α) {R : List Raw}
    (hR : isTagL ns key (annotate st R) = false) : isTagL ns key (annotate st (l.flatMap g ++ R)) = false := by
  cases l with
  | nil => exact hR
  | cons a l => simp only [List.flatMap_cons, List.append_assoc]; exact hg a _

theorem other_close {ns : Text} {key name : String} {st : Stack} {sc : Scope} {R : List Raw} (h : name ≠ key) :
    isTagL ns key (annotate ((⟨none, name⟩, sc) :: st) (.close ⟨none, name⟩ :: R)) = false := by
  rw [isTagL_close]; simp [h]

theorem next_opt2 {α : Type} {g : α → List Raw} {st : Stack} (hg : ∀ a R, Next (annotate st (g a ++ R))) (x : Option α) {R : List Raw} (hR : Next (annotate st R)) :
    Next (annotate st (optRaws g x ++ R)) := by
  cases x with
  | none => exact hR
  | some a => exact hg a R

/-- an element with a text -/
def leafRaws (key : String) (t : Text) : List Raw := elem key (written t)

theorem bal_leafRaws (key : String) (t : Text) : Bal (leafRaws key t) := bal_elem (bal_flat (flat_written t))

theorem reads_textLeaf {st : Stack} (h : InNs st nsYangLibrary) (key : String) {t : Text} (ht : trim t = t) (R : List Raw) (ps : List Bool) (hR : Next (annotate st R)) :
    ∃ s, openTag nsYangLibrary key ⟨annotate st (leafRaws key t ++ R), ps⟩ = (.ok [], s) ∧
      (do let t ← tagString; close; return trim t : P Text) s = (.ok t, ⟨annotate st R, ps⟩) := by
  unfold leafRaws
  rw [elem_append]
  refine ⟨_, open_elem h (fine_flat (flat_written _) _ (next_fine (next_close _ _ _ _))), ?_⟩
  refine (bind_ok (tagString_flat (flat_written _))).trans ?_
  rw [plain_written]
  refine (bind_ok (close_here (next_fine hR))).trans ?_
  rw [ht]; rfl

theorem reads_name {st : Stack} (h : InNs st nsYangLibrary) (key : String) {t : Text} (ht : trim t = t) : Reads (readName key) st (leafRaws key t) t := by
  intro R ps hR
  refine (bind_ok (skipText_next (next_elem _ _ _ _))).trans ?_
  obtain ⟨s, h1, h2⟩ := reads_textLeaf h key ht R ps hR
  exact (bind_ok h1).trans h2

theorem reads_revision {st : Stack} (h : InNs st nsYangLibrary) {x : Option Text} (hx : ∀ t, x = some t → trim t = t) {R : List Raw} (ps : List Bool) (hR : Next (annotate st R))
    (hn : isTagL nsYangLibrary "revision" (annotate st R) = false) :
    readRevision ⟨annotate st (optRaws (leafRaws "revision") x ++ R), ps⟩ = (.ok x, ⟨annotate st R, ps⟩) := by
  cases x with
  | none =>
    refine (bind_ok (skipText_next hR)).trans ?_
    exact (bind_ok (maybeOpen_none (s := ⟨_, _⟩) hR hn)).trans rfl
  | some t =>
    refine (bind_ok (skipText_next (next_elem _ _ _ _))).trans ?_
    rw [elem_append]
    refine (bind_ok (maybeOpen_ok (s := ⟨_, _⟩) (next_start _ _ _ _) (open_elem h (fine_flat (flat_written _) _ (next_fine (next_close _ _ _ _)))))).trans ?_
    refine (bind_ok (tagString_flat (flat_written _))).trans ?_
    rw [plain_written]
    refine (bind_ok (close_here (next_fine hR))).trans ?_
    rw [hx t rfl]; rfl

/-- an element with a text, however it is opened -/
def Opens (ns : Text) (key : String) (st : Stack) (g : Text → List Raw) : Prop :=
  ∀ t R ps, ∃ as q sc, openTag ns key ⟨annotate st (g t ++ R), ps⟩ = (.ok as, ⟨annotate ((q, sc) :: st) (written t ++ .close q :: R), true :: ps⟩)

theorem opens_text {st : Stack} (h : InNs st nsYangLibrary) (key : String) : Opens nsYangLibrary key st (leafRaws key) := by
  intro t R ps
  refine ⟨[], ⟨none, key⟩, st.scope, ?_⟩
  unfold leafRaws
  rw [elem_append]
  exact open_elem h (fine_flat (flat_written _) _ (next_fine (next_close _ _ _ _)))

theorem reads_leavesF {ns : Text} {key : String} {st : Stack} {g : Text → List Raw} (hg : Opens ns key st g) (hn : ∀ t R, Next (annotate st (g t ++ R))) {R : List Raw} (hR : Next (annotate st R))
    (ho : isTagL ns key (annotate st R) = false) (ps : List Bool) :
    ∀ (l : List Text) (n : Nat), l.length < n → (∀ t ∈ l, trim t = t) → leavesF ns key n ⟨annotate st (l.flatMap g ++ R), ps⟩ = (.ok l, ⟨annotate st R, ps⟩) := by
  intro l
  induction l with
  | nil =>
    intro n h _
    obtain ⟨n, rfl⟩ : ∃ m, n = m + 1 := ⟨n - 1, by simp at h; omega⟩
    exact (bind_ok (maybeOpen_none (s := ⟨_, _⟩) hR ho)).trans rfl
  | cons t l ih =>
    intro n h ht
    obtain ⟨n, rfl⟩ : ∃ m, n = m + 1 := ⟨n - 1, by simp at h; omega⟩
    simp only [List.flatMap_cons, List.append_assoc]
    obtain ⟨as, q, sc, hop⟩ := hg t (l.flatMap g ++ R) ps
    have hnext := next_flatMap hn l hR
    refine (bind_ok (maybeOpen_ok (s := ⟨_, _⟩) (hn _ _) hop)).trans ?_
    refine (bind_ok (tagString_flat (flat_written _))).trans ?_
    rw [plain_written]
    refine (bind_ok (close_here (next_fine hnext))).trans ?_
    refine (bind_ok (skipText_next hnext)).trans ?_
    refine (bind_ok (ih n (by simp at h; omega) fun u hu => ht u (List.mem_cons_of_mem _ hu))).trans ?_
    rw [ht t List.mem_cons_self]; rfl

theorem reads_leaves {ns : Text} {key : String} {st : Stack} {g : Text → List Raw} (hg : Opens ns key st g) (hb : ∀ t, Bal (g t)) (he : ∀ t, g t ≠ []) (hn : ∀ t R, Next (annotate st (g t ++ R)))
    {l : List Text} (hl : ∀ t ∈ l, trim t = t) {R : List Raw} (hR : Next (annotate st R)) (ho : isTagL ns key (annotate st R) = false) (ps : List Bool) :
    leaves ns key ⟨annotate st (l.flatMap g ++ R), ps⟩ = (.ok l, ⟨annotate st R, ps⟩) :=
  reads_leavesF hg hn hR ho ps l _ (Nat.lt_succ_of_le (Nat.le_trans (flatMap_length l fun t _ => he t) (bal_length (bal_flatMap l fun t _ => hb t) st R))) hl

theorem reads_texts {st : Stack} (h : InNs st nsYangLibrary) (key : String) {l : List Text} (hl : ∀ t ∈ l, trim t = t) {R : List Raw} (hR : Next (annotate st R))
    (ho : isTagL nsYangLibrary key (annotate st R) = false) (ps : List Bool) :
    leaves nsYangLibrary key ⟨annotate st (l.flatMap (leafRaws key) ++ R), ps⟩ = (.ok l, ⟨annotate st R, ps⟩) :=
  reads_leaves (opens_text h key) (bal_leafRaws key) (fun t => by simp [leafRaws, elem]) (fun t R => next_elem _ _ _ _) hl hR ho ps

theorem reads_whileTagF {α : Type} {key : String} {p : P α} {st : Stack} {g : α → List Raw} (hn : ∀ a R, Next (annotate st (g a ++ R))) (ht : ∀ a R, isTagL nsYangLibrary key (annotate st (g a ++ R)) = true)
    {R : List Raw} (hR : Next (annotate st R)) (ho : isTagL nsYangLibrary key (annotate st R) = false) (ps : List Bool) :
    ∀ (l : List α) (n : Nat), l.length < n → (∀ a ∈ l, Reads p st (g a) a) → whileTagF key p n ⟨annotate st (l.flatMap g ++ R), ps⟩ = (.ok l, ⟨annotate st R, ps⟩) := by
  intro l
  induction l with
  | nil =>
    intro n h _
    obtain ⟨n, rfl⟩ : ∃ m, n = m + 1 := ⟨n - 1, by simp at h; omega⟩
    exact (bind_ok (isTag_eq (s := ⟨_, _⟩) ho)).trans rfl
  | cons a l ih =>
    intro n h hp
    obtain ⟨n, rfl⟩ : ∃ m, n = m + 1 := ⟨n - 1, by simp at h; omega⟩
    simp only [List.flatMap_cons, List.append_assoc]
    have hnext := next_flatMap hn l hR
    refine (bind_ok (isTag_eq (s := ⟨_, _⟩) (ht a _))).trans ?_
    refine (bind_ok (hp a List.mem_cons_self _ _ hnext)).trans ?_
    refine (bind_ok (skipText_next hnext)).trans ?_
    exact (bind_ok (ih n (by simp at h; omega) fun u hu => hp u (List.mem_cons_of_mem _ hu))).trans rfl

theorem reads_whileTag {α : Type} {key : String} {p : P α} {st : Stack} {g : α → List Raw} (hn : ∀ a R, Next (annotate st (g a ++ R))) (ht : ∀ a R, isTagL nsYangLibrary key (annotate st (g a ++ R)) = true)
    (hb : ∀ a, Bal (g a)) (he : ∀ a, g a ≠ []) {l : List α} (hl : ∀ a ∈ l, Reads p st (g a) a) {R : List Raw} (hR : Next (annotate st R)) (ho : isTagL nsYangLibrary key (annotate st R) = false) (ps : List Bool) :
    whileTag key p ⟨annotate st (l.flatMap g ++ R), ps⟩ = (.ok l, ⟨annotate st R, ps⟩) :=
  reads_whileTagF hn ht hR ho ps l _ (Nat.lt_succ_of_le (Nat.le_trans (flatMap_length l fun t _ => he t) (bal_length (bal_flatMap l fun t _ => hb t) st R))) hl

/-! ## Modules -/

/-- texts without white space at the ends -/
structure YSubmodule.Ok (m : YSubmodule) : Prop where
  name : trim m.name = m.name
  revision : ∀ t, m.revision = some t → trim t = t
  locations : ∀ t ∈ m.locations, trim t = t

def submoduleRaws (m : YSubmodule) : List Raw :=
  elem "submodule" (leafRaws "name" m.name ++ (optRaws (leafRaws "revision") m.revision ++ m.locations.flatMap (leafRaws "location")))

theorem bal_opt2 {α : Type} {f : α → List Raw} (h : ∀ a, Bal (f a)) (x : Option α) : Bal (optRaws f x) := by
  cases x with
  | none => exact .nil
  | some a => exact h a

theorem bal_leafs (key : String) (l : List Text) : Bal (l.flatMap (leafRaws key)) := bal_flatMap l fun t _ => bal_leafRaws key t

theorem bal_submodule (m : YSubmodule) : Bal (submoduleRaws m) := bal_elem (bal_append (bal_leafRaws _ _) (bal_append (bal_opt2 (bal_leafRaws _) _) (bal_leafs _ _)))

theorem next_leafRaws (st : Stack) (key : String) (t : Text) (R : List Raw) : Next (annotate st (leafRaws key t ++ R)) := next_elem _ _ _ _

theorem other_leafRaws {ns : Text} {key name : String} (st : Stack) (h : name ≠ key) (t : Text) (R : List Raw) : isTagL ns key (annotate st (leafRaws name t ++ R)) = false := other_elem h

theorem fine_leafRaws (st : Stack) (key : String) (t : Text) (R : List Raw) : headBad (annotate st (leafRaws key t ++ R)) = false := next_fine (next_elem _ _ _ _)

theorem reads_submodule {st : Stack} (h : InNs st nsYangLibrary) {m : YSubmodule} (hm : m.Ok) : Reads readSubmodule st (submoduleRaws m) m := by
  intro R ps hR
  have h' : InNs ((⟨none, "submodule"⟩, st.scope) :: st) nsYangLibrary := h
  refine (bind_ok (skipText_next (next_elem _ _ _ _))).trans ?_
  rw [elem_append]
  simp only [List.append_assoc]
  refine (bind_ok (open_elem h (fine_leafRaws _ _ _ _))).trans ?_
  have n0 : ∀ k, "submodule" ≠ k → isTagL nsYangLibrary k (annotate ((⟨none, "submodule"⟩, st.scope) :: st) (.close ⟨none, "submodule"⟩ :: R)) = false := fun k hk => other_close hk
  have x1 : Next (annotate ((⟨none, "submodule"⟩, st.scope) :: st) (m.locations.flatMap (leafRaws "location") ++ .close ⟨none, "submodule"⟩ :: R)) := next_flatMap (next_leafRaws _ _) _ (next_close _ _ _ _)
  have o1 : isTagL nsYangLibrary "revision" (annotate ((⟨none, "submodule"⟩, st.scope) :: st) (m.locations.flatMap (leafRaws "location") ++ .close ⟨none, "submodule"⟩ :: R)) = false :=
    other_flatMap (other_leafRaws _ (by decide)) _ (n0 _ (by decide))
  refine (bind_ok (reads_name h' "name" hm.name _ _ (next_opt2 (next_leafRaws _ _) _ x1))).trans ?_
  refine (bind_ok (reads_revision h' hm.revision _ x1 o1)).trans ?_
  refine (bind_ok (reads_texts h' "location" hm.locations (next_close _ _ _ _) (n0 _ (by decide)) _)).trans ?_
  exact (bind_ok (close_here (next_fine hR))).trans rfl

structure YModule.Ok (m : YModule) : Prop where
  name : trim m.name = m.name
  revision : ∀ t, m.revision = some t → trim t = t
  uri : trim m.uri = m.uri
  features : ∀ t ∈ m.features, trim t = t
  deviations : ∀ t ∈ m.deviations, trim t = t
  submodules : ∀ x ∈ m.submodules, x.Ok
  augmentedBy : ∀ t ∈ m.augmentedBy, trim t = t
  locations : ∀ t ∈ m.locations, trim t = t

def augmentedRaws (t : Text) : List Raw := .start ⟨none, "augmented-by"⟩ [⟨⟨none, "xmlns"⟩, some nsAugmentedBy⟩] :: (written t ++ [.close ⟨none, "augmented-by"⟩])

def moduleRaws (m : YModule) : List Raw :=
  elem "module" (leafRaws "name" m.name ++ (optRaws (leafRaws "revision") m.revision ++ (leafRaws "namespace" m.uri ++ (m.locations.flatMap (leafRaws "location") ++
    (m.submodules.flatMap submoduleRaws ++ (m.features.flatMap (leafRaws "feature") ++ (m.deviations.flatMap (leafRaws "deviation") ++ m.augmentedBy.flatMap augmentedRaws)))))))

theorem bal_augmented (t : Text) : Bal (augmentedRaws t) := Bal.tag _ _ (bal_flat (flat_written t)) .nil

theorem bal_module (m : YModule) : Bal (moduleRaws m) :=
  bal_elem (bal_append (bal_leafRaws _ _) (bal_append (bal_opt2 (bal_leafRaws _) _) (bal_append (bal_leafRaws _ _) (bal_append (bal_leafs _ _) (bal_append (bal_flatMap _ fun x _ => bal_submodule x)
    (bal_append (bal_leafs _ _) (bal_append (bal_leafs _ _) (bal_flatMap _ fun x _ => bal_augmented x))))))))

theorem next_submodule (st : Stack) (m : YSubmodule) (R : List Raw) : Next (annotate st (submoduleRaws m ++ R)) := next_elem _ _ _ _
theorem other_submodule {ns : Text} {key : String} (st : Stack) (h : "submodule" ≠ key) (m : YSubmodule) (R : List Raw) : isTagL ns key (annotate st (submoduleRaws m ++ R)) = false := other_elem h
theorem next_augmented (st : Stack) (t : Text) (R : List Raw) : Next (annotate st (augmentedRaws t ++ R)) := next_start _ _ _ _
theorem other_augmented {ns : Text} {key : String} (st : Stack) (h : "augmented-by" ≠ key) (t : Text) (R : List Raw) : isTagL ns key (annotate st (augmentedRaws t ++ R)) = false := other_start h

theorem opens_augmented (st : Stack) : Opens nsAugmentedBy "augmented-by" st augmentedRaws := by
  intro t R ps
  refine ⟨[⟨⟨none, "xmlns"⟩, some nsAugmentedBy⟩], ⟨none, "augmented-by"⟩, declared [⟨⟨none, "xmlns"⟩, some nsAugmentedBy⟩] ++ st.scope, ?_⟩
  unfold augmentedRaws
  simp only [List.cons_append, List.append_assoc, List.nil_append]
  exact open_start (by rfl) (fine_flat (flat_written _) _ (next_fine (next_close _ _ _ _)))

theorem reads_submodules {st : Stack} (h : InNs st nsYangLibrary) {l : List YSubmodule} (hl : ∀ m ∈ l, m.Ok) {R : List Raw} (hR : Next (annotate st R))
    (ho : isTagL nsYangLibrary "submodule" (annotate st R) = false) (ps : List Bool) :
    whileTag "submodule" readSubmodule ⟨annotate st (l.flatMap submoduleRaws ++ R), ps⟩ = (.ok l, ⟨annotate st R, ps⟩) :=
  reads_whileTag (next_submodule st) (fun a R => tag_elem h _ _ _ []) bal_submodule (fun a => by simp [submoduleRaws, elem]) (fun m hm => reads_submodule h (hl m hm)) hR ho ps

theorem reads_module {st : Stack} (h : InNs st nsYangLibrary) {m : YModule} (hm : m.Ok) : Reads readYModule st (moduleRaws m) m := by
  intro R ps hR
  have h' : InNs ((⟨none, "module"⟩, st.scope) :: st) nsYangLibrary := h
  refine (bind_ok (skipText_next (next_elem _ _ _ _))).trans ?_
  rw [elem_append]
  simp only [List.append_assoc]
  refine (bind_ok (open_elem h (fine_leafRaws _ _ _ _))).trans ?_
  generalize hst : ((⟨none, "module"⟩, st.scope) :: st : Stack) = st' at h' ⊢
  have x0 : Next (annotate st' (.close ⟨none, "module"⟩ :: R)) := by rw [← hst]; exact next_close _ _ _ _
  have n0 : ∀ ns k, "module" ≠ k → isTagL ns k (annotate st' (.close ⟨none, "module"⟩ :: R)) = false := fun ns k hk => by rw [← hst]; exact other_close hk
  have x1 := next_flatMap (next_augmented st') m.augmentedBy x0
  have x2 := next_flatMap (next_leafRaws st' "deviation") m.deviations x1
  have x3 := next_flatMap (next_leafRaws st' "feature") m.features x2
  have x4 := next_flatMap (next_submodule st') m.submodules x3
  have x5 := next_flatMap (next_leafRaws st' "location") m.locations x4
  refine (bind_ok (reads_name h' "name" hm.name _ _ (next_opt2 (next_leafRaws _ _) _ (next_leafRaws _ _ _ _)))).trans ?_
  refine (bind_ok (reads_revision h' hm.revision _ (next_leafRaws _ _ _ _) (other_leafRaws _ (by decide) _ _))).trans ?_
  refine (bind_ok (reads_name h' "namespace" hm.uri _ _ x5)).trans ?_
  refine (bind_ok (reads_texts h' "location" hm.locations x4 (other_flatMap (other_submodule _ (by decide)) _ (other_flatMap (other_leafRaws _ (by decide)) _
    (other_flatMap (other_leafRaws _ (by decide)) _ (other_flatMap (other_augmented _ (by decide)) _ (n0 _ _ (by decide)))))) _)).trans ?_
  refine (bind_ok (reads_submodules h' hm.submodules x3 (other_flatMap (other_leafRaws _ (by decide)) _
    (other_flatMap (other_leafRaws _ (by decide)) _ (other_flatMap (other_augmented _ (by decide)) _ (n0 _ _ (by decide))))) _)).trans ?_
  refine (bind_ok (reads_texts h' "feature" hm.features x2 (other_flatMap (other_leafRaws _ (by decide)) _ (other_flatMap (other_augmented _ (by decide)) _ (n0 _ _ (by decide)))) _)).trans ?_
  refine (bind_ok (reads_texts h' "deviation" hm.deviations x1 (other_flatMap (other_augmented _ (by decide)) _ (n0 _ _ (by decide))) _)).trans ?_
  refine (bind_ok (reads_leaves (opens_augmented st') bal_augmented (fun t => by simp [augmentedRaws]) (next_augmented st') hm.augmentedBy x0 (n0 _ _ (by decide)) _)).trans ?_
  subst hst
  exact (bind_ok (close_here (next_fine hR))).trans rfl

end Verif.Xml
