import Verif.NetconfXml.Lemmas
/-!
# What is written is read back: operations
-/
namespace Verif.Xml
open Verif.Collector (Text trim parseNat)

theorem lift_some {α : Type} (e : PErr) (a : α) (s : St) : lift e (some a) s = (.ok a, s) := rfl

theorem reads_choice {α : Type} {st : Stack} {ns : Text} (h : InNs st ns) {tag : String} {vals : List (String × α)} {t : Text} {v : α}
    (hv : readEnum vals (trim t) = some v) : Reads (readChoice ns tag vals) st (elem tag (written t)) v := by
  intro R ps hR
  have hf : ∀ R, headBad (annotate ((⟨none, tag⟩, st.scope) :: st) (written t ++ .close ⟨none, tag⟩ :: R)) = false := fun R =>
    fine_flat (flat_written t) _ (next_fine (next_close _ _ _ _))
  have hn : Next (annotate st (elem tag (written t) ++ R)) := by rw [elem_append]; exact next_start _ _ _ _
  refine (bind_ok (skipText_next hn)).trans ?_
  have ho := open_start (ns := ns) (key := tag) (st := st) (as := []) (R := written t ++ .close ⟨none, tag⟩ :: R) (ps := ps) (px := none)
    (by simpa [declared] using inNs_resolve h tag) (by simpa [declared] using hf R)
  rw [elem_append]
  refine (bind_ok ho).trans ?_
  simp only [declared, List.nil_append]
  refine (bind_ok (tagString_flat (flat_written t))).trans ?_
  rw [plain_written, hv]
  refine (bind_ok (lift_some _ _ _)).trans ?_
  refine (bind_ok (close_here (next_fine hR))).trans ?_
  rfl

/-- text between two tags -/
theorem reads_text {st : Stack} {q : QName} {sc : Scope} {l : List Raw} (h : Flat l) (R : List Raw) (ps : List Bool) :
    tagString ⟨annotate ((q, sc) :: st) (l ++ .close q :: R), true :: ps⟩ = (.ok (plain l), ⟨annotate ((q, sc) :: st) (.close q :: R), true :: ps⟩) := tagString_flat h

theorem reads_format {st : Stack} (h : InNs st nsMonitoring) (f : SchemaFormat) : Reads readFormat st (elem "format" (written f.name.toList)) f :=
  reads_choice h (by cases f <;> decide +kernel)

theorem reads_defaultOp {st : Stack} (h : InNs st nsNetconf) (f : DefaultOp) : Reads readDefaultOp st (elem "default-operation" (written f.name.toList)) f :=
  reads_choice h (by cases f <;> decide +kernel)

theorem reads_testOption {st : Stack} (h : InNs st nsNetconf) (f : TestOption) : Reads readTestOption st (elem "test-option" (written f.name.toList)) f :=
  reads_choice h (by cases f <;> decide +kernel)

theorem reads_errorOption {st : Stack} (h : InNs st nsNetconf) (f : ErrorOption) : Reads readErrorOption st (elem "error-option" (written f.name.toList)) f :=
  reads_choice h (by cases f <;> decide +kernel)

theorem open_empty {ns : Text} {key : String} {st : Stack} {as : List Attr} {R : List Raw} {ps : List Bool} {px : Option String}
    (hr : (declared as ++ st.scope).resolve ⟨px, key⟩ = .bound ns) :
    openTag ns key ⟨annotate st (.empty ⟨px, key⟩ as :: R), ps⟩ = (.ok as, ⟨annotate st (.empty ⟨px, key⟩ as :: R), false :: ps⟩) := by
  rw [annotate_empty]; simp [openTag, isTagL, hr]

theorem close_empty {st : Stack} {q : QName} {as : List Attr} {R : List Raw} {ps : List Bool} (hR : headBad (annotate st R) = false) :
    close ⟨annotate st (.empty q as :: R), false :: ps⟩ = (.ok (), ⟨annotate st R, ps⟩) := by
  rw [annotate_empty]; simp [close, hasChild, next, hR]

theorem other_empty {ns : Text} {key key' : String} {st : Stack} {as : List Attr} {R : List Raw} (h : key' ≠ key) :
    isTagL ns key (annotate st (.empty ⟨none, key'⟩ as :: R)) = false := by rw [isTagL_empty]; simp [h]

theorem other_start {ns : Text} {key key' : String} {st : Stack} {as : List Attr} {R : List Raw} (h : key' ≠ key) :
    isTagL ns key (annotate st (.start ⟨none, key'⟩ as :: R)) = false := by rw [isTagL_start]; simp [h]

theorem open_elem {ns : Text} {st : Stack} (h : InNs st ns) {name : String} {R : List Raw} {ps : List Bool}
    (hR : headBad (annotate ((⟨none, name⟩, st.scope) :: st) R) = false) :
    openTag ns name ⟨annotate st (.start ⟨none, name⟩ [] :: R), ps⟩ = (.ok [], ⟨annotate ((⟨none, name⟩, st.scope) :: st) R, true :: ps⟩) := by
  have := open_start (ns := ns) (key := name) (st := st) (as := []) (R := R) (ps := ps) (px := none)
    (by simpa [declared] using inNs_resolve h name) (by simpa [declared] using hR)
  simpa [declared] using this

theorem reads_source {st : Stack} (h : InNs st nsNetconf) (v : Source) : Reads readSource st (elem "source" [.empty ⟨none, v.name⟩ []]) v := by
  intro R ps hR
  rw [elem_append]
  refine (bind_ok (skipText_next (next_start _ _ _ _))).trans ?_
  refine (bind_ok (open_elem h (next_fine (next_empty _ _ _ _)))).trans ?_
  have ho := open_empty (ns := nsNetconf) (key := v.name) (st := (⟨none, "source"⟩, st.scope) :: st) (as := []) (R := .close ⟨none, "source"⟩ :: R) (ps := true :: ps) (px := none)
    (inNs_resolve h v.name)
  have hn := next_empty ((⟨none, "source"⟩, st.scope) :: st) ⟨none, v.name⟩ [] (.close ⟨none, "source"⟩ :: R)
  have fin : ∀ v' : Source, (close >>= fun _ => close >>= fun _ => pure v' : P Source)
      ⟨annotate ((⟨none, "source"⟩, st.scope) :: st) (.empty ⟨none, v.name⟩ [] :: .close ⟨none, "source"⟩ :: R), false :: true :: ps⟩ = (.ok v', ⟨annotate st R, ps⟩) := by
    intro v'
    refine (bind_ok (close_empty (next_fine (next_close _ _ _ _)))).trans ?_
    exact (bind_ok (close_here (next_fine hR))).trans rfl
  cases v
  · exact (bind_ok (maybeOpen_ok (s := ⟨_, _⟩) hn ho)).trans (fin _)
  · refine (bind_ok (maybeOpen_none (key := "candidate") (s := ⟨_, _⟩) hn (other_empty (by decide)))).trans ?_
    exact (bind_ok (maybeOpen_ok (s := ⟨_, _⟩) hn ho)).trans (fin _)
  · refine (bind_ok (maybeOpen_none (key := "candidate") (s := ⟨_, _⟩) hn (other_empty (by decide)))).trans ?_
    refine (bind_ok (maybeOpen_none (key := "running") (s := ⟨_, _⟩) hn (other_empty (by decide)))).trans ?_
    exact (bind_ok (maybeOpen_ok (s := ⟨_, _⟩) hn ho)).trans (fin _)

theorem reads_target {st : Stack} (h : InNs st nsNetconf) (v : Target) : Reads readTarget st (elem "target" [.empty ⟨none, v.name⟩ []]) v := by
  intro R ps hR
  rw [elem_append]
  refine (bind_ok (skipText_next (next_start _ _ _ _))).trans ?_
  refine (bind_ok (open_elem h (next_fine (next_empty _ _ _ _)))).trans ?_
  have ho := open_empty (ns := nsNetconf) (key := v.name) (st := (⟨none, "target"⟩, st.scope) :: st) (as := []) (R := .close ⟨none, "target"⟩ :: R) (ps := true :: ps) (px := none)
    (inNs_resolve h v.name)
  have hn := next_empty ((⟨none, "target"⟩, st.scope) :: st) ⟨none, v.name⟩ [] (.close ⟨none, "target"⟩ :: R)
  have fin : ∀ v' : Target, (close >>= fun _ => close >>= fun _ => pure v' : P Target)
      ⟨annotate ((⟨none, "target"⟩, st.scope) :: st) (.empty ⟨none, v.name⟩ [] :: .close ⟨none, "target"⟩ :: R), false :: true :: ps⟩ = (.ok v', ⟨annotate st R, ps⟩) := by
    intro v'
    refine (bind_ok (close_empty (next_fine (next_close _ _ _ _)))).trans ?_
    exact (bind_ok (close_here (next_fine hR))).trans rfl
  cases v
  · exact (bind_ok (maybeOpen_ok (s := ⟨_, _⟩) hn ho)).trans (fin _)
  · refine (bind_ok (maybeOpen_none (key := "candidate") (s := ⟨_, _⟩) hn (other_empty (by decide)))).trans ?_
    exact (bind_ok (maybeOpen_ok (s := ⟨_, _⟩) hn ho)).trans (fin _)

end Verif.Xml
