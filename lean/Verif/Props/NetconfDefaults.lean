import Verif.NetconfXml.RoundTripRpc
/-!
# C226: what is meant when a part of an edit is left out
-/
namespace Verif.Props
open Verif.Xml
open Verif.Collector (Text)

/-- an `edit-config` element whose default operation, test option and error option may be left out -/
def editElement (t : Target) (d : Option String) (o : Option String) (e : Option String) (content : List Raw) : List Raw :=
  elem "edit-config" (elem "target" [.empty ⟨none, t.name⟩ []] ++ (optRaws (fun d => elem "default-operation" [.text d.toList]) d ++
    (optRaws (fun o => elem "test-option" [.text o.toList]) o ++ (optRaws (fun e => elem "error-option" [.text e.toList]) e ++ content))))

/-- C226: an `edit-config` that does not say its default operation is one that merges; one that says it has the operation that it says, and what it does not say of tests and errors stays unsaid. -/
theorem c226_default_is_merge {st : Stack} (h : InNs st "urn:ietf:params:xml:ns:netconf:base:1.0".toList) (t : Target) (d : Option DefaultOp) (o : Option TestOption) (e : Option ErrorOption)
    {c : EditContent} (hc : EditOk c) (R : List Raw) (hR : Next (annotate st R)) (ps : List Bool) :
    readOp ⟨annotate st (editElement t (d.map DefaultOp.name) (o.map TestOption.name) (e.map ErrorOption.name) (editRaws c) ++ R), ps⟩ =
      (.ok (.editConfig t (match d with | some d => d | none => .merge) o e c), ⟨annotate st R, ps⟩) := by
  have w1 : ∀ x : DefaultOp, [Raw.text x.name.toList] = written x.name.toList := by intro x; cases x <;> decide
  have w2 : ∀ x : TestOption, [Raw.text x.name.toList] = written x.name.toList := by intro x; cases x <;> decide
  have w3 : ∀ x : ErrorOption, [Raw.text x.name.toList] = written x.name.toList := by intro x; cases x <;> decide
  have o1 : optRaws (fun d : String => elem "default-operation" [.text d.toList]) (d.map DefaultOp.name) = optRaws (fun d : DefaultOp => elem "default-operation" (written d.name.toList)) d := by
    cases d <;> simp [optRaws, w1]
  have o2 : optRaws (fun d : String => elem "test-option" [.text d.toList]) (o.map TestOption.name) = optRaws (fun d : TestOption => elem "test-option" (written d.name.toList)) o := by
    cases o <;> simp [optRaws, w2]
  have o3 : optRaws (fun d : String => elem "error-option" [.text d.toList]) (e.map ErrorOption.name) = optRaws (fun d : ErrorOption => elem "error-option" (written d.name.toList)) e := by
    cases e <;> simp [optRaws, w3]
  have h : InNs st nsNetconf := h
  unfold editElement
  rw [o1, o2, o3]
  simp only [elem_append "edit-config"]
  refine (bind_ok (skipText_next (next_start _ _ _ _))).trans ?_
  refine (bind_ok (maybeOpen_none (s := ⟨_, _⟩) (next_start _ _ _ _) (other_start (by decide)))).trans ?_
  simp only [List.append_assoc]
  refine (bind_ok (maybeOpen_ok (s := ⟨_, _⟩) (next_start _ _ _ _) (open_elem h (next_fine (next_elem _ _ _ _))))).trans ?_
  show readEditConfig _ = _
  have h' := inNs_push h ⟨none, "edit-config"⟩
  have n4 := next_edit ((⟨none, "edit-config"⟩, st.scope) :: st) c (.close ⟨none, "edit-config"⟩ :: R)
  have n3 := next_opt (f := fun e => elem "error-option" (written (ErrorOption.name e).toList)) (fun _ _ => next_elem _ _ _ _) e n4
  have n2 := next_opt (f := fun o => elem "test-option" (written (TestOption.name o).toList)) (fun _ _ => next_elem _ _ _ _) o n3
  have n1 := next_opt (f := fun d => elem "default-operation" (written (DefaultOp.name d).toList)) (fun _ _ => next_elem _ _ _ _) d n2
  refine (bind_ok (skipText_next (next_elem _ _ _ _))).trans ?_
  refine (bind_ok (reads_target h' t _ _ n1)).trans ?_
  refine (bind_ok (reads_opt (tag := "default-operation") (fun a => reads_defaultOp h' a) d n2 (other_opt (fun _ _ => other_elem (by decide)) o (other_opt (fun _ _ => other_elem (by decide)) e
    (other_edit (by decide) (by decide)))))).trans ?_
  refine (bind_ok (reads_opt (tag := "test-option") (fun a => reads_testOption h' a) o n3 (other_opt (fun _ _ => other_elem (by decide)) e (other_edit (by decide) (by decide))))).trans ?_
  refine (bind_ok (reads_opt (tag := "error-option") (fun a => reads_errorOption h' a) e n4 (other_edit (by decide) (by decide)))).trans ?_
  refine (bind_ok (reads_edit h' hc _ _ (next_close _ _ _ _))).trans ?_
  refine (bind_ok (close_here (next_fine hR))).trans ?_
  cases d <;> rfl

example : InNs [(⟨none, "rpc"⟩, [("", "urn:ietf:params:xml:ns:netconf:base:1.0".toList)])] "urn:ietf:params:xml:ns:netconf:base:1.0".toList ∧ EditOk (.url "file:x".toList) := ⟨rfl, trivial⟩

end Verif.Props
