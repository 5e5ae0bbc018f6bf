import Verif.NetconfXml.Copy
/-!
# What is written is read back: requests
-/
namespace Verif.Xml
open Verif.Collector (Text trim parseNat)

/-- a filter that is read back -/
def FilterOk : Filter → Prop
  | .subtree c => Copyable "filter" c
  | .xpath t => OneLine t

def filterRaws : Filter → List Raw
  | .subtree c => .start ⟨none, "filter"⟩ [⟨⟨none, "type"⟩, some (escape "subtree".toList)⟩] :: (c ++ [.close ⟨none, "filter"⟩])
  | .xpath t => [.start ⟨none, "filter"⟩ [⟨⟨none, "type"⟩, some (escape "xpath".toList)⟩, ⟨⟨none, "select"⟩, some (escape t)⟩], .close ⟨none, "filter"⟩]

theorem next_filter (st : Stack) (f : Filter) (R : List Raw) : Next (annotate st (filterRaws f ++ R)) := by
  cases f <;> exact next_start _ _ _ _

theorem reads_filter {st : Stack} (h : InNs st nsNetconf) {f : Filter} (hf : FilterOk f) : Reads readFilter st (filterRaws f) f := by
  intro R ps hR
  refine (bind_ok (skipText_next (next_filter _ _ _))).trans ?_
  cases f with
  | subtree c =>
    have hc : Copyable "filter" c := hf
    simp only [filterRaws, List.cons_append, List.append_assoc, List.nil_append]
    refine (bind_ok (open_start (by exact inNs_resolve h "filter") (fine_bal hc.bal))).trans ?_
    refine (bind_ok (copy_reads hc rfl _ _)).trans ?_
    exact (bind_ok (close_here (next_fine hR))).trans rfl
  | xpath t =>
    have ht : OneLine t := hf
    simp only [filterRaws, List.cons_append, List.nil_append]
    refine (bind_ok (open_start (by exact inNs_resolve h "filter") (next_fine (next_close _ _ _ _)))).trans ?_
    have hs : attrOf "select" [⟨⟨none, "type"⟩, some (escape "xpath".toList)⟩, ⟨⟨none, "select"⟩, some (escape t)⟩] = some t := by
      simp [attrOf, normalized_escape, spaced_line ht]
    show (lift PErr.missingAttribute (attrOf "select" _) >>= _) _ = _
    rw [hs]
    exact (bind_ok (close_here (next_fine hR))).trans rfl

/-- the content of an edit that is read back -/
def EditOk : EditContent → Prop
  | .config c => Copyable "config" c
  | .url _ => True

def editRaws : EditContent → List Raw
  | .config c => elem "config" c
  | .url t => elem "url" (written t)

theorem next_elem (st : Stack) (n : String) (c R : List Raw) : Next (annotate st (elem n c ++ R)) := by
  rw [elem_append]; exact next_start _ _ _ _

theorem next_edit (st : Stack) (f : EditContent) (R : List Raw) : Next (annotate st (editRaws f ++ R)) := by
  cases f <;> exact next_elem _ _ _ _

theorem reads_edit {st : Stack} (h : InNs st nsNetconf) {f : EditContent} (hf : EditOk f) : Reads readEditContent st (editRaws f) f := by
  intro R ps hR
  refine (bind_ok (skipText_next (next_edit _ _ _))).trans ?_
  cases f with
  | config c =>
    have hc : Copyable "config" c := hf
    simp only [editRaws, elem_append]
    refine (bind_ok (maybeOpen_none (s := ⟨_, _⟩) (next_start _ _ _ _) (other_start (by decide)))).trans ?_
    refine (bind_ok (maybeOpen_ok (s := ⟨_, _⟩) (next_start _ _ _ _) (open_elem h (fine_bal hc.bal)))).trans ?_
    refine (bind_ok (copy_reads hc rfl _ _)).trans ?_
    exact (bind_ok (close_here (next_fine hR))).trans rfl
  | url t =>
    simp only [editRaws, elem_append]
    refine (bind_ok (maybeOpen_ok (s := ⟨_, _⟩) (next_start _ _ _ _) (open_elem h (fine_flat (flat_written t) _ (next_fine (next_close _ _ _ _)))))).trans ?_
    refine (bind_ok (tagString_flat (flat_written t))).trans ?_
    rw [plain_written]
    exact (bind_ok (close_here (next_fine hR))).trans rfl

/-- something optional that is there -/
theorem optional_some {α : Type} {p : P α} {x : String} {s s' : St} {a : α} (h : p s = (.ok a, s')) : optional x p s = (.ok (some a), s') := by
  unfold optional; rw [h]

theorem optional_none {α : Type} {p : P α} {x : String} {s s' : St} (h : p s = (.err (.wrongToken x), s')) : optional x p s = (.ok none, s') := by
  unfold optional; rw [h]; simp

theorem choice_absent {α : Type} {ns : Text} {tag : String} {vals : List (String × α)} {s : St} (hn : Next s.evs) (h : isTagL ns tag s.evs = false) :
    readChoice ns tag vals s = (.err (.wrongToken ("<" ++ tag ++ ">")), s) := by
  refine (bind_ok (skipText_next (es := s.evs) (ps := s.parents) hn)).trans ?_
  exact bind_err (openTag_wrong h)

/-- the events of something optional -/
def optRaws {α : Type} (f : α → List Raw) : Option α → List Raw
  | some a => f a
  | none => []

theorem reads_opt {α : Type} {ns : Text} {tag : String} {vals : List (String × α)} {st : Stack} {f : α → List Raw} (hf : ∀ a, Reads (readChoice ns tag vals) st (f a) a)
    (x : Option α) {R : List Raw} {ps : List Bool} (hR : Next (annotate st R)) (ho : isTagL ns tag (annotate st R) = false) :
    optional ("<" ++ tag ++ ">") (readChoice ns tag vals) ⟨annotate st (optRaws f x ++ R), ps⟩ = (.ok x, ⟨annotate st R, ps⟩) := by
  cases x with
  | some a => exact optional_some (hf a R ps hR)
  | none => exact optional_none (choice_absent hR ho)

/-- the events of an operation -/
def opRaws : Op → List Raw
  | .getConfig s f => elem "get-config" (elem "source" [.empty ⟨none, s.name⟩ []] ++ filterRaws f)
  | .editConfig t d o e c => elem "edit-config" (elem "target" [.empty ⟨none, t.name⟩ []] ++ (elem "default-operation" (written d.name.toList) ++
      (optRaws (fun o => elem "test-option" (written (TestOption.name o).toList)) o ++ (optRaws (fun e => elem "error-option" (written (ErrorOption.name e).toList)) e ++ editRaws c))))
  | .get f => elem "get" (filterRaws f)
  | .getYangLibrary => elem "get" (filterRaws (.subtree libraryFilter))
  | .closeSession => [.empty ⟨none, "close-session"⟩ []]
  | .getSchema i v f => .start ⟨none, "get-schema"⟩ [⟨⟨none, "xmlns"⟩, some nsMonitoring⟩] :: (elem "identifier" (written i) ++
      (optRaws (fun v => elem "version" (written v)) v ++ (optRaws (fun f => elem "format" (written (SchemaFormat.name f).toList)) f ++ [.close ⟨none, "get-schema"⟩])))

/-- an operation that is read back -/
def OpOk : Op → Prop
  | .getConfig _ f => FilterOk f
  | .editConfig _ _ _ _ c => EditOk c
  | .get f => FilterOk f
  | .getYangLibrary => False
  | .closeSession => True
  | .getSchema i v _ => trim i = i ∧ ∀ x, v = some x → trim x = x

theorem reads_getConfig {st : Stack} (h : InNs st nsNetconf) (s : Source) {f : Filter} (hf : FilterOk f) : Reads readOp st (opRaws (.getConfig s f)) (.getConfig s f) := by
  intro R ps hR
  simp only [opRaws, elem_append "get-config"]
  refine (bind_ok (skipText_next (next_start _ _ _ _))).trans ?_
  rw [List.append_assoc]
  refine (bind_ok (maybeOpen_ok (s := ⟨_, _⟩) (next_start _ _ _ _) (open_elem h (next_fine (next_elem _ _ _ _))))).trans ?_
  show readGetConfig _ = _
  refine (bind_ok (skipText_next (next_elem _ _ _ _))).trans ?_
  refine (bind_ok (reads_source (inNs_push h _) s _ _ (next_filter _ _ _))).trans ?_
  refine (bind_ok (reads_filter (inNs_push h _) hf _ _ (next_close _ _ _ _))).trans ?_
  exact (bind_ok (close_here (next_fine hR))).trans rfl

theorem reads_get {st : Stack} (h : InNs st nsNetconf) {f : Filter} (hf : FilterOk f) : Reads readOp st (opRaws (.get f)) (.get f) := by
  intro R ps hR
  simp only [opRaws, elem_append "get"]
  refine (bind_ok (skipText_next (next_start _ _ _ _))).trans ?_
  refine (bind_ok (maybeOpen_none (s := ⟨_, _⟩) (next_start _ _ _ _) (other_start (by decide)))).trans ?_
  refine (bind_ok (maybeOpen_none (s := ⟨_, _⟩) (next_start _ _ _ _) (other_start (by decide)))).trans ?_
  refine (bind_ok (maybeOpen_ok (s := ⟨_, _⟩) (next_start _ _ _ _) (open_elem h (next_fine (next_filter _ _ _))))).trans ?_
  show readGet _ = _
  refine (bind_ok (skipText_next (next_filter _ _ _))).trans ?_
  refine (bind_ok (reads_filter (inNs_push h _) hf _ _ (next_close _ _ _ _))).trans ?_
  exact (bind_ok (close_here (next_fine hR))).trans rfl

theorem reads_closeSession {st : Stack} (h : InNs st nsNetconf) : Reads readOp st (opRaws .closeSession) .closeSession := by
  intro R ps hR
  simp only [opRaws, List.cons_append, List.nil_append]
  refine (bind_ok (skipText_next (next_empty _ _ _ _))).trans ?_
  refine (bind_ok (maybeOpen_none (s := ⟨_, _⟩) (next_empty _ _ _ _) (other_empty (by decide)))).trans ?_
  refine (bind_ok (maybeOpen_none (s := ⟨_, _⟩) (next_empty _ _ _ _) (other_empty (by decide)))).trans ?_
  refine (bind_ok (maybeOpen_none (s := ⟨_, _⟩) (next_empty _ _ _ _) (other_empty (by decide)))).trans ?_
  refine (bind_ok (maybeOpen_ok (s := ⟨_, _⟩) (next_empty _ _ _ _) (open_empty (by exact inNs_resolve h "close-session")))).trans ?_
  exact (bind_ok (close_empty (next_fine hR))).trans rfl

theorem next_opt {α : Type} {f : α → List Raw} {st : Stack} (hf : ∀ a R, Next (annotate st (f a ++ R))) (x : Option α) {R : List Raw} (hR : Next (annotate st R)) :
    Next (annotate st (optRaws f x ++ R)) := by
  cases x with
  | some a => exact hf a R
  | none => exact hR

theorem other_elem {ns : Text} {key name : String} {st : Stack} {c R : List Raw} (h : name ≠ key) : isTagL ns key (annotate st (elem name c ++ R)) = false := by
  rw [elem_append]; exact other_start h

theorem other_opt {α : Type} {ns : Text} {key : String} {f : α → List Raw} {st : Stack} (hf : ∀ a R, isTagL ns key (annotate st (f a ++ R)) = false) (x : Option α) {R : List Raw}
    (hR : isTagL ns key (annotate st R) = false) : isTagL ns key (annotate st (optRaws f x ++ R)) = false := by
  cases x with
  | some a => exact hf a R
  | none => exact hR

theorem other_edit {ns : Text} {key : String} {st : Stack} {c : EditContent} {R : List Raw} (h1 : "config" ≠ key) (h2 : "url" ≠ key) : isTagL ns key (annotate st (editRaws c ++ R)) = false := by
  cases c
  · exact other_elem h1
  · exact other_elem h2

theorem reads_editConfig {st : Stack} (h : InNs st nsNetconf) (t : Target) (d : DefaultOp) (o : Option TestOption) (e : Option ErrorOption) {c : EditContent} (hc : EditOk c) :
    Reads readOp st (opRaws (.editConfig t d o e c)) (.editConfig t d o e c) := by
  intro R ps hR
  simp only [opRaws, elem_append "edit-config"]
  refine (bind_ok (skipText_next (next_start _ _ _ _))).trans ?_
  refine (bind_ok (maybeOpen_none (s := ⟨_, _⟩) (next_start _ _ _ _) (other_start (by decide)))).trans ?_
  simp only [List.append_assoc]
  refine (bind_ok (maybeOpen_ok (s := ⟨_, _⟩) (next_start _ _ _ _) (open_elem h (next_fine (next_elem _ _ _ _))))).trans ?_
  show readEditConfig _ = _
  have h' := inNs_push h ⟨none, "edit-config"⟩
  refine (bind_ok (skipText_next (next_elem _ _ _ _))).trans ?_
  refine (bind_ok (reads_target h' t _ _ (next_elem _ _ _ _))).trans ?_
  have n4 := next_edit ((⟨none, "edit-config"⟩, st.scope) :: st) c (.close ⟨none, "edit-config"⟩ :: R)
  have n3 := next_opt (f := fun e => elem "error-option" (written (ErrorOption.name e).toList)) (fun _ _ => next_elem _ _ _ _) e n4
  have n2 := next_opt (f := fun o => elem "test-option" (written (TestOption.name o).toList)) (fun _ _ => next_elem _ _ _ _) o n3
  refine (bind_ok (optional_some (reads_defaultOp h' d _ _ n2))).trans ?_
  refine (bind_ok (reads_opt (tag := "test-option") (fun a => reads_testOption h' a) o n3 (other_opt (fun _ _ => other_elem (by decide)) e (other_edit (by decide) (by decide))))).trans ?_
  refine (bind_ok (reads_opt (tag := "error-option") (fun a => reads_errorOption h' a) e n4 (other_edit (by decide) (by decide)))).trans ?_
  refine (bind_ok (reads_edit h' hc _ _ (next_close _ _ _ _))).trans ?_
  exact (bind_ok (close_here (next_fine hR))).trans rfl

theorem reads_getSchema {st : Stack} (i : Text) (v : Option Text) (f : Option SchemaFormat) (hi : trim i = i) (hv : ∀ x, v = some x → trim x = x) :
    Reads readOp st (opRaws (.getSchema i v f)) (.getSchema i v f) := by
  intro R ps hR
  simp only [opRaws, List.cons_append, List.append_assoc, List.nil_append]
  refine (bind_ok (skipText_next (next_start _ _ _ _))).trans ?_
  refine (bind_ok (maybeOpen_none (s := ⟨_, _⟩) (next_start _ _ _ _) (other_start (by decide)))).trans ?_
  refine (bind_ok (maybeOpen_none (s := ⟨_, _⟩) (next_start _ _ _ _) (other_start (by decide)))).trans ?_
  refine (bind_ok (maybeOpen_none (s := ⟨_, _⟩) (next_start _ _ _ _) (other_start (by decide)))).trans ?_
  refine (bind_ok (maybeOpen_none (s := ⟨_, _⟩) (next_start _ _ _ _) (other_start (by decide)))).trans ?_
  refine (bind_ok (maybeOpen_ok (s := ⟨_, _⟩) (next_start _ _ _ _) (open_start (ns := nsMonitoring) (by rfl) (next_fine (next_elem _ _ _ _))))).trans ?_
  show readGetSchema _ = _
  have h' : InNs ((⟨none, "get-schema"⟩, declared [⟨⟨none, "xmlns"⟩, some nsMonitoring⟩] ++ st.scope) :: st) nsMonitoring := rfl
  generalize declared [⟨⟨none, "xmlns"⟩, some nsMonitoring⟩] ++ st.scope = sc at h' ⊢
  refine (bind_ok (skipText_next (next_elem _ _ _ _))).trans ?_
  have n3 := next_close st ⟨none, "get-schema"⟩ sc R
  have n2 := next_opt (f := fun f => elem "format" (written (SchemaFormat.name f).toList)) (fun _ _ => next_elem _ _ _ _) f n3
  have n1 := next_opt (f := fun v => elem "version" (written v)) (fun _ _ => next_elem _ _ _ _) v n2
  rw [elem_append]
  refine (bind_ok (open_elem h' (fine_flat (flat_written i) _ (next_fine (next_close _ _ _ _))))).trans ?_
  refine (bind_ok (tagString_flat (flat_written i))).trans ?_
  rw [plain_written]
  refine (bind_ok (close_here (next_fine n1))).trans ?_
  have hf : optional "<format>" readFormat ⟨annotate ((⟨none, "get-schema"⟩, sc) :: st) (optRaws (fun f => elem "format" (written (SchemaFormat.name f).toList)) f ++ .close ⟨none, "get-schema"⟩ :: R), true :: ps⟩ =
      (.ok f, ⟨annotate ((⟨none, "get-schema"⟩, sc) :: st) (.close ⟨none, "get-schema"⟩ :: R), true :: ps⟩) :=
    reads_opt (tag := "format") (fun a => reads_format h' a) f n3 (by rw [isTagL_close]; simp)
  cases v with
  | some v =>
    simp only [optRaws, elem_append "version"]
    refine (bind_ok (maybeOpen_ok (s := ⟨_, _⟩) (next_start _ _ _ _) (open_elem h' (fine_flat (flat_written v) _ (next_fine (next_close _ _ _ _)))))).trans ?_
    refine (bind_ok (tagString_flat (flat_written v))).trans ?_
    rw [plain_written]
    refine (bind_ok (close_here (next_fine n2))).trans ?_
    refine (bind_ok hf).trans ?_
    refine (bind_ok (close_here (next_fine hR))).trans ?_
    rw [hi, hv v rfl]; rfl
  | none =>
    refine (bind_ok (maybeOpen_none (s := ⟨_, _⟩) n2 (other_opt (fun _ _ => other_elem (by decide)) f (by rw [isTagL_close]; simp)))).trans ?_
    refine (bind_ok hf).trans ?_
    refine (bind_ok (close_here (next_fine hR))).trans ?_
    rw [hi]; rfl

theorem reads_op {st : Stack} (h : InNs st nsNetconf) {o : Op} (ho : OpOk o) : Reads readOp st (opRaws o) o := by
  cases o with
  | getConfig s f => exact reads_getConfig h s ho
  | editConfig t d o e c => exact reads_editConfig h t d o e ho
  | get f => exact reads_get h ho
  | getYangLibrary => exact ho.elim
  | closeSession => exact reads_closeSession h
  | getSchema i v f => exact reads_getSchema i v f ho.1 ho.2

end Verif.Xml
