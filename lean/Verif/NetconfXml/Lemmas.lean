import Verif.NetconfXml.Messages
/-!
# Lemmas about reading XML
-/
namespace Verif.Xml
open Verif.Collector (Text trim parseNat)

theorem bind_ok {α β : Type} {p : P α} {f : α → P β} {s s' : St} {a : α} (h : p s = (.ok a, s')) : (p >>= f) s = f a s' := by
  show (match p s with | (.ok a, s') => f a s' | (.err e, s') => (.err e, s') | (.fault x, s') => (.fault x, s')) = _
  rw [h]

theorem bind_err {α β : Type} {p : P α} {f : α → P β} {s s' : St} {e : PErr} (h : p s = (.err e, s')) : (p >>= f) s = (.err e, s') := by
  show (match p s with | (.ok a, s') => f a s' | (.err e, s') => (.err e, s') | (.fault x, s') => (.fault x, s')) = _
  rw [h]

theorem bind_fault {α β : Type} {p : P α} {f : α → P β} {s s' : St} {e : Fault} (h : p s = (.fault e, s')) : (p >>= f) s = (.fault e, s') := by
  show (match p s with | (.ok a, s') => f a s' | (.err e, s') => (.err e, s') | (.fault x, s') => (.fault x, s')) = _
  rw [h]

theorem map_ok {α β : Type} {p : P α} {f : α → β} {s s' : St} {a : α} (h : p s = (.ok a, s')) : (f <$> p) s = (.ok (f a), s') := by
  show (p >>= fun a => pure (f a)) s = _
  rw [bind_ok h]; rfl

/-- what comes next is a tag, or nothing -/
def Next : List Ev → Prop
  | [] => True
  | e :: _ => match e.raw with | .start _ _ => True | .empty _ _ => True | .close _ => True | _ => False

theorem next_fine {es : List Ev} (h : Next es) : headBad es = false := by
  cases es with
  | nil => rfl
  | cons e es =>
    obtain ⟨r, sc⟩ := e
    cases r <;> first | rfl | exact h.elim

theorem skipText_next {es : List Ev} {ps : List Bool} (h : Next es) : skipText ⟨es, ps⟩ = (.ok (), ⟨es, ps⟩) := by
  cases es with
  | nil => rfl
  | cons e es =>
    have : e.raw.isText = false := by
      obtain ⟨r, sc⟩ := e
      cases r <;> first | rfl | exact h.elim
    simp [skipText, skipTextL, this]

/-- text, references and CDATA -/
def Flat (l : List Raw) : Prop := ∀ r ∈ l, (∃ t, r = .text t) ∨ (∃ t, r = .ref t) ∨ ∃ t, r = .cdata t

/-- what `tag_string` makes of them -/
def plain : List Raw → Text
  | [] => []
  | .text t :: l => t ++ plain l
  | .cdata t :: l => t ++ plain l
  | .ref t :: l => refText t ++ plain l
  | _ :: l => plain l

theorem plain_append (a b : List Raw) : plain (a ++ b) = plain a ++ plain b := by
  induction a with
  | nil => rfl
  | cons r a ih => cases r <;> simp [plain, ih]

theorem flat_nil : Flat [] := by simp [Flat]

theorem flat_cons {r : Raw} {l : List Raw} (h : Flat (r :: l)) : ((∃ t, r = .text t) ∨ (∃ t, r = .ref t) ∨ ∃ t, r = .cdata t) ∧ Flat l :=
  ⟨h r List.mem_cons_self, fun x hx => h x (List.mem_cons_of_mem _ hx)⟩

theorem flat_textOf (t : Text) : Flat (textOf t) := by unfold textOf; split <;> simp [Flat]

theorem plain_textOf (t : Text) : plain (textOf t) = t := by
  unfold textOf; split
  · next h => rw [List.isEmpty_iff] at h; simp [plain, h]
  · simp [plain]

theorem lex_ref (t r cs : Text) (h : ∀ c ∈ r, c ≠ ';' ∧ c ≠ '&' ∧ c ≠ '<') (acc : Text) : lex (some acc) t (r ++ ';' :: cs) = .ref (acc ++ r) :: lex none [] cs := by
  induction r generalizing acc with
  | nil => simp [lex]
  | cons c r ih =>
    obtain ⟨h1, h2, h3⟩ := h c List.mem_cons_self
    have := ih (fun d hd => h d (List.mem_cons_of_mem _ hd)) (acc ++ [c])
    simp only [List.cons_append]
    rw [lex] <;> simp_all

theorem lex_char (t cs : Text) {c : Char} (h1 : c ≠ '&') (h2 : c ≠ '<') : lex none t (c :: cs) = lex none (t ++ [c]) cs := by
  rw [lex] <;> simp_all

theorem escape_other (cs : Text) {c : Char} (h1 : c ≠ '<') (h2 : c ≠ '>') (h3 : c ≠ '&') (h4 : c ≠ '\'') (h5 : c ≠ '"') : escape (c :: cs) = c :: escape cs := by
  rw [escape] <;> simp_all

theorem flat_append {a b : List Raw} (ha : Flat a) (hb : Flat b) : Flat (a ++ b) := by
  intro r hr; rcases List.mem_append.1 hr with h | h
  · exact ha r h
  · exact hb r h

theorem flat_ref (r : Text) {l : List Raw} (h : Flat l) : Flat (.ref r :: l) := by
  intro x hx; rcases List.mem_cons.1 hx with rfl | hx
  · exact .inr (.inl ⟨_, rfl⟩)
  · exact h x hx

theorem lex_escape (t acc : Text) : Flat (lex none acc (escape t)) ∧ plain (lex none acc (escape t)) = acc ++ t := by
  induction t generalizing acc with
  | nil => simp only [escape, lex, List.append_nil]; exact ⟨flat_textOf _, plain_textOf _⟩
  | cons c t ih =>
    have key : ∀ (r : Text) (d : Char), (∀ x ∈ r, x ≠ ';' ∧ x ≠ '&' ∧ x ≠ '<') → refText r = [d] →
        Flat (lex none acc ('&' :: (r ++ ';' :: escape t))) ∧ plain (lex none acc ('&' :: (r ++ ';' :: escape t))) = acc ++ d :: t := by
      intro r d hr hd
      have : lex none acc ('&' :: (r ++ ';' :: escape t)) = textOf acc ++ .ref r :: lex none [] (escape t) := by
        show textOf acc ++ lex (some []) [] (r ++ ';' :: escape t) = _
        rw [lex_ref _ _ _ hr]; simp
      rw [this, plain_append, plain_textOf]
      refine ⟨flat_append (flat_textOf _) (flat_ref _ (ih []).1), ?_⟩
      simp [plain, hd, (ih []).2]
    by_cases h1 : c = '<'
    · subst h1; exact key ['l', 't'] _ (by decide) rfl
    by_cases h2 : c = '>'
    · subst h2; exact key ['g', 't'] _ (by decide) rfl
    by_cases h3 : c = '&'
    · subst h3; exact key ['a', 'm', 'p'] _ (by decide) rfl
    by_cases h4 : c = '\''
    · subst h4; exact key ['a', 'p', 'o', 's'] _ (by decide) rfl
    by_cases h5 : c = '"'
    · subst h5; exact key ['q', 'u', 'o', 't'] _ (by decide) rfl
    rw [escape_other _ h1 h2 h3 h4 h5, lex_char _ _ h3 h1]
    have := ih (acc ++ [c])
    simpa using this

theorem flat_written (t : Text) : Flat (written t) := (lex_escape t []).1
theorem plain_written (t : Text) : plain (written t) = t := by have := (lex_escape t []).2; simpa [written, asIs] using this

/-- characters that are no markup -/
def Clear (t : Text) : Prop := ∀ c ∈ t, c ≠ '&' ∧ c ≠ '<'

theorem lex_clear {t : Text} (h : Clear t) (acc : Text) : lex none acc t = textOf (acc ++ t) := by
  induction t generalizing acc with
  | nil => simp [lex]
  | cons c t ih =>
    rw [lex_char _ _ (h c List.mem_cons_self).1 (h c List.mem_cons_self).2, ih (fun d hd => h d (List.mem_cons_of_mem _ hd))]
    simp

theorem asIs_clear {t : Text} (h : Clear t) : asIs t = textOf t := lex_clear h []

theorem annotate_flat {l : List Raw} (h : Flat l) (st : Stack) (R : List Raw) : annotate st (l ++ R) = l.map (⟨·, st.scope⟩) ++ annotate st R := by
  induction l with
  | nil => rfl
  | cons r l ih =>
    obtain ⟨hr, hl⟩ := flat_cons h
    rcases hr with ⟨t, rfl⟩ | ⟨t, rfl⟩ | ⟨t, rfl⟩ <;> (cases st with | nil => simp [annotate, ih hl, Stack.scope] | cons x st => simp [annotate, ih hl, Stack.scope])

theorem fine_flat {l : List Raw} (h : Flat l) (st : Stack) {R : List Raw} (hR : headBad (annotate st R) = false) : headBad (annotate st (l ++ R)) = false := by
  rw [annotate_flat h]
  cases l with
  | nil => exact hR
  | cons r l =>
    obtain ⟨hr, hl⟩ := flat_cons h
    rcases hr with ⟨t, rfl⟩ | ⟨t, rfl⟩ | ⟨t, rfl⟩ <;> rfl

theorem tagStringL_flat {l : List Raw} (h : Flat l) (sc : Scope) (acc : Text) {e : Ev} {es : List Ev} (he : ∃ q, e.raw = .close q) :
    tagStringL acc (l.map (⟨·, sc⟩) ++ e :: es) = (.ok (acc ++ plain l), e :: es) := by
  induction l generalizing acc with
  | nil =>
    obtain ⟨q, hq⟩ := he
    simp only [List.map_nil, List.nil_append, plain, List.append_nil]
    rw [tagStringL]; rw [hq]
  | cons r l ih =>
    obtain ⟨hr, hl⟩ := flat_cons h
    have hb : headBad (l.map (⟨·, sc⟩ : Raw → Ev) ++ e :: es) = false := by
      cases l with
      | nil => obtain ⟨q, hq⟩ := he; simp [headBad, hq]
      | cons r' l =>
        obtain ⟨hr', _⟩ := flat_cons hl
        rcases hr' with ⟨t, rfl⟩ | ⟨t, rfl⟩ | ⟨t, rfl⟩ <;> rfl
    rcases hr with ⟨t, rfl⟩ | ⟨t, rfl⟩ | ⟨t, rfl⟩ <;>
      · simp only [List.map_cons, List.cons_append]
        rw [tagStringL]
        simp only [hb, Bool.false_eq_true, if_false]
        rw [ih hl]; simp [plain]

theorem annotate_start (st : Stack) (q : QName) (as : List Attr) (R : List Raw) :
    annotate st (.start q as :: R) = ⟨.start q as, declared as ++ st.scope⟩ :: annotate ((q, declared as ++ st.scope) :: st) R := by
  cases st <;> rfl

theorem annotate_empty (st : Stack) (q : QName) (as : List Attr) (R : List Raw) :
    annotate st (.empty q as :: R) = ⟨.empty q as, declared as ++ st.scope⟩ :: annotate st R := by
  cases st <;> rfl

theorem annotate_close (st : Stack) (q : QName) (sc : Scope) (R : List Raw) : annotate ((q, sc) :: st) (.close q :: R) = ⟨.close q, sc⟩ :: annotate st R := by
  simp [annotate]

theorem open_start {ns : Text} {key : String} {st : Stack} {as : List Attr} {R : List Raw} {ps : List Bool} {px : Option String}
    (hr : (declared as ++ st.scope).resolve ⟨px, key⟩ = .bound ns) (hR : headBad (annotate ((⟨px, key⟩, declared as ++ st.scope) :: st) R) = false) :
    openTag ns key ⟨annotate st (.start ⟨px, key⟩ as :: R), ps⟩ = (.ok as, ⟨annotate ((⟨px, key⟩, declared as ++ st.scope) :: st) R, true :: ps⟩) := by
  rw [annotate_start]
  simp [openTag, isTagL, hr, hR]

theorem close_here {st : Stack} {q : QName} {sc : Scope} {R : List Raw} {ps : List Bool} (hR : headBad (annotate st R) = false) :
    close ⟨annotate ((q, sc) :: st) (.close q :: R), true :: ps⟩ = (.ok (), ⟨annotate st R, ps⟩) := by
  rw [annotate_close]
  simp [close, hasChild, closeF, next, hR]

theorem tagString_flat {l : List Raw} (h : Flat l) {st : Stack} {q : QName} {sc : Scope} {R : List Raw} {ps : List Bool} :
    tagString ⟨annotate ((q, sc) :: st) (l ++ .close q :: R), true :: ps⟩ = (.ok (plain l), ⟨annotate ((q, sc) :: st) (.close q :: R), true :: ps⟩) := by
  rw [annotate_flat h, annotate_close]
  have := tagStringL_flat h (Stack.scope ((q, sc) :: st)) [] (e := ⟨.close q, sc⟩) (es := annotate st R) ⟨q, rfl⟩
  simp [tagString, hasChild, this]

theorem next_close (st : Stack) (q : QName) (sc : Scope) (R : List Raw) : Next (annotate ((q, sc) :: st) (.close q :: R)) := by
  rw [annotate_close]; trivial

theorem next_start (st : Stack) (q : QName) (as : List Attr) (R : List Raw) : Next (annotate st (.start q as :: R)) := by
  rw [annotate_start]; trivial

theorem next_empty (st : Stack) (q : QName) (as : List Attr) (R : List Raw) : Next (annotate st (.empty q as :: R)) := by
  rw [annotate_empty]; trivial

/-- `maybe_open` of a tag that is there -/
theorem maybeOpen_ok {ns : Text} {key : String} {s s' : St} {as : List Attr} (h : Next s.evs) (ho : openTag ns key s = (.ok as, s')) :
    maybeOpen ns key s = (.ok (some as), s') := by
  show (skipText >>= _) s = _
  refine (bind_ok (skipText_next (es := s.evs) (ps := s.parents) h)).trans ?_
  simp only [ho]

theorem openTag_wrong {ns : Text} {key : String} {s : St} (h : isTagL ns key s.evs = false) : openTag ns key s = (.err (.wrongToken ("<" ++ key ++ ">")), s) := by
  unfold openTag
  split
  · rfl
  · next e es he =>
    rw [he] at h
    split <;> simp_all

/-- `maybe_open` of a tag that is not there -/
theorem maybeOpen_none {ns : Text} {key : String} {s : St} (h : Next s.evs) (ho : isTagL ns key s.evs = false) : maybeOpen ns key s = (.ok none, s) := by
  show (skipText >>= _) s = _
  refine (bind_ok (skipText_next (es := s.evs) (ps := s.parents) h)).trans ?_
  simp only [openTag_wrong ho]

theorem opens_ok {ns : Text} {key : String} {s s' : St} {as : List Attr} (h : Next s.evs) (ho : openTag ns key s = (.ok as, s')) : opens ns key s = (.ok true, s') := by
  unfold opens; rw [maybeOpen_ok h ho]

theorem opens_none {ns : Text} {key : String} {s : St} (h : Next s.evs) (ho : isTagL ns key s.evs = false) : opens ns key s = (.ok false, s) := by
  unfold opens; rw [maybeOpen_none h ho]

/-- a parser reads something off the front of what is to come -/
def Reads {α : Type} (p : P α) (st : Stack) (rs : List Raw) (a : α) : Prop :=
  ∀ R ps, Next (annotate st R) → p ⟨annotate st (rs ++ R), ps⟩ = (.ok a, ⟨annotate st R, ps⟩)

/-- the events of an element without attributes -/
def elem (name : String) (content : List Raw) : List Raw := .start ⟨none, name⟩ [] :: (content ++ [.close ⟨none, name⟩])

theorem elem_append (name : String) (content R : List Raw) : elem name content ++ R = .start ⟨none, name⟩ [] :: (content ++ .close ⟨none, name⟩ :: R) := by simp [elem]

/-- the default namespace inside a stack -/
def InNs (st : Stack) (ns : Text) : Prop := st.scope.resolve ⟨none, ""⟩ = .bound ns

theorem inNs_resolve {st : Stack} {ns : Text} (h : InNs st ns) (l : String) : st.scope.resolve ⟨none, l⟩ = .bound ns := h

theorem inNs_push {st : Stack} {ns : Text} (h : InNs st ns) (q : QName) : InNs ((q, st.scope) :: st) ns := h

/-- an element around what a parser reads -/
theorem reads_inside {α : Type} {st : Stack} {ns : Text} (h : InNs st ns) {name : String} {content : List Raw} {a : α} {p : P α}
    (hp : Reads p ((⟨none, name⟩, st.scope) :: st) content a) (hf : ∀ R, headBad (annotate ((⟨none, name⟩, st.scope) :: st) (content ++ .close ⟨none, name⟩ :: R)) = false) :
    ∀ R ps, Next (annotate st R) →
      openTag ns name ⟨annotate st (elem name content ++ R), ps⟩ = (.ok [], ⟨annotate ((⟨none, name⟩, st.scope) :: st) (content ++ .close ⟨none, name⟩ :: R), true :: ps⟩) ∧
      p ⟨annotate ((⟨none, name⟩, st.scope) :: st) (content ++ .close ⟨none, name⟩ :: R), true :: ps⟩ = (.ok a, ⟨annotate ((⟨none, name⟩, st.scope) :: st) (.close ⟨none, name⟩ :: R), true :: ps⟩) ∧
      close ⟨annotate ((⟨none, name⟩, st.scope) :: st) (.close ⟨none, name⟩ :: R), true :: ps⟩ = (.ok (), ⟨annotate st R, ps⟩) := by
  intro R ps hR
  refine ⟨?_, ?_, close_here (next_fine hR)⟩
  · rw [elem_append]
    have := open_start (ns := ns) (key := name) (st := st) (as := []) (R := content ++ .close ⟨none, name⟩ :: R) (ps := ps) (px := none)
      (by simpa [declared] using inNs_resolve h name) (by simpa [declared] using hf R)
    simpa [declared] using this
  · exact hp _ _ (next_close _ _ _ _)

theorem isTagL_start (ns : Text) (key : String) (st : Stack) (q : QName) (as : List Attr) (R : List Raw) :
    isTagL ns key (annotate st (.start q as :: R)) = (q.loc == key && (declared as ++ st.scope).resolve q == .bound ns) := by rw [annotate_start]; rfl

theorem isTagL_empty (ns : Text) (key : String) (st : Stack) (q : QName) (as : List Attr) (R : List Raw) :
    isTagL ns key (annotate st (.empty q as :: R)) = (q.loc == key && (declared as ++ st.scope).resolve q == .bound ns) := by rw [annotate_empty]; rfl

theorem isTagL_close (ns : Text) (key : String) (st : Stack) (q : QName) (sc : Scope) (R : List Raw) :
    isTagL ns key (annotate ((q, sc) :: st) (.close q :: R)) = (q.loc == key && sc.resolve q == .bound ns) := by rw [annotate_close]; rfl

end Verif.Xml
