import Verif.NetconfXml.RoundTripReply
/-!
# What is written is read back: errors and replies
-/
namespace Verif.Xml
open Verif.Collector (Text trim parseNat)

theorem flat_asIs {t : Text} (h : Clear t) : Flat (asIs t) := by rw [asIs_clear h]; exact flat_textOf t
theorem plain_asIs {t : Text} (h : Clear t) : plain (asIs t) = t := by rw [asIs_clear h]; exact plain_textOf t

theorem reads_exact {α : Type} {st : Stack} (h : InNs st nsNetconf) {tag : String} {vals : List (String × α)} {t : Text} {v : α} (ht : Clear t)
    (hv : readEnum vals t = some v) : Reads (readExact tag vals) st (elem tag (asIs t)) v := by
  intro R ps hR
  rw [elem_append]
  refine (bind_ok (skipText_next (next_start _ _ _ _))).trans ?_
  refine (bind_ok (open_elem h (fine_flat (flat_asIs ht) _ (next_fine (next_close _ _ _ _))))).trans ?_
  refine (bind_ok (tagString_flat (flat_asIs ht))).trans ?_
  rw [plain_asIs ht, hv]
  refine (bind_ok (lift_some _ _ _)).trans ?_
  exact (bind_ok (close_here (next_fine hR))).trans rfl

instance (t : Text) : Decidable (Clear t) := inferInstanceAs (Decidable (∀ c ∈ t, c ≠ '&' ∧ c ≠ '<'))

/-- the events of an optional text -/
def textRaws (tag : String) (x : Option Text) : List Raw := optRaws (fun t => elem tag (asIs t)) x

/-- an optional text that can be read back -/
def ClearOpt (x : Option Text) : Prop := ∀ t, x = some t → Clear t

theorem reads_optional {st : Stack} (h : InNs st nsNetconf) {tag : String} {x : Option Text} (hx : ClearOpt x) {R : List Raw} {ps : List Bool} (hR : Next (annotate st R))
    (ho : x = none → isTagL nsNetconf tag (annotate st R) = false) : readOptional tag ⟨annotate st (textRaws tag x ++ R), ps⟩ = (.ok x, ⟨annotate st R, ps⟩) := by
  cases x with
  | some t =>
    have ht := hx t rfl
    simp only [textRaws, optRaws, elem_append]
    refine (bind_ok (opens_ok (s := ⟨_, _⟩) (next_start _ _ _ _) (open_elem h (fine_flat (flat_asIs ht) _ (next_fine (next_close _ _ _ _)))))).trans ?_
    refine (bind_ok (tagString_flat (flat_asIs ht))).trans ?_
    rw [plain_asIs ht]
    exact (bind_ok (close_here (next_fine hR))).trans rfl
  | none => exact (bind_ok (opens_none (s := ⟨annotate st R, ps⟩) hR (ho rfl))).trans rfl

theorem next_text {st : Stack} {tag : String} {x : Option Text} {R : List Raw} (hR : Next (annotate st R)) : Next (annotate st (textRaws tag x ++ R)) :=
  next_opt (fun _ _ => next_elem _ _ _ _) x hR

theorem other_text {st : Stack} {tag key : String} {x : Option Text} {R : List Raw} (hn : tag ≠ key) (hR : x = none → isTagL nsNetconf key (annotate st R) = false) :
    isTagL nsNetconf key (annotate st (textRaws tag x ++ R)) = false := by
  cases x with
  | some t => exact other_elem hn
  | none => exact hR rfl

theorem bal_text {tag : String} {x : Option Text} (h : ClearOpt x) : Bal (textRaws tag x) := by
  cases x with
  | some t => exact bal_elem (bal_flat (flat_asIs (h t rfl)))
  | none => exact .nil

/-- the events of a value of `error-info` -/
def infoRaws (v : InfoValue) : List Raw :=
  textRaws "bad-attribute" v.badAttribute ++ (textRaws "bad-element" v.badElement ++ (textRaws "ok-element" v.okElement ++ (textRaws "err-element" v.errElement ++
    (textRaws "noop-element" v.noopElement ++ textRaws "bad-namespace" v.badNamespace))))

/-- all texts of a value can be read back -/
structure InfoClear (v : InfoValue) : Prop where
  a : ClearOpt v.badAttribute
  b : ClearOpt v.badElement
  c : ClearOpt v.okElement
  d : ClearOpt v.errElement
  e : ClearOpt v.noopElement
  f : ClearOpt v.badNamespace

/-- the first name of a value -/
def InfoValue.first (v : InfoValue) : Option String :=
  if v.badAttribute.isSome then some "bad-attribute" else if v.badElement.isSome then some "bad-element" else if v.okElement.isSome then some "ok-element"
  else if v.errElement.isSome then some "err-element" else if v.noopElement.isSome then some "noop-element" else if v.badNamespace.isSome then some "bad-namespace" else none

/-- something holds of all names behind the last one of a value -/
structure Apart (v : InfoValue) (free : String → Prop) : Prop where
  f : v.badNamespace = none → free "bad-namespace"
  e : v.badNamespace = none → v.noopElement = none → free "noop-element"
  d : v.badNamespace = none → v.noopElement = none → v.errElement = none → free "err-element"
  c : v.badNamespace = none → v.noopElement = none → v.errElement = none → v.okElement = none → free "ok-element"
  b : v.badNamespace = none → v.noopElement = none → v.errElement = none → v.okElement = none → v.badElement = none → free "bad-element"

theorem next_info {st : Stack} {v : InfoValue} {R : List Raw} (hR : Next (annotate st R)) : Next (annotate st (infoRaws v ++ R)) := by
  simp only [infoRaws, List.append_assoc]
  exact next_text (next_text (next_text (next_text (next_text (next_text hR)))))

theorem reads_info {st : Stack} (h : InNs st nsNetconf) {v : InfoValue} (hc : InfoClear v) (hs : v.first ≠ none) {R : List Raw} {ps : List Bool} (hR : Next (annotate st R))
    (ha : Apart v fun n => isTagL nsNetconf n (annotate st R) = false) : readInfoValue ⟨annotate st (infoRaws v ++ R), ps⟩ = (.ok v, ⟨annotate st R, ps⟩) := by
  simp only [infoRaws, List.append_assoc]
  obtain ⟨a, b, c, d, e, f⟩ := v
  obtain ⟨ca, cb, cc, cd, ce, cf⟩ := hc
  obtain ⟨af, ae, ad, ac, ab⟩ := ha
  simp only at af ae ad ac ab ca cb cc cd ce cf ⊢
  have h0 : a = none → f = none → e = none → d = none → c = none → b = none → isTagL nsNetconf "bad-attribute" (annotate st R) = false := by
    intro ha hf he hd hc hb; subst ha hf he hd hc hb; exact absurd rfl hs
  refine (bind_ok (reads_optional h ca (next_text (next_text (next_text (next_text (next_text hR)))))
    fun z => other_text (by decide) fun zb => other_text (by decide) fun zc => other_text (by decide) fun zd => other_text (by decide) fun ze => other_text (by decide) fun zf => h0 z zf ze zd zc zb)).trans ?_
  refine (bind_ok (reads_optional h cb (next_text (next_text (next_text (next_text hR))))
    fun z => other_text (by decide) fun zc => other_text (by decide) fun zd => other_text (by decide) fun ze => other_text (by decide) fun zf => ab zf ze zd zc z)).trans ?_
  refine (bind_ok (reads_optional h cc (next_text (next_text (next_text hR)))
    fun z => other_text (by decide) fun zd => other_text (by decide) fun ze => other_text (by decide) fun zf => ac zf ze zd z)).trans ?_
  refine (bind_ok (reads_optional h cd (next_text (next_text hR)) fun z => other_text (by decide) fun ze => other_text (by decide) fun zf => ad zf ze z)).trans ?_
  refine (bind_ok (reads_optional h ce (next_text hR) fun z => other_text (by decide) fun zf => ae zf z)).trans ?_
  refine (bind_ok (reads_optional h cf hR fun z => af z)).trans ?_
  have : (a.isNone && b.isNone && c.isNone && d.isNone && e.isNone && f.isNone) = false := by
    cases a <;> cases b <;> cases c <;> cases d <;> cases e <;> cases f <;> first | rfl | exact absurd rfl hs
  rw [this]; rfl

theorem info_end {st : Stack} {q : QName} {sc : Scope} {R : List Raw} {ps : List Bool}
    (hq : q.loc = "error-info") : readInfoValue ⟨annotate ((q, sc) :: st) (.close q :: R), ps⟩ = (.err .recoverable, ⟨annotate ((q, sc) :: st) (.close q :: R), ps⟩) := by
  have hn := next_close st q sc R
  have ho : ∀ k, "error-info" ≠ k → readOptional k ⟨annotate ((q, sc) :: st) (.close q :: R), ps⟩ = (.ok none, ⟨annotate ((q, sc) :: st) (.close q :: R), ps⟩) := by
    intro k hk
    have ht : isTagL nsNetconf k (annotate ((q, sc) :: st) (.close q :: R)) = false := by rw [isTagL_close, hq]; simp [hk]
    exact (bind_ok (opens_none (s := ⟨_, ps⟩) hn ht)).trans rfl
  refine (bind_ok (ho _ (by decide))).trans ?_
  refine (bind_ok (ho _ (by decide))).trans ?_
  refine (bind_ok (ho _ (by decide))).trans ?_
  refine (bind_ok (ho _ (by decide))).trans ?_
  refine (bind_ok (ho _ (by decide))).trans ?_
  refine (bind_ok (ho _ (by decide))).trans ?_
  rfl

/-- values that stay apart when they are written one behind the other -/
def InfosOk : List InfoValue → Prop
  | [] => True
  | [v] => InfoClear v ∧ v.first ≠ none
  | v :: w :: vs => InfoClear v ∧ v.first ≠ none ∧ Apart v (fun n => w.first ≠ some n) ∧ InfosOk (w :: vs)

theorem infosOk_clear {vs : List InfoValue} (h : InfosOk vs) : ∀ v ∈ vs, InfoClear v ∧ v.first ≠ none := by
  induction vs with
  | nil => simp
  | cons v vs ih =>
    cases vs with
    | nil => intro x hx; simp at hx; subst hx; exact h
    | cons w vs =>
      intro x hx
      rcases List.mem_cons.1 hx with rfl | hx
      · exact ⟨h.1, h.2.1⟩
      · exact ih h.2.2.2 x hx

theorem infosOk_tail {pre vs : List InfoValue} (h : InfosOk (pre ++ vs)) : InfosOk vs := by
  induction pre with
  | nil => exact h
  | cons v pre ih =>
    apply ih
    cases hp : pre ++ vs with
    | nil => trivial
    | cons w ws => rw [List.cons_append, hp] at h; exact h.2.2.2

theorem isTag_info {st : Stack} {w : InfoValue} (hw : w.first ≠ none) {k : String} (hk : w.first ≠ some k) (R : List Raw) : isTagL nsNetconf k (annotate st (infoRaws w ++ R)) = false := by
  obtain ⟨a, b, c, d, e, f⟩ := w
  simp only [InfoValue.first] at hk
  simp only [infoRaws, List.append_assoc]
  cases a with
  | some t => exact other_elem fun e => hk (by simp [e])
  | none =>
  cases b with
  | some t => exact other_elem fun e => hk (by simp [e])
  | none =>
  cases c with
  | some t => exact other_elem fun e => hk (by simp [e])
  | none =>
  cases d with
  | some t => exact other_elem fun e => hk (by simp [e])
  | none =>
  cases e with
  | some t => exact other_elem fun e => hk (by simp [e])
  | none =>
  cases f with
  | some t => exact other_elem fun e => hk (by simp [e])
  | none => exact absurd rfl hw

theorem bal_info {v : InfoValue} (h : InfoClear v) : Bal (infoRaws v) :=
  bal_append (bal_text h.a) (bal_append (bal_text h.b) (bal_append (bal_text h.c) (bal_append (bal_text h.d) (bal_append (bal_text h.e) (bal_text h.f)))))

theorem infoRaws_ne {v : InfoValue} (h : v.first ≠ none) : infoRaws v ≠ [] := by
  obtain ⟨a, b, c, d, e, f⟩ := v
  intro hx
  simp only [infoRaws, List.append_eq_nil_iff] at hx
  have key : ∀ {tag : String} {x : Option Text}, textRaws tag x = [] → x = none := by
    intro tag x hx; cases x with
    | none => rfl
    | some t => simp [textRaws, optRaws, elem] at hx
  obtain ⟨h1, h2, h3, h4, h5, h6⟩ := hx
  have := key h1; have := key h2; have := key h3; have := key h4; have := key h5; have := key h6
  subst_vars; exact h rfl

/-- the information about an error that is read back -/
def ErrorInfoOk : ErrorInfo → Prop
  | .sessionId _ => True
  | .values vs => InfosOk vs

def errorInfoRaws : ErrorInfo → List Raw
  | .sessionId n => elem "error-info" (elem "session-id" (written (decimal n.toNat)))
  | .values vs => elem "error-info" (vs.flatMap infoRaws)

theorem apart_mono {v : InfoValue} {f g : String → Prop} (h : Apart v f) (hfg : ∀ n, n ∈ ["bad-element", "ok-element", "err-element", "noop-element", "bad-namespace"] → f n → g n) : Apart v g :=
  ⟨fun a => hfg _ (by decide) (h.f a), fun a b => hfg _ (by decide) (h.e a b), fun a b c => hfg _ (by decide) (h.d a b c), fun a b c d => hfg _ (by decide) (h.c a b c d),
    fun a b c d e => hfg _ (by decide) (h.b a b c d e)⟩

theorem apart_all {v : InfoValue} {f : String → Prop} (h : ∀ n, n ∈ ["bad-element", "ok-element", "err-element", "noop-element", "bad-namespace"] → f n) : Apart v f :=
  ⟨fun _ => h _ (by decide), fun _ _ => h _ (by decide), fun _ _ _ => h _ (by decide), fun _ _ _ _ => h _ (by decide), fun _ _ _ _ _ => h _ (by decide)⟩

theorem reads_errorInfo {st : Stack} (h : InNs st nsNetconf) {i : ErrorInfo} (hi : ErrorInfoOk i) : Reads readErrorInfo st (errorInfoRaws i) i := by
  intro R ps hR
  cases i with
  | sessionId n =>
    simp only [errorInfoRaws, elem_append "error-info"]
    refine (bind_ok (open_elem h (next_fine (next_elem _ _ _ _)))).trans ?_
    simp only [elem_append]
    refine (bind_ok (opens_ok (s := ⟨_, _⟩) (next_start _ _ _ _) (open_elem (inNs_push h _) (fine_flat (flat_written _) _ (next_fine (next_close _ _ _ _)))))).trans ?_
    refine (bind_ok (tagString_flat (flat_written _))).trans ?_
    rw [plain_written, readU32_decimal]
    refine (bind_ok (lift_some _ _ _)).trans ?_
    refine (bind_ok (close_here (next_fine (next_close _ _ _ _)))).trans ?_
    exact (bind_ok (close_here (next_fine hR))).trans rfl
  | values vs =>
    have hv : InfosOk vs := hi
    have hb : Bal (vs.flatMap infoRaws) := bal_flatMap _ fun v hm => bal_info (infosOk_clear hv v hm).1
    have hnext : ∀ vs : List InfoValue, Next (annotate ((⟨none, "error-info"⟩, st.scope) :: st) (vs.flatMap infoRaws ++ .close ⟨none, "error-info"⟩ :: R)) := by
      intro vs; induction vs with
      | nil => exact next_close _ _ _ _
      | cons v vs ih => simp only [List.flatMap_cons, List.append_assoc]; exact next_info ih
    have h' := inNs_push h ⟨none, "error-info"⟩
    simp only [errorInfoRaws, elem_append]
    refine (bind_ok (open_elem h (fine_bal hb))).trans ?_
    have hno : isTagL nsNetconf "session-id" (annotate ((⟨none, "error-info"⟩, st.scope) :: st) (vs.flatMap infoRaws ++ .close ⟨none, "error-info"⟩ :: R)) = false := by
      cases vs with
      | nil => rw [List.flatMap_nil, List.nil_append, isTagL_close]; simp
      | cons v vs =>
        simp only [List.flatMap_cons, List.append_assoc]
        refine isTag_info (infosOk_clear hv v List.mem_cons_self).2 ?_ _
        unfold InfoValue.first; repeat' split
        all_goals simp
    refine (bind_ok (opens_none (s := ⟨_, _⟩) (hnext vs) hno)).trans ?_
    have hcol : collect readInfoValue ⟨annotate ((⟨none, "error-info"⟩, st.scope) :: st) (vs.flatMap infoRaws ++ .close ⟨none, "error-info"⟩ :: R), true :: ps⟩ =
        (.ok vs, ⟨annotate ((⟨none, "error-info"⟩, st.scope) :: st) (.close ⟨none, "error-info"⟩ :: R), true :: ps⟩) := by
      unfold collect
      simp only [hasChild, if_true]
      rw [collectF_reads]
      · intro ps; exact ⟨_, .inl rfl, info_end rfl⟩
      · have h1 := bal_length hb ((⟨none, "error-info"⟩, st.scope) :: st) (.close ⟨none, "error-info"⟩ :: R)
        have h2 := flatMap_length (f := infoRaws) vs (fun v hm => infoRaws_ne (infosOk_clear hv v hm).2)
        exact Nat.lt_succ_of_le (Nat.le_trans h2 h1)
      · intro v hm R'
        have := (infosOk_clear hv v hm)
        obtain ⟨_, hf⟩ := this
        obtain ⟨a, b, c, d, e, f⟩ := v
        simp only [infoRaws, List.append_assoc]
        cases a with
        | some t => exact next_elem _ _ _ _
        | none =>
        cases b with
        | some t => exact next_elem _ _ _ _
        | none =>
        cases c with
        | some t => exact next_elem _ _ _ _
        | none =>
        cases d with
        | some t => exact next_elem _ _ _ _
        | none =>
        cases e with
        | some t => exact next_elem _ _ _ _
        | none =>
        cases f with
        | some t => exact next_elem _ _ _ _
        | none => exact absurd rfl hf
      · intro pre v l' hl ps'
        rw [hl] at hv
        have hv' := infosOk_tail hv
        refine reads_info h' (infosOk_clear hv' v List.mem_cons_self).1 (infosOk_clear hv' v List.mem_cons_self).2 (hnext _) ?_
        cases l' with
        | nil =>
          apply apart_all; intro n hn
          rw [List.flatMap_nil, List.nil_append, isTagL_close]
          have : "error-info" ≠ n := by intro e; subst e; exact absurd hn (by decide)
          simp [this]
        | cons w l' =>
          refine apart_mono hv'.2.2.1 fun n _ hw => ?_
          simp only [List.flatMap_cons, List.append_assoc]
          exact isTag_info (infosOk_clear hv' w (by simp)).2 hw _
    refine (bind_ok hcol).trans ?_
    refine (bind_ok (p := fun s => skipToInfoEnd (s.evs.length + 1) s) (a := ()) (s' := ⟨annotate ((⟨none, "error-info"⟩, st.scope) :: st) (.close ⟨none, "error-info"⟩ :: R), true :: ps⟩) ?_).trans ?_
    · rw [annotate_close]
      simp [skipToInfoEnd, inNs_resolve h "error-info"]
    exact (bind_ok (close_here (next_fine hR))).trans rfl

/-- an error that is read back -/
structure ErrorOk (e : RpcError) : Prop where
  app : ClearOpt e.appTag
  path : ClearOpt e.path
  message : ClearOpt e.message
  info : ∀ i, e.info = some i → ErrorInfoOk i

def errorRaws (e : RpcError) : List Raw := elem "rpc-error" (elem "error-type" (asIs e.type.name.toList) ++ (elem "error-tag" (asIs e.tag.name.toList) ++ (elem "error-severity" (asIs e.severity.name.toList) ++
  (textRaws "error-app-tag" e.appTag ++ (textRaws "error-path" e.path ++ (textRaws "error-message" e.message ++ optRaws errorInfoRaws e.info))))))

theorem isTag_eq {ns : Text} {k : String} {s : St} {b : Bool} (h : isTagL ns k s.evs = b) : isTag ns k s = (.ok b, s) := by
  unfold isTag; rw [h]

theorem tag_elem {ns : Text} {st : Stack} (h : InNs st ns) (name : String) (c R : List Raw) (ps : List Bool) : isTagL ns name (St.mk (annotate st (elem name c ++ R)) ps).evs = true := by
  show isTagL ns name (annotate st (elem name c ++ R)) = true
  rw [elem_append, isTagL_start]
  have := inNs_resolve h name
  simp [declared, this]

theorem next_errorInfo (st : Stack) (i : ErrorInfo) (R : List Raw) : Next (annotate st (errorInfoRaws i ++ R)) := by
  cases i <;> exact next_elem _ _ _ _

theorem reads_error {st : Stack} (h : InNs st nsNetconf) {e : RpcError} (he : ErrorOk e) : Reads readRpcError st (errorRaws e) e := by
  intro R ps hR
  obtain ⟨ty, tag, sev, app, path, msg, info⟩ := e
  obtain ⟨h1, h2, h3, h4⟩ := he
  simp only at h1 h2 h3 h4
  simp only [errorRaws, elem_append "rpc-error", List.append_assoc]
  refine (bind_ok (open_elem h (next_fine (next_elem _ _ _ _)))).trans ?_
  have h' := inNs_push h ⟨none, "rpc-error"⟩
  have n4 := next_close st ⟨none, "rpc-error"⟩ st.scope R
  have n3 := next_opt (f := errorInfoRaws) (fun a R => next_errorInfo _ a R) info n4
  have n2 := next_text (tag := "error-message") (x := msg) n3
  have n1 := next_text (tag := "error-path") (x := path) n2
  have n0 := next_text (tag := "error-app-tag") (x := app) n1
  have oi : ∀ k, "error-info" ≠ k → "rpc-error" ≠ k → isTagL nsNetconf k (annotate ((⟨none, "rpc-error"⟩, st.scope) :: st) (optRaws errorInfoRaws info ++ .close ⟨none, "rpc-error"⟩ :: R)) = false := by
    intro k hk hk'
    refine other_opt (fun a R => ?_) info ?_
    · cases a <;> exact other_elem hk
    · rw [isTagL_close]; simp [hk']
  refine (bind_ok (reads_exact (v := ty) h' (by cases ty <;> decide +kernel) (by cases ty <;> decide +kernel) _ _ (next_elem _ _ _ _))).trans ?_
  refine (bind_ok (reads_exact (v := tag) h' (by cases tag <;> decide +kernel) (by cases tag <;> decide +kernel) _ _ (next_elem _ _ _ _))).trans ?_
  refine (bind_ok (reads_exact (v := sev) h' (by cases sev <;> decide +kernel) (by cases sev <;> decide +kernel) _ _ n0)).trans ?_
  refine (bind_ok (reads_optional h' h1 n1 fun _ => other_text (by decide) fun _ => other_text (by decide) fun _ => oi _ (by decide) (by decide))).trans ?_
  refine (bind_ok (reads_optional h' h2 n2 fun _ => other_text (by decide) fun _ => oi _ (by decide) (by decide))).trans ?_
  refine (bind_ok (skipText_next n2)).trans ?_
  have hmsg : ifTag "error-message" readErrorMessage ⟨annotate ((⟨none, "rpc-error"⟩, st.scope) :: st) (textRaws "error-message" msg ++ (optRaws errorInfoRaws info ++ .close ⟨none, "rpc-error"⟩ :: R)), true :: ps⟩ =
      (.ok msg, ⟨annotate ((⟨none, "rpc-error"⟩, st.scope) :: st) (optRaws errorInfoRaws info ++ .close ⟨none, "rpc-error"⟩ :: R), true :: ps⟩) := by
    cases msg with
    | none =>
      exact (bind_ok (isTag_eq (s := ⟨annotate ((⟨none, "rpc-error"⟩, st.scope) :: st) (optRaws errorInfoRaws info ++ Raw.close ⟨none, "rpc-error"⟩ :: R), true :: ps⟩) (oi "error-message" (by decide) (by decide)))).trans rfl
    | some t =>
      have ht := h3 t rfl
      simp only [textRaws, optRaws]
      refine (bind_ok (isTag_eq (tag_elem h' "error-message" (asIs t) (optRaws errorInfoRaws info ++ Raw.close ⟨none, "rpc-error"⟩ :: R) (true :: ps)))).trans ?_
      refine (map_ok (p := readErrorMessage) (a := t) (s' := ⟨annotate ((⟨none, "rpc-error"⟩, st.scope) :: st) (optRaws errorInfoRaws info ++ Raw.close ⟨none, "rpc-error"⟩ :: R), true :: ps⟩) ?_).trans rfl
      simp only [elem_append "error-message"]
      refine (bind_ok (skipText_next (next_start _ _ _ _))).trans ?_
      refine (bind_ok (open_elem h' (fine_flat (flat_asIs ht) _ (next_fine (next_close _ _ _ _))))).trans ?_
      refine (bind_ok (tagString_flat (flat_asIs ht))).trans ?_
      rw [plain_asIs ht]
      exact (bind_ok (close_here (next_fine n3))).trans rfl
  refine (bind_ok hmsg).trans ?_
  refine (bind_ok (skipText_next n3)).trans ?_
  have hinfo : ifTag "error-info" readErrorInfo ⟨annotate ((⟨none, "rpc-error"⟩, st.scope) :: st) (optRaws errorInfoRaws info ++ .close ⟨none, "rpc-error"⟩ :: R), true :: ps⟩ =
      (.ok info, ⟨annotate ((⟨none, "rpc-error"⟩, st.scope) :: st) (.close ⟨none, "rpc-error"⟩ :: R), true :: ps⟩) := by
    cases info with
    | none => exact (bind_ok (a := false) (s' := ⟨_, _⟩) (by simp only [isTag, optRaws, List.nil_append, isTagL_close]; simp)).trans rfl
    | some i =>
      have hi := h4 i rfl
      have ht : isTagL nsNetconf "error-info" (annotate ((⟨none, "rpc-error"⟩, st.scope) :: st) (optRaws errorInfoRaws (some i) ++ .close ⟨none, "rpc-error"⟩ :: R)) = true := by
        cases i <;>
        · simp only [optRaws, errorInfoRaws, elem_append "error-info", isTagL_start, declared, List.nil_append]; rw [inNs_resolve h' "error-info"]; simp
      refine (bind_ok (a := true) (s' := ⟨_, _⟩) (by simp only [isTag]; rw [ht])).trans ?_
      exact (map_ok (reads_errorInfo h' hi _ _ (next_close _ _ _ _)))
  refine (bind_ok hinfo).trans ?_
  exact (bind_ok (close_here (next_fine hR))).trans rfl

end Verif.Xml
