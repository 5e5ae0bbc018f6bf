import Verif.NetconfXml.Ends
/-!
# Reading messages ends: messages
-/
namespace Verif.Xml
open Verif.Collector (Text trim)

/-- an element is opened and what follows is safe inside of it -/
theorem safe_open {β : Type} {ns : Text} {key : String} {f : List Attr → P β} (h : ∀ a n, T (Opened n) (f a) fun _ => AtMost n) : Safe (openTag ns key >>= f) :=
  fun n => (t_open ns key n).bind fun a => h a n

theorem safe_in {α : Type} {p : P α} (h : Safe p) (n : Nat) : T (Opened n) p fun _ => AtMost n := (h n).mono (fun _ => opened_atMost) fun _ _ x => x

theorem safe_maybe {β : Type} {ns : Text} {key : String} {f : Option (List Attr) → P β} (h1 : ∀ a n, T (Opened n) (f (some a)) fun _ => AtMost n) (h2 : Safe (f none)) : Safe (maybeOpen ns key >>= f) := by
  intro n
  refine (t_maybe ns key n).bind fun o => ?_
  cases o with
  | some a => exact (h1 a n).mono (fun s h => h.1 rfl) fun _ _ x => x
  | none => exact (h2 n).mono (fun s h => h.2) fun _ _ x => x

theorem safe_opens {β : Type} {ns : Text} {key : String} {f : Bool → P β} (h1 : ∀ n, T (Opened n) (f true) fun _ => AtMost n) (h2 : Safe (f false)) : Safe (opens ns key >>= f) := by
  intro n
  refine (t_opens ns key n).bind fun o => ?_
  cases o with
  | true => exact (h1 n).mono (fun s h => h.1 rfl) fun _ _ x => x
  | false => exact (h2 n).mono (fun s h => h.2) fun _ _ x => x

/-- the text of an element is read, and then something safe -/
theorem in_text {β : Type} {f : Text → P β} (h : ∀ t, Safe (f t)) (n : Nat) : T (Opened n) (tagString >>= f) fun _ => AtMost n :=
  (t_tagString n).bind fun t => (h t n).mono (fun _ => inside_atMost) fun _ _ x => x

/-- the text of an element is read, converted, and the element closed -/
theorem in_leaf {α β : Type} {e : PErr} {g : Text → Option α} {f : α → β} (n : Nat) :
    T (Opened n) (do let t ← tagString; let v ← lift e (g t); close; return f v) fun _ => Fewer n :=
  (t_tagString n).bind fun t => (T.lift e (g t)).bind fun v => (t_close n).bind fun _ => T.pure (Q := fun _ => Fewer n) _

theorem in_textLeaf {β : Type} {f : Text → β} (n : Nat) : T (Opened n) (do let t ← tagString; close; return f t) fun _ => Fewer n :=
  (t_tagString n).bind fun t => (t_close n).bind fun _ => T.pure (Q := fun _ => Fewer n) _

theorem eats_choice {α : Type} (ns : Text) (tag : String) (vals : List (String × α)) : Eats (readChoice ns tag vals) :=
  fun n => (safe_skipText n).bind fun _ => (t_open ns tag n).bind fun _ => in_leaf (g := fun t => readEnum vals (trim t)) (f := id) n

theorem eats_exact {α : Type} (tag : String) (vals : List (String × α)) : Eats (readExact tag vals) :=
  fun n => (safe_skipText n).bind fun _ => (t_open nsNetconf tag n).bind fun _ => in_leaf (g := fun t => readEnum vals t) (f := id) n

theorem eats_capability {D : Type} (dates : Dates D) : Eats (readCapability dates) :=
  fun n => (t_open nsNetconf "capability" n).bind fun _ => in_leaf (g := fun t => Cap.read dates t) (f := id) n

theorem eats_errorMessage : Eats readErrorMessage :=
  fun n => (safe_skipText n).bind fun _ => (t_open nsNetconf "error-message" n).bind fun _ => in_textLeaf (f := id) n

/-- what handles the outcome of something safe -/
theorem safe_optional {α : Type} {expecting : String} {p : P α} (h : Safe p) : Safe (optional expecting p) := by
  refine Safe.of fun s hd => ?_
  obtain ⟨h1, h2⟩ := h.sub hd
  unfold optional
  rcases hp : p s with ⟨r, s'⟩
  rw [hp] at h1 h2
  cases r with
  | ok a => exact ⟨h1, by simp⟩
  | err e =>
    cases e
    case wrongToken x => simp only; split <;> exact ⟨h1, by simp⟩
    all_goals exact ⟨h1, by simp⟩
  | fault x => exact absurd rfl (h2 x)

theorem safe_skipDecl : Safe skipDecl := by
  refine Safe.of fun s hd => ?_
  unfold skipDecl
  split
  · exact eats_skip.safe.sub hd
  · exact ⟨List.suffix_rfl, by simp⟩

theorem safe_messageId (as : List Attr) : Safe (messageId as) := by
  unfold messageId
  split
  · split
    · exact safe_raise _
    · exact safe_pure _
  · exact safe_pure _

theorem safe_hello {D : Type} (dates : Dates D) : Safe (readHello dates) := by
  unfold readHello
  refine safe_skipDecl.bind fun _ => safe_skipText.bind fun _ => safe_open fun _ n => safe_in ?_ n
  refine safe_skipText.bind fun _ => safe_open fun _ n => safe_in ?_ n
  refine (safe_collect (eats_capability dates)).bind fun caps => safe_close.bind fun _ => ?_
  refine safe_maybe (fun a n => ?_) ?_
  · refine in_text (fun t => ?_) n
    exact (safe_lift _ _).bind fun _ => safe_close.bind fun _ => (safe_pure _).bind fun _ => safe_close.bind fun _ => safe_pure _
  · exact (safe_pure _).bind fun _ => safe_close.bind fun _ => safe_pure _

theorem safe_source : Safe readSource := by
  unfold readSource
  refine safe_skipText.bind fun _ => safe_open fun _ n => safe_in ?_ n
  have fin : ∀ v : Source, Safe (do let v ← (pure v : P Source); close; close; return v) := fun v => (safe_pure v).bind fun v => safe_close.bind fun _ => safe_close.bind fun _ => safe_pure _
  refine safe_maybe (fun a n => safe_in (fin _) n) ?_
  refine safe_maybe (fun a n => safe_in (fin _) n) ?_
  refine safe_maybe (fun a n => safe_in (fin _) n) ?_
  exact (safe_raise _).bind fun v => safe_close.bind fun _ => safe_close.bind fun _ => safe_pure _

theorem safe_target : Safe readTarget := by
  unfold readTarget
  refine safe_skipText.bind fun _ => safe_open fun _ n => safe_in ?_ n
  have fin : ∀ v : Target, Safe (do let v ← (pure v : P Target); close; close; return v) := fun v => (safe_pure v).bind fun v => safe_close.bind fun _ => safe_close.bind fun _ => safe_pure _
  refine safe_maybe (fun a n => safe_in (fin _) n) ?_
  refine safe_maybe (fun a n => safe_in (fin _) n) ?_
  exact (safe_raise _).bind fun v => safe_close.bind fun _ => safe_close.bind fun _ => safe_pure _

theorem safe_filter : Safe readFilter := by
  unfold readFilter
  refine safe_skipText.bind fun _ => safe_open fun as n => safe_in ?_ n
  simp only
  split
  · exact (safe_copyTill _).bind fun _ => (safe_pure _).bind fun _ => safe_close.bind fun _ => safe_pure _
  · split
    · exact (safe_lift _ _).bind fun _ => (safe_pure _).bind fun _ => safe_close.bind fun _ => safe_pure _
    · exact (safe_raise _).bind fun _ => safe_close.bind fun _ => safe_pure _

theorem safe_editContent : Safe readEditContent := by
  unfold readEditContent
  refine safe_skipText.bind fun _ => safe_maybe (fun a n => ?_) (safe_maybe (fun a n => ?_) ?_)
  · exact in_text (fun t => safe_close.bind fun _ => safe_pure _) n
  · exact safe_in ((safe_copyTill _).bind fun _ => safe_close.bind fun _ => safe_pure _) n
  · exact safe_raise _

theorem safe_getSchema : Safe readGetSchema := by
  unfold readGetSchema
  refine safe_skipText.bind fun _ => safe_open fun _ n => in_text (fun i => ?_) n
  have fin : ∀ v : Option Text, Safe (do let v ← (pure v : P (Option Text)); let f ← optional "<format>" readFormat; close; return Op.getSchema (trim i) v f) :=
    fun v => (safe_pure v).bind fun v => (safe_optional (eats_choice _ _ _).safe).bind fun _ => safe_close.bind fun _ => safe_pure _
  refine safe_close.bind fun _ => safe_maybe (fun a n => ?_) (fin none)
  exact in_text (fun v => safe_close.bind fun _ => fin _) n

theorem safe_op : Safe readOp := by
  unfold readOp
  refine safe_skipText.bind fun _ => ?_
  refine safe_maybe (fun a n => safe_in ?_ n) ?_
  · show Safe readGetConfig
    unfold readGetConfig
    exact safe_skipText.bind fun _ => safe_source.bind fun _ => safe_filter.bind fun _ => safe_close.bind fun _ => safe_pure _
  refine safe_maybe (fun a n => safe_in ?_ n) ?_
  · show Safe readEditConfig
    unfold readEditConfig
    exact safe_skipText.bind fun _ => safe_target.bind fun _ => (safe_optional (eats_choice _ _ _).safe).bind fun _ => (safe_optional (eats_choice _ _ _).safe).bind fun _ =>
      (safe_optional (eats_choice _ _ _).safe).bind fun _ => safe_editContent.bind fun _ => safe_close.bind fun _ => safe_pure _
  refine safe_maybe (fun a n => safe_in ?_ n) ?_
  · show Safe readGet
    unfold readGet
    exact safe_skipText.bind fun _ => safe_filter.bind fun _ => safe_close.bind fun _ => safe_pure _
  refine safe_maybe (fun a n => safe_in (safe_close.bind fun _ => safe_pure _) n) ?_
  refine safe_maybe (fun a n => safe_in safe_getSchema n) ?_
  exact safe_raise _

/-- what is tried first, and what is copied if it is not that -/
theorem safe_orCopy {α β : Type} {p : P α} (h : Safe p) {c : P β} (hc : Safe c) {q : P β}
    (hq : ∀ s, (∃ a b s', p s = (.ok a, s') ∧ q s = (.ok b, s')) ∨ (∃ s', p s = (.err .recoverable, s') ∧ q s = c s') ∨ (∃ e s', p s = (.err e, s') ∧ q s = (.err e, s')) ∨ ∃ x, (p s).1 = .fault x) : Safe q := by
  refine Safe.of fun s hd => ?_
  obtain ⟨h1, h2⟩ := h.sub hd
  rcases hq s with ⟨a, b, s', hp, he⟩ | ⟨s', hp, he⟩ | ⟨e, s', hp, he⟩ | ⟨x, hp⟩
  · rw [hp] at h1; rw [he]; exact ⟨h1, by simp⟩
  · rw [hp] at h1; rw [he]
    obtain ⟨h3, h4⟩ := hc.sub (doc_suffix h1 hd)
    exact ⟨h3.trans h1, h4⟩
  · rw [hp] at h1; rw [he]; exact ⟨h1, by simp⟩
  · exact absurd hp (h2 x)

theorem safe_rpc : Safe readRpc := by
  unfold readRpc
  refine safe_skipText.bind fun _ => safe_open fun as n => safe_in ?_ n
  have hc : Safe (do return RpcOp.raw (← copyTill "rpc") : P RpcOp) := (safe_copyTill _).bind fun _ => safe_pure _
  have hid : ∀ o : Option Text, Safe (match o with | some v => pure v | none => raise .missingAttribute : P Text) := by
    intro o; cases o
    · exact safe_raise _
    · exact safe_pure _
  have hop : ∀ q : P RpcOp, (∀ s, (∃ a b s', readOp s = (.ok a, s') ∧ q s = (.ok b, s')) ∨ (∃ s', readOp s = (.err .recoverable, s') ∧ q s = (do return RpcOp.raw (← copyTill "rpc") : P RpcOp) s') ∨
      (∃ e s', readOp s = (.err e, s') ∧ q s = (.err e, s')) ∨ ∃ x, (readOp s).1 = .fault x) → ∀ v : Text, Safe (do let op ← q; return (⟨v, op⟩ : Rpc)) :=
    fun q hq v => (safe_orCopy safe_op hc hq).bind fun _ => safe_pure _
  refine (safe_messageId as).bind fun id => ?_
  cases id
  case' none => refine (safe_raise _).bind fun v => ?_
  case' some v => refine (safe_pure v).bind fun v => ?_
  all_goals
    refine hop _ (fun s => ?_) v
    rcases hp : readOp s with ⟨r, s'⟩
    cases r with
    | ok a => exact .inl ⟨a, _, s', rfl, rfl⟩
    | err e => cases e <;> first | exact .inr (.inl ⟨s', rfl, rfl⟩) | exact .inr (.inr (.inl ⟨_, s', rfl, rfl⟩))
    | fault x => exact .inr (.inr (.inr ⟨x, rfl⟩))

/-- an optional text is there only if there are fewer events behind it -/
theorem t_optionalText (tag : String) (n : Nat) : T (AtMost n) (readOptional tag) fun o s => (o.isSome → Fewer n s) ∧ AtMost n s := by
  refine (t_opens nsNetconf tag n).bind fun o => ?_
  cases o with
  | true => exact (in_textLeaf (f := some) n).mono (fun s h => h.1 rfl) fun a s h => ⟨fun _ => h, fewer_atMost h⟩
  | false => exact (T.pure (Q := fun (o : Option Text) s => (o.isSome → Fewer n s) ∧ AtMost n s) none).mono (fun s h => ⟨by simp, h.2⟩) fun _ _ x => x

theorem safe_optionalText (tag : String) : Safe (readOptional tag) := fun n => (t_optionalText tag n).mono (fun _ x => x) fun _ _ h => h.2

/-- one more optional text, some of which may be there -/
theorem t_optionalNext (tag : String) (n : Nat) (b : Bool) : T (fun s => (b = true → Fewer n s) ∧ AtMost n s) (readOptional tag) fun o s => ((b || o.isSome) = true → Fewer n s) ∧ AtMost n s := by
  cases b with
  | true => exact ((safe_optionalText tag).fewer n).mono (fun s h => h.1 rfl) fun a s h => ⟨fun _ => h, fewer_atMost h⟩
  | false => exact (t_optionalText tag n).mono (fun s h => h.2) fun a s h => ⟨by simpa using h.1, h.2⟩

theorem eats_infoValue : Eats readInfoValue := by
  intro n
  unfold readInfoValue
  refine ((t_optionalNext _ n false).mono (fun s h => ⟨by simp, h⟩) fun _ _ x => x).bind fun a => ?_
  refine (t_optionalNext _ n _).bind fun b => ?_
  refine (t_optionalNext _ n _).bind fun c => ?_
  refine (t_optionalNext _ n _).bind fun d => ?_
  refine (t_optionalNext _ n _).bind fun e => ?_
  refine (t_optionalNext _ n _).bind fun f => ?_
  split
  · exact T.raise _
  · next h =>
    refine (T.pure (Q := fun _ => Fewer n) _).mono (fun s hs => hs.1 ?_) fun _ _ x => x
    cases a <;> cases b <;> cases c <;> cases d <;> cases e <;> cases f <;> simp_all

theorem safe_toInfoEnd : Safe (fun s => skipToInfoEnd (s.evs.length + 1) s : P Unit) := by
  refine Safe.of fun s hd => ?_
  obtain ⟨h1, h2⟩ := t_skipToInfoEnd _ s hd (Nat.lt_succ_self _)
  exact ⟨h1, fun x hx => by rw [hx] at h2; exact h2⟩

theorem safe_errorInfo : Safe readErrorInfo := by
  unfold readErrorInfo
  refine safe_open fun _ n => safe_in ?_ n
  refine safe_opens (fun n => ?_) ?_
  · exact in_text (fun t => (safe_lift _ _).bind fun _ => safe_close.bind fun _ => safe_close.bind fun _ => safe_pure _) n
  · exact (safe_collect eats_infoValue).bind fun _ => safe_toInfoEnd.bind fun _ => safe_close.bind fun _ => safe_pure _

theorem safe_isTag (ns : Text) (key : String) : Safe (isTag ns key) := Safe.of fun _ _ => ⟨List.suffix_rfl, by simp [isTag]⟩

theorem safe_ifTag {α : Type} {tag : String} {p : P α} (h : Safe p) : Safe (ifTag tag p) := by
  unfold ifTag
  refine (safe_isTag _ _).bind fun b => ?_
  split
  · exact safe_map _ h
  · exact safe_pure _

theorem eats_rpcError : Eats readRpcError := by
  intro n
  unfold readRpcError
  refine (t_open _ _ n).bind fun _ => ?_
  have h1 : Safe (readExact "error-type" ErrorType.names) := (eats_exact _ _).safe
  refine (((eats_exact "error-type" ErrorType.names) n).mono (fun _ => opened_atMost) fun _ _ x => x).bind fun ty => ?_
  have fw : ∀ {α β : Type} {p : P α} {f : α → P β}, Safe p → (∀ a, T (Fewer n) (f a) fun _ => Fewer n) → T (Fewer n) (p >>= f) fun _ => Fewer n := fun hp hf => (hp.fewer n).bind hf
  refine fw (eats_exact _ _).safe fun tag => fw (eats_exact _ _).safe fun sev => fw (safe_optionalText _) fun app => fw (safe_optionalText _) fun path => fw safe_skipText fun _ => ?_
  refine fw (safe_ifTag eats_errorMessage.safe) fun msg => fw safe_skipText fun _ => fw (safe_ifTag safe_errorInfo) fun info => fw safe_close fun _ => ?_
  exact T.pure (Q := fun _ => Fewer n) _

theorem safe_response {Y : Type} {lib : Library Y} (h : Safe lib.read) : Safe (readResponse lib) := by
  unfold readResponse
  refine safe_skipText.bind fun _ => safe_maybe (fun a n => ?_) (safe_maybe (fun a n => safe_in ?_ n) ?_)
  · exact in_text (fun t => safe_close.bind fun _ => safe_pure _) n
  · refine safe_skipText.bind fun _ => (safe_isTag _ _).bind fun b => ?_
    split
    · exact h.bind fun _ => safe_pure _
    · exact (safe_copyTill _).bind fun _ => safe_close.bind fun _ => safe_pure _
  · exact safe_raise _

theorem safe_reply {Y : Type} {lib : Library Y} (h : Safe lib.read) : Safe (readReply lib) := by
  unfold readReply
  refine safe_skipText.bind fun _ => safe_open fun as n => safe_in ?_ n
  refine (safe_messageId as).bind fun id => safe_opens (fun n => ?_) ?_
  · exact safe_in (safe_close.bind fun _ => safe_pure _) n
  · refine (safe_collectTag eats_rpcError).bind fun _ => Safe.bind ?_ fun _ => safe_close.bind fun _ => safe_pure _
    have hc : Safe (do return RpcResponse.raw (← copyTill "rpc-reply") : P (RpcResponse Y)) := (safe_copyTill _).bind fun _ => safe_pure _
    refine safe_orCopy (safe_response h) hc fun s => ?_
    rcases hp : readResponse lib s with ⟨r, s'⟩
    cases r with
    | ok a => exact .inl ⟨a, _, s', rfl, rfl⟩
    | err e => cases e <;> first | exact .inr (.inl ⟨s', rfl, rfl⟩) | exact .inr (.inr (.inl ⟨_, s', rfl, rfl⟩))
    | fault x => exact .inr (.inr (.inr ⟨x, rfl⟩))

theorem safe_message {D Y : Type} (dates : Dates D) {lib : Library Y} (h : Safe lib.read) : Safe (readMessage dates lib) := by
  unfold readMessage
  refine safe_skipDecl.bind fun _ => safe_skipText.bind fun _ => ?_
  refine Safe.of fun s hd => ?_
  split
  · split
    · exact (safe_map _ (safe_hello dates)).sub hd
    · split
      · exact (safe_map _ safe_rpc).sub hd
      · split
        · exact (safe_map _ (safe_reply h)).sub hd
        · exact ⟨List.suffix_rfl, by simp⟩
  · exact ⟨List.suffix_rfl, by simp⟩

/-- the events of a document whose tags are closed -/
theorem doc_annotate (rs : List Raw) : ∀ st, (∀ pre q as post, rs = pre ++ .start q as :: post → (∃ p, Raw.close p ∈ post) ∧ ∀ a ∈ as, a.value.isSome = true) → Doc (annotate st rs) := by
  have keep : ∀ (rs : List Raw) (st : Stack) (p : QName), Raw.close p ∈ rs → ∃ x ∈ annotate st rs, x.raw.stops = true := by
    intro rs
    induction rs with
    | nil => intro st p h; simp at h
    | cons r rs ih =>
      intro st p h
      have tail : (∀ q, r ≠ .close q) → Raw.close p ∈ rs := fun hn => (List.mem_cons.1 h).resolve_left fun e => hn p e.symm
      have step : ∀ (e : Ev) (st' : Stack), Raw.close p ∈ rs → ∃ x ∈ e :: annotate st' rs, x.raw.stops = true := fun e st' hm => by
        obtain ⟨x, hx, hs⟩ := ih st' p hm; exact ⟨x, List.mem_cons_of_mem _ hx, hs⟩
      unfold annotate
      split
      · next e => cases e
      · next e => injection e with e1 e2; subst e1 e2; exact step _ _ (tail (by simp))
      · next e => injection e with e1 e2; subst e1 e2; exact step _ _ (tail (by simp))
      · split <;> exact ⟨_, List.mem_cons_self, rfl⟩
      · exact ⟨_, List.mem_cons_self, rfl⟩
      · exact ⟨_, List.mem_cons_self, rfl⟩
      · next h1 h2 h3 h4 h5 e =>
        injection e with e1 e2; subst e1 e2
        refine step _ _ (tail ?_)
        intro q hq; subst hq
        rename_i st _ _
        cases st with
        | nil => exact h5 q rfl rfl
        | cons a st => exact h4 a.1 a.2 st q rfl rfl
  induction rs with
  | nil => intro st _; simp [annotate, Doc]
  | cons r rs ih =>
    intro st h
    have ht : ∀ st', Doc (annotate st' rs) := fun st' => ih st' fun pre q as post e => h (r :: pre) q as post (by rw [e]; rfl)
    unfold annotate
    split
    · trivial
    · next q as e _ =>
      rename_i rs' e
      injection e with e1 e2; subst e1 e2
      refine ⟨?_, ht _⟩
      intro q' as' e'
      simp only at e'
      injection e' with e1 e2; subst e1 e2
      obtain ⟨⟨p, hp⟩, ha⟩ := h [] q as rs rfl
      exact ⟨keep _ _ p hp, ha⟩
    · next e => injection e with e1 e2; subst e1 e2; exact ⟨fun q as h => by simp at h, ht _⟩
    · next e =>
      injection e with e1 e2; subst e1 e2
      split
      · exact ⟨fun q as h => by simp at h, ht _⟩
      · exact ⟨fun q as h => by simp at h, trivial⟩
    · exact ⟨fun q as h => by simp at h, trivial⟩
    · exact ⟨fun q as h => by simp at h, trivial⟩
    · next h1 h2 h3 h4 h5 e =>
      injection e with e1 e2; subst e1 e2
      refine ⟨?_, ht _⟩
      intro q as hr
      exact (h1 q as hr).elim

end Verif.Xml
