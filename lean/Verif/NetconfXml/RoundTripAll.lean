import Verif.NetconfXml.RoundTripErrors
/-!
# What is written is read back: replies
-/
namespace Verif.Xml
open Verif.Collector (Text trim parseNat)

/-- the YANG library of a reply is read back, by the code that is not described here -/
structure LibraryOk {Y : Type} (lib : Library Y) (y : Y) (rs : List Raw) : Prop where
  writes : Writes (lib.write y) plainBindings rs
  reads : ∀ st, InNs st nsNetconf → Reads lib.read st rs y
  begins : ∃ q as rs', rs = .start q as :: rs' ∧ ∀ sc : Scope, q.loc = "yang-library" ∧ (declared as ++ sc).resolve q = .bound nsYangLibrary

/-- content of a reply that is read back -/
def ResponseOk {Y : Type} (lib : Library Y) : Response Y → Prop
  | .yangSchema t => decodeEntities t = t
  | .yangLibrary y => ∃ rs, LibraryOk lib y rs
  | .data c => Copyable "data" c ∧ Begins ["yang-library"] c

def RpcResponseOk {Y : Type} (lib : Library Y) : RpcResponse Y → Prop
  | .raw c => Copyable "rpc-reply" c ∧ Begins ["ok", "rpc-error", "data"] c
  | .wellKnown r => ResponseOk lib r

def ReplyContentOk {Y : Type} (lib : Library Y) : ReplyContent Y → Prop
  | .ok => True
  | .errorsAndData es r => (∀ e ∈ es, ErrorOk e) ∧ RpcResponseOk lib r

/-- a reply that is read back -/
structure ReplyOk {Y : Type} (lib : Library Y) (r : Reply Y) : Prop where
  line : ∀ id, r.messageId = some id → OneLine id ∧ utf8Length id ≤ 4095
  content : ReplyContentOk lib r.reply

/-- what a response is written as -/
inductive ResponseRaws {Y : Type} (lib : Library Y) : Response Y → List Raw → Prop
  | schema (t : Text) : ResponseRaws lib (.yangSchema t) (.start ⟨none, "data"⟩ [⟨⟨none, "xmlns"⟩, some nsMonitoring⟩] :: (written t ++ [.close ⟨none, "data"⟩]))
  | library (y : Y) (rs : List Raw) : LibraryOk lib y rs → ResponseRaws lib (.yangLibrary y) (elem "data" rs)
  | data (c : List Raw) : ResponseRaws lib (.data c) (elem "data" c)

theorem response_raws {Y : Type} {lib : Library Y} {r : Response Y} (h : ResponseOk lib r) : ∃ rs, ResponseRaws lib r rs := by
  cases r with
  | yangSchema t => exact ⟨_, .schema t⟩
  | yangLibrary y => obtain ⟨rs, hr⟩ := h; exact ⟨_, .library y rs hr⟩
  | data c => exact ⟨_, .data c⟩

theorem writes_response {Y : Type} {lib : Library Y} {r : Response Y} {rs : List Raw} (h : ResponseRaws lib r rs) : Writes (writeResponse lib r) plainBindings rs := by
  cases h with
  | schema t =>
    intro out
    have hn : nsPrefix nsMonitoring plainBindings = none := by decide +kernel
    have hp : nsPrefix nsMonitoring ([(nsMonitoring, "")] :: plainBindings) = some "" := by decide +kernel
    unfold writeResponse within
    simp only [hn]
    simp [pushNs, distinctPrefixes, leafNs, createNs, hp, applyNs, write, popNs, declarations, bind, pure]
  | library y rs hr => exact writes_around hr.writes
  | data c => exact writes_leaf _ _ _

/-- a response is at least opened -/
theorem next_response {Y : Type} {lib : Library Y} {r : Response Y} {rs : List Raw} (h : ResponseRaws lib r rs) (st : Stack) (R : List Raw) :
    Next (annotate st (rs ++ R)) ∧ ∀ ns k, "data" ≠ k → isTagL ns k (annotate st (rs ++ R)) = false := by
  cases h with
  | schema t => exact ⟨next_start _ _ _ _, fun ns k hk => other_start hk⟩
  | library y rs _ => exact ⟨next_elem _ _ _ _, fun ns k hk => other_elem hk⟩
  | data c => exact ⟨next_elem _ _ _ _, fun ns k hk => other_elem hk⟩

/-- a response is read, and what is behind it can be closed -/
theorem reads_response {Y : Type} {lib : Library Y} {q : QName} {sc : Scope} (hns : InNs [(q, sc)] nsNetconf) {r : Response Y} {rs : List Raw} (h : ResponseRaws lib r rs) (hr : ResponseOk lib r) :
    ∃ s, readResponse lib ⟨annotate [(q, sc)] (rs ++ [.close q]), [true]⟩ = (.ok r, s) ∧ ∃ s', close s = (.ok (), s') := by
  have hwrong : ∀ (R : List Raw), isTagL nsMonitoring "data" (annotate [(q, sc)] (.start ⟨none, "data"⟩ [] :: R)) = false := by
    intro R
    rw [isTagL_start]
    have := inNs_resolve hns "data"
    simp only [declared, List.nil_append]; rw [this]; decide +kernel
  cases h with
  | schema t =>
    refine ⟨⟨annotate [(q, sc)] [.close q], [true]⟩, ?_, ⟨[], []⟩, close_here rfl⟩
    simp only [List.cons_append, List.append_assoc, List.nil_append]
    refine (bind_ok (skipText_next (next_start _ _ _ _))).trans ?_
    refine (bind_ok (maybeOpen_ok (s := ⟨_, _⟩) (next_start _ _ _ _) (open_start (ns := nsMonitoring) (by rfl) (fine_flat (flat_written t) _ (next_fine (next_close _ _ _ _)))))).trans ?_
    refine (bind_ok (tagString_flat (flat_written t))).trans ?_
    rw [plain_written]
    refine (bind_ok (close_here (next_fine (next_close _ _ _ _)))).trans ?_
    have hd : decodeEntities t = t := hr
    show (Res.ok (Response.yangSchema (decodeEntities t)), _) = _
    rw [hd]
  | library y rs hl =>
    refine ⟨⟨annotate ((⟨none, "data"⟩, sc) :: [(q, sc)]) (.close ⟨none, "data"⟩ :: [.close q]), [true, true]⟩, ?_, _, close_here (next_fine (next_close _ _ _ _))⟩
    obtain ⟨p, as, rs', rfl, hp⟩ := hl.begins
    rw [elem_append, List.cons_append]
    refine (bind_ok (skipText_next (next_start _ _ _ _))).trans ?_
    refine (bind_ok (maybeOpen_none (s := ⟨_, _⟩) (next_start _ _ _ _) (hwrong _))).trans ?_
    refine (bind_ok (maybeOpen_ok (s := ⟨_, _⟩) (next_start _ _ _ _) (open_elem hns (headBad_start _ _ _ _)))).trans ?_
    refine (bind_ok (skipText_next (next_start _ _ _ _))).trans ?_
    have ht : isTagL nsYangLibrary "yang-library" (annotate ((⟨none, "data"⟩, Stack.scope [(q, sc)]) :: [(q, sc)]) (.start p as :: (rs' ++ .close ⟨none, "data"⟩ :: [.close q]))) = true := by
      rw [isTagL_start, (hp []).1, (hp _).2]; simp
    refine (bind_ok (isTag_eq (s := ⟨_, [true, true]⟩) ht)).trans ?_
    exact (bind_ok (hl.reads ((⟨none, "data"⟩, sc) :: [(q, sc)]) hns (.close ⟨none, "data"⟩ :: [.close q]) [true, true] (next_close _ _ _ _))).trans rfl
  | data c =>
    refine ⟨⟨annotate [(q, sc)] [.close q], [true]⟩, ?_, ⟨[], []⟩, close_here rfl⟩
    have hc : Copyable "data" c := hr.1
    rw [elem_append]
    refine (bind_ok (skipText_next (next_start _ _ _ _))).trans ?_
    refine (bind_ok (maybeOpen_none (s := ⟨_, _⟩) (next_start _ _ _ _) (hwrong _))).trans ?_
    refine (bind_ok (maybeOpen_ok (s := ⟨_, _⟩) (next_start _ _ _ _) (open_elem hns (fine_bal hc.bal)))).trans ?_
    obtain ⟨h1, h2⟩ := begins_next hr.2 [(q, sc)] ⟨none, "data"⟩ sc [.close q] (by decide)
    refine (bind_ok (skipText_next h1)).trans ?_
    refine (bind_ok (isTag_eq (s := ⟨_, [true, true]⟩) (h2 "yang-library" (by decide) nsYangLibrary))).trans ?_
    refine (bind_ok (copy_reads hc rfl _ _)).trans ?_
    exact (bind_ok (close_here (next_fine (next_close _ _ _ _)))).trans rfl

/-- errors one behind the other are collected -/
theorem collect_errors {q : QName} {sc : Scope} (hns : InNs [(q, sc)] nsNetconf) {R : List Raw} (hR : Next (annotate [(q, sc)] R)) (hno : isTagL nsNetconf "rpc-error" (annotate [(q, sc)] R) = false) :
    ∀ (es : List RpcError) (n : Nat), es.length < n → (∀ e ∈ es, ErrorOk e) →
      collectTagF nsNetconf "rpc-error" readRpcError n ⟨annotate [(q, sc)] (es.flatMap errorRaws ++ R), [true]⟩ = (.ok es, ⟨annotate [(q, sc)] R, [true]⟩) := by
  intro es
  induction es with
  | nil =>
    intro n hn _
    obtain ⟨n, rfl⟩ : ∃ m, n = m + 1 := ⟨n - 1, by simp at hn; omega⟩
    refine (bind_ok (skipText_next hR)).trans ?_
    split
    · next p as s' es' he =>
      rw [← he, hno]; rfl
    · rfl
  | cons e es ih =>
    intro n hn he
    obtain ⟨n, rfl⟩ : ∃ m, n = m + 1 := ⟨n - 1, by simp at hn; omega⟩
    simp only [List.flatMap_cons, List.append_assoc]
    have hn1 : Next (annotate [(q, sc)] (errorRaws e ++ (es.flatMap errorRaws ++ R))) := next_elem _ _ _ _
    refine (bind_ok (skipText_next hn1)).trans ?_
    have hnext : Next (annotate [(q, sc)] (es.flatMap errorRaws ++ R)) := by
      cases es with
      | nil => exact hR
      | cons b es => simp only [List.flatMap_cons, List.append_assoc]; exact next_elem _ _ _ _
    have hread := reads_error hns (he e List.mem_cons_self) (es.flatMap errorRaws ++ R) [true] hnext
    have hst : ∃ as sc' es', annotate [(q, sc)] (errorRaws e ++ (es.flatMap errorRaws ++ R)) = ⟨.start ⟨none, "rpc-error"⟩ as, sc'⟩ :: es' := by
      unfold errorRaws; rw [elem_append, annotate_start]; exact ⟨_, _, _, rfl⟩
    have htag : isTagL nsNetconf "rpc-error" (annotate [(q, sc)] (errorRaws e ++ (es.flatMap errorRaws ++ R))) = true := tag_elem hns "rpc-error" _ _ []
    obtain ⟨as, sc', es', hst⟩ := hst
    rw [hst] at htag hread ⊢
    simp only [htag, if_true, hread]
    have := ih n (by simp at hn; omega) (fun x hx => he x (List.mem_cons_of_mem _ hx))
    exact (bind_ok this).trans rfl

inductive RpcResponseRaws {Y : Type} (lib : Library Y) : RpcResponse Y → List Raw → Prop
  | raw (c : List Raw) : RpcResponseRaws lib (.raw c) c
  | wellKnown {r : Response Y} {rs : List Raw} : ResponseRaws lib r rs → RpcResponseRaws lib (.wellKnown r) rs

theorem writes_error (e : RpcError) (bs : List (List (Text × String))) : Writes (writeRpcError e) bs (errorRaws e) := by
  have hinfo : ∀ i, Writes (writeErrorInfo i) bs (errorInfoRaws i) := by
    intro i
    cases i with
    | sessionId n => exact writes_around (writes_leaf _ _ _)
    | values vs =>
      refine writes_around (writes_all (fun v => ?_) vs)
      exact writes_seq (writes_opt (fun _ => writes_leaf _ _ _) _) (writes_seq (writes_opt (fun _ => writes_leaf _ _ _) _) (writes_seq (writes_opt (fun _ => writes_leaf _ _ _) _)
        (writes_seq (writes_opt (fun _ => writes_leaf _ _ _) _) (writes_seq (writes_opt (fun _ => writes_leaf _ _ _) _) (writes_opt (fun _ => writes_leaf _ _ _) _)))))
  exact writes_around (writes_seq (writes_leaf _ _ _) (writes_seq (writes_leaf _ _ _) (writes_seq (writes_leaf _ _ _) (writes_seq (writes_opt (fun _ => writes_leaf _ _ _) _)
    (writes_seq (writes_opt (fun _ => writes_leaf _ _ _) _) (writes_seq (writes_opt (fun _ => writes_leaf _ _ _) _) (writes_opt hinfo _)))))))

def replyRaws (id : Option Text) (content : List Raw) : List Raw := .start ⟨none, "rpc-reply"⟩ (topAttrs id) :: (content ++ [.close ⟨none, "rpc-reply"⟩])

theorem output_ok {Y : Type} (lib : Library Y) (id : Option Text) : output (writeReply lib ⟨id, .ok⟩) .new = some (replyRaws id [.empty ⟨none, "ok"⟩ []]) := by
  cases id <;> rfl

theorem output_reply {Y : Type} (lib : Library Y) (id : Option Text) (es : List RpcError) {r : RpcResponse Y} {rs : List Raw} (h : RpcResponseRaws lib r rs) :
    output (writeReply lib ⟨id, .errorsAndData es r⟩) .new = some (replyRaws id (es.flatMap errorRaws ++ rs)) := by
  unfold output
  have e : writeReply lib ⟨id, .errorsAndData es r⟩ .new = some ((), ⟨replyRaws id (es.flatMap errorRaws ++ rs), plainBindings, true⟩) := by
    refine (wbind (a := (⟨none, "rpc-reply"⟩, [⟨⟨none, "xmlns"⟩, some nsNetconf⟩])) (w' := ⟨[], plainBindings, true⟩) rfl).trans ?_
    refine (wbind (a := ()) (w' := ⟨[.start ⟨none, "rpc-reply"⟩ (topAttrs id)], plainBindings, true⟩) (by cases id <;> rfl)).trans ?_
    refine (wbind (writes_all (fun e => writes_error e _) es _)).trans ?_
    cases h with
    | raw => simp [write, bind, replyRaws]
    | wellKnown h =>
      refine (wbind (writes_response h _)).trans ?_
      simp [write, replyRaws]
  rw [e]; rfl

theorem message_id_opt (id : Option Text) (h : ∀ x, id = some x → OneLine x ∧ utf8Length x ≤ 4095) (s : St) : messageId (topAttrs id) s = (.ok id, s) := by
  cases id with
  | some x => exact message_id x (h x rfl).1 (h x rfl).2 s
  | none => rfl

/-- a reply is read back -/
theorem again_reply {D Y : Type} (dates : Dates D) (lib : Library Y) {r : Reply Y} (h : ReplyOk lib r) : again dates lib (.reply r) = some (.ok (.reply r)) := by
  unfold again
  show ((output (writeReply lib r) .new).map _) = _
  obtain ⟨id, content⟩ := r
  obtain ⟨hid, hc⟩ := h
  simp only at hid hc
  have hns := topStack_ns "rpc-reply" id
  have start : ∀ content : List Raw, ∀ r : Reply Y, headBad (annotate (topStack "rpc-reply" id) (content ++ [.close ⟨none, "rpc-reply"⟩])) = false →
      (∃ s, (do
        if ← opens nsNetconf "ok" then
          close
          return ⟨id, .ok⟩
        else
          let errors ← collectTag nsNetconf "rpc-error" readRpcError
          let r ← fun s =>
            match readResponse lib s with
            | (.ok r, s') => (.ok (RpcResponse.wellKnown r), s')
            | (.err .recoverable, s') => (do return RpcResponse.raw (← copyTill "rpc-reply") : P (RpcResponse Y)) s'
            | (.err e, s') => (.err e, s')
            | (.fault f, s') => (.fault f, s')
          close
          return ⟨id, .errorsAndData errors r⟩ : P (Reply Y)) ⟨annotate (topStack "rpc-reply" id) (content ++ [.close ⟨none, "rpc-reply"⟩]), [true]⟩ = (.ok r, s)) →
      run (readMessage dates lib) (annotate [] (replyRaws id content)) = .ok (.reply r) := by
    intro content r hf ⟨s, hs⟩
    unfold replyRaws
    rw [readMessage_start]
    simp only [show ("rpc-reply" : String) ≠ "hello" by decide, show ("rpc-reply" : String) ≠ "rpc" by decide, if_false, if_true]
    suffices H : readReply lib ⟨annotate [] (replyRaws id content), []⟩ = (.ok r, s) by unfold replyRaws at H; rw [map_ok H]
    unfold replyRaws
    refine (bind_ok (skipText_next (next_start _ _ _ _))).trans ?_
    refine (bind_ok (open_start (by cases id <;> rfl) (by exact hf))).trans ?_
    refine (bind_ok (message_id_opt id hid _)).trans ?_
    exact hs
  cases content with
  | ok =>
    rw [output_ok, Option.map_some, start [.empty ⟨none, "ok"⟩ []] ⟨id, .ok⟩ (next_fine (next_empty _ _ _ _))]
    refine ⟨⟨annotate (topStack "rpc-reply" id) [.close ⟨none, "rpc-reply"⟩], [true]⟩, ?_⟩
    refine (bind_ok (opens_ok (s := ⟨_, _⟩) (next_empty _ _ _ _) (open_empty (by exact inNs_resolve hns "ok")))).trans ?_
    exact (bind_ok (close_empty (next_fine (next_close _ _ _ _)))).trans rfl
  | errorsAndData es r =>
    obtain ⟨he, hr⟩ := hc
    obtain ⟨rs, hrs⟩ : ∃ rs, RpcResponseRaws lib r rs := by
      cases r with
      | raw c => exact ⟨_, .raw c⟩
      | wellKnown r => obtain ⟨rs, h⟩ := response_raws hr; exact ⟨rs, .wellKnown h⟩
    have hnx : Next (annotate (topStack "rpc-reply" id) (rs ++ [.close ⟨none, "rpc-reply"⟩])) ∧
        ∀ k ∈ ["ok", "rpc-error"], ∀ ns, isTagL ns k (annotate (topStack "rpc-reply" id) (rs ++ [.close ⟨none, "rpc-reply"⟩])) = false := by
      cases hrs with
      | raw =>
        obtain ⟨h1, h2⟩ := begins_next hr.2 [] ⟨none, "rpc-reply"⟩ (declared (topAttrs id) ++ []) [] (by decide)
        exact ⟨h1, fun k hk ns => h2 k (by simp only [List.mem_cons, List.mem_nil_iff, or_false] at hk ⊢; rcases hk with h | h <;> simp [h]) ns⟩
      | wellKnown h =>
        obtain ⟨h1, h2⟩ := next_response h (topStack "rpc-reply" id) [.close ⟨none, "rpc-reply"⟩]
        refine ⟨h1, fun k hk ns => h2 ns k ?_⟩
        intro e; subst e; exact absurd hk (by decide)
    have hall : Next (annotate (topStack "rpc-reply" id) (es.flatMap errorRaws ++ (rs ++ [.close ⟨none, "rpc-reply"⟩]))) ∧
        isTagL nsNetconf "ok" (annotate (topStack "rpc-reply" id) (es.flatMap errorRaws ++ (rs ++ [.close ⟨none, "rpc-reply"⟩]))) = false := by
      cases es with
      | nil => exact ⟨hnx.1, hnx.2 _ (by decide) _⟩
      | cons e es => simp only [List.flatMap_cons, List.append_assoc]; exact ⟨next_elem _ _ _ _, other_elem (by decide)⟩
    rw [output_reply lib id es hrs, Option.map_some, start (es.flatMap errorRaws ++ rs) ⟨id, .errorsAndData es r⟩ (by rw [List.append_assoc]; exact next_fine hall.1)]
    rw [List.append_assoc]
    have hlen : es.length < (annotate (topStack "rpc-reply" id) (es.flatMap errorRaws ++ (rs ++ [.close ⟨none, "rpc-reply"⟩]))).length + 1 := by
      have hb : Bal (es.flatMap errorRaws) := by
        refine bal_flatMap _ fun e hm => ?_
        have hx := he e hm
        have clear : ∀ t, Clear t → Bal (asIs t) := fun t ht => bal_flat (flat_asIs ht)
        refine bal_elem (bal_append (bal_elem (clear _ (by cases e.type <;> decide +kernel))) (bal_append (bal_elem (clear _ (by cases e.tag <;> decide +kernel)))
          (bal_append (bal_elem (clear _ (by cases e.severity <;> decide +kernel))) (bal_append (bal_text hx.app) (bal_append (bal_text hx.path) (bal_append (bal_text hx.message) ?_))))))
        cases hi : e.info with
        | none => exact .nil
        | some i =>
          have := hx.info i hi
          cases i with
          | sessionId n => exact bal_elem (bal_elem (bal_flat (flat_written _)))
          | values vs => exact bal_elem (bal_flatMap _ fun v hv => bal_info (infosOk_clear this v hv).1)
      exact Nat.lt_succ_of_le (Nat.le_trans (flatMap_length es fun e _ => by simp [errorRaws, elem]) (bal_length hb _ _))
    have hcol := collect_errors (q := ⟨none, "rpc-reply"⟩) hns hnx.1 (hnx.2 _ (by decide) _) es _ hlen he
    have hfin : ∃ s, ((fun s =>
            match readResponse lib s with
            | (.ok r, s') => (.ok (RpcResponse.wellKnown r), s')
            | (.err .recoverable, s') => (do return RpcResponse.raw (← copyTill "rpc-reply") : P (RpcResponse Y)) s'
            | (.err e, s') => (.err e, s')
            | (.fault f, s') => (.fault f, s') : P (RpcResponse Y)) ⟨annotate (topStack "rpc-reply" id) (rs ++ [.close ⟨none, "rpc-reply"⟩]), [true]⟩ = (.ok r, s)) ∧ ∃ s', close s = (.ok (), s') := by
      cases hrs with
      | raw =>
        obtain ⟨h1, h2⟩ := begins_next hr.2 [] ⟨none, "rpc-reply"⟩ (declared (topAttrs id) ++ []) [] (by decide)
        refine ⟨⟨annotate (topStack "rpc-reply" id) [.close ⟨none, "rpc-reply"⟩], [true]⟩, ?_, ⟨[], []⟩, close_here rfl⟩
        have : readResponse lib ⟨annotate (topStack "rpc-reply" id) (rs ++ [Raw.close ⟨none, "rpc-reply"⟩]), [true]⟩ = (.err .recoverable, ⟨annotate (topStack "rpc-reply" id) (rs ++ [Raw.close ⟨none, "rpc-reply"⟩]), [true]⟩) := by
          refine (bind_ok (skipText_next h1)).trans ?_
          refine (bind_ok (maybeOpen_none (s := ⟨_, [true]⟩) h1 (h2 "data" (by decide) nsMonitoring))).trans ?_
          exact (bind_ok (maybeOpen_none (s := ⟨_, [true]⟩) h1 (h2 "data" (by decide) nsNetconf))).trans rfl
        simp only [this]
        exact (bind_ok (copy_reads hr.1 rfl _ _)).trans rfl
      | wellKnown h =>
        obtain ⟨s, h1, h2⟩ := reads_response (q := ⟨none, "rpc-reply"⟩) hns h hr
        refine ⟨s, ?_, h2⟩
        have h1' : readResponse lib ⟨annotate (topStack "rpc-reply" id) (rs ++ [Raw.close ⟨none, "rpc-reply"⟩]), [true]⟩ = (.ok _, s) := h1
        simp only [h1']
    obtain ⟨s, hs, s', hs'⟩ := hfin
    refine ⟨s', ?_⟩
    refine (bind_ok (opens_none (s := ⟨_, [true]⟩) hall.1 hall.2)).trans ?_
    refine (bind_ok (p := collectTag nsNetconf "rpc-error" readRpcError) (s' := ⟨annotate (topStack "rpc-reply" id) (rs ++ [.close ⟨none, "rpc-reply"⟩]), [true]⟩) (a := es) ?_).trans ?_
    · unfold collectTag; simp only [hasChild, if_true]; exact hcol
    refine (bind_ok hs).trans ?_
    exact (bind_ok hs').trans rfl

end Verif.Xml
