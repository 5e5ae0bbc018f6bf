import Verif.NetconfXml.RoundTripOps
/-!
# What is written is read back: `rpc`
-/
namespace Verif.Xml
open Verif.Collector (Text trim parseNat)

/-- the bindings of a new writer -/
def plainBindings : List (List (Text × String)) := [[(nsNetconf, "")]]

/-- something writes certain events once the namespaces are written -/
def Writes (p : W Unit) (bs : List (List (Text × String))) (rs : List Raw) : Prop := ∀ out, p ⟨out, bs, true⟩ = some ((), ⟨out ++ rs, bs, true⟩)

theorem wbind {α β : Type} {p : W α} {f : α → W β} {w w' : WSt} {a : α} (h : p w = some (a, w')) : (p >>= f) w = f a w' := by
  show (p w).bind _ = _
  rw [h]; rfl

theorem writes_seq {p q : W Unit} {bs : List (List (Text × String))} {a b : List Raw} (hp : Writes p bs a) (hq : Writes q bs b) : Writes (do p; q) bs (a ++ b) := by
  intro out
  refine (wbind (hp out)).trans ?_
  rw [hq]; simp

theorem writes_leaf (n : String) (c : List Raw) (bs : List (List (Text × String))) : Writes (leaf n c) bs (elem n c) := by
  intro out
  simp [leaf, createElement, applyNs, write, bind, pure, elem]

theorem writes_around {n : String} {p : W Unit} {bs : List (List (Text × String))} {a : List Raw} (hp : Writes p bs a) : Writes (around n p) bs (elem n a) := by
  intro out
  refine (wbind (a := (⟨none, n⟩, [])) (w' := ⟨out, bs, true⟩) rfl).trans ?_
  refine (wbind (a := ()) (w' := ⟨out ++ [.start ⟨none, n⟩ []], bs, true⟩) rfl).trans ?_
  refine (wbind (hp _)).trans ?_
  simp [write, elem]

theorem writes_opt {α : Type} {f : α → W Unit} {bs : List (List (Text × String))} {g : α → List Raw} (h : ∀ a, Writes (f a) bs (g a)) (x : Option α) : Writes (writeOpt f x) bs (optRaws g x) := by
  cases x with
  | some a => exact h a
  | none => intro out; simp [writeOpt, optRaws, pure]

theorem writes_filter (f : Filter) (bs : List (List (Text × String))) : Writes (writeFilter f) bs (filterRaws f) := by
  intro out
  cases f <;> simp [writeFilter, createElement, applyNs, write, bind, pure, filterRaws]

theorem writes_edit (c : EditContent) (bs : List (List (Text × String))) : Writes (writeEditContent c) bs (editRaws c) := by
  cases c <;> exact writes_leaf _ _ _

theorem writes_leafNs {ns : Text} {bs : List (List (Text × String))} (h : nsPrefix ns bs = some "") (n : String) (c : List Raw) : Writes (leafNs ns n c) bs (elem n c) := by
  intro out
  simp [leafNs, createNs, h, applyNs, write, bind, pure, elem]

theorem writes_op (o : Op) : Writes (writeOp o) plainBindings (opRaws o) := by
  cases o with
  | getConfig s f => exact writes_around (writes_seq (writes_leaf _ _ _) (writes_filter _ _))
  | editConfig t d o e c =>
    exact writes_around (writes_seq (writes_leaf _ _ _) (writes_seq (writes_leaf _ _ _) (writes_seq (writes_opt (fun _ => writes_leaf _ _ _) _)
      (writes_seq (writes_opt (fun _ => writes_leaf _ _ _) _) (writes_edit _ _)))))
  | get f => exact writes_around (writes_filter _ _)
  | getYangLibrary => exact writes_around (writes_filter _ _)
  | closeSession => intro out; simp [writeOp, createElement, applyNs, write, bind, pure, opRaws]
  | getSchema i v f =>
    intro out
    have hp : nsPrefix nsMonitoring ([(nsMonitoring, "")] :: plainBindings) = some "" := by decide +kernel
    have hn : nsPrefix nsMonitoring plainBindings = none := by decide +kernel
    have hf : ∀ f, Writes (writeFormat f) ([(nsMonitoring, "")] :: plainBindings) (elem "format" (written (SchemaFormat.name f).toList)) := by
      intro f out
      unfold writeFormat within
      simp only [hp]
      exact writes_leafNs hp _ _ _
    unfold writeOp within
    simp only [hn]
    refine (wbind (a := ()) (w' := ⟨out, [(nsMonitoring, "")] :: plainBindings, false⟩) rfl).trans ?_
    have body : Writes (do leafNs nsMonitoring "identifier" (written i); writeOpt (fun v => leafNs nsMonitoring "version" (written v)) v; writeOpt writeFormat f; write [.close ⟨none, "get-schema"⟩])
        ([(nsMonitoring, "")] :: plainBindings) (elem "identifier" (written i) ++ (optRaws (fun v => elem "version" (written v)) v ++
          (optRaws (fun f => elem "format" (written (SchemaFormat.name f).toList)) f ++ [.close ⟨none, "get-schema"⟩]))) :=
      writes_seq (writes_leafNs hp _ _) (writes_seq (writes_opt (fun _ => writes_leafNs hp _ _) _) (writes_seq (writes_opt hf _) (fun out => rfl)))
    refine (wbind (a := ()) (w' := ⟨out ++ opRaws (.getSchema i v f), [(nsMonitoring, "")] :: plainBindings, true⟩) ?_).trans rfl
    refine (wbind (a := (⟨none, "get-schema"⟩, [⟨⟨none, "xmlns"⟩, some nsMonitoring⟩])) (w' := ⟨out, [(nsMonitoring, "")] :: plainBindings, true⟩) ?_).trans ?_
    · unfold createNs; simp only [hp]; rfl
    refine (wbind (a := ()) (w' := ⟨out ++ [.start ⟨none, "get-schema"⟩ [⟨⟨none, "xmlns"⟩, some nsMonitoring⟩]], [(nsMonitoring, "")] :: plainBindings, true⟩) rfl).trans ?_
    rw [body]; simp [opRaws]

/-- the operations that the parser knows -/
def knownOps : List String := ["get-config", "edit-config", "get", "close-session", "get-schema"]

/-- content that begins with a tag other than certain ones, if there is any -/
def Begins (names : List String) : List Raw → Prop
  | [] => True
  | .start q _ :: _ => q.loc ∉ names
  | .empty q _ :: _ => q.loc ∉ names
  | _ => False

/-- the operation of a request that is read back -/
def RpcOpOk : RpcOp → Prop
  | .raw c => Copyable "rpc" c ∧ Begins knownOps c
  | .wellKnown o => OpOk o

/-- a request that is read back -/
structure RpcOk (r : Rpc) : Prop where
  line : OneLine r.messageId
  short : utf8Length r.messageId ≤ 4095
  op : RpcOpOk r.operation

def rpcOpRaws : RpcOp → List Raw
  | .raw c => c
  | .wellKnown o => opRaws o

/-- the attributes of the outermost element -/
def topAttrs (id : Option Text) : List Attr := ⟨⟨none, "xmlns"⟩, some nsNetconf⟩ :: (match id with | some v => [⟨⟨none, "message-id"⟩, some (escape v)⟩] | none => [])

theorem output_rpc (r : Rpc) : output (writeRpc r) .new = some (.start ⟨none, "rpc"⟩ (topAttrs (some r.messageId)) :: (rpcOpRaws r.operation ++ [.close ⟨none, "rpc"⟩])) := by
  unfold output
  have e : writeRpc r .new = some ((), ⟨.start ⟨none, "rpc"⟩ (topAttrs (some r.messageId)) :: (rpcOpRaws r.operation ++ [.close ⟨none, "rpc"⟩]), plainBindings, true⟩) := by
    refine (wbind (a := (⟨none, "rpc"⟩, [⟨⟨none, "xmlns"⟩, some nsNetconf⟩])) (w' := ⟨[], plainBindings, true⟩) rfl).trans ?_
    refine (wbind (a := ()) (w' := ⟨[.start ⟨none, "rpc"⟩ (topAttrs (some r.messageId))], plainBindings, true⟩) rfl).trans ?_
    cases r.operation with
    | raw c => simp [write, bind, rpcOpRaws]
    | wellKnown o => exact (wbind (writes_op o _)).trans (by simp [write, rpcOpRaws])
  rw [e]; rfl

theorem headBad_start (st : Stack) (q : QName) (as : List Attr) (R : List Raw) : headBad (annotate st (.start q as :: R)) = false := next_fine (next_start _ _ _ _)

/-- reading a message comes down to its first tag -/
theorem readMessage_start {D Y : Type} (dates : Dates D) (lib : Library Y) (q : QName) (as : List Attr) (R : List Raw) :
    run (readMessage dates lib) (annotate [] (.start q as :: R)) =
      (if q.loc = "hello" then (Message.hello <$> readHello dates) ⟨annotate [] (.start q as :: R), []⟩
      else if q.loc = "rpc" then (Message.rpc <$> readRpc) ⟨annotate [] (.start q as :: R), []⟩
      else if q.loc = "rpc-reply" then (Message.reply <$> readReply lib) ⟨annotate [] (.start q as :: R), []⟩
      else (.err .invalidValue, ⟨annotate [] (.start q as :: R), []⟩)).1 := by
  unfold run
  rw [headBad_start]
  simp only [Bool.false_eq_true, if_false]
  congr 1

theorem message_id (id : Text) (h1 : OneLine id) (h2 : utf8Length id ≤ 4095) (s : St) : messageId (topAttrs (some id)) s = (.ok (some id), s) := by
  have : attrOf "message-id" (topAttrs (some id)) = some id := by simp [topAttrs, attrOf, normalized_escape, spaced_line h1]
  unfold messageId
  rw [this]
  simp only [show ¬ utf8Length id > 4095 by omega, if_false]
  rfl

/-- inside of the outermost element -/
def topStack (name : String) (id : Option Text) : Stack := [(⟨none, name⟩, declared (topAttrs id) ++ [])]

theorem topStack_ns (name : String) (id : Option Text) : InNs (topStack name id) nsNetconf := by
  cases id <;> rfl

theorem readOp_unknown {s : St} (hn : Next s.evs) (h : ∀ k ∈ knownOps, ∀ ns, isTagL ns k s.evs = false) : readOp s = (.err .recoverable, s) := by
  refine (bind_ok (skipText_next (es := s.evs) (ps := s.parents) hn)).trans ?_
  refine (bind_ok (maybeOpen_none hn (h _ (by decide) _))).trans ?_
  refine (bind_ok (maybeOpen_none hn (h _ (by decide) _))).trans ?_
  refine (bind_ok (maybeOpen_none hn (h _ (by decide) _))).trans ?_
  refine (bind_ok (maybeOpen_none hn (h _ (by decide) _))).trans ?_
  exact (bind_ok (maybeOpen_none hn (h _ (by decide) _))).trans rfl

theorem begins_next {names : List String} {c : List Raw} (h : Begins names c) (st : Stack) (q : QName) (sc : Scope) (R : List Raw) (hq : q.loc ∉ names) :
    Next (annotate ((q, sc) :: st) (c ++ .close q :: R)) ∧ ∀ k ∈ names, ∀ ns, isTagL ns k (annotate ((q, sc) :: st) (c ++ .close q :: R)) = false := by
  cases c with
  | nil =>
    refine ⟨next_close _ _ _ _, fun k hk ns => ?_⟩
    rw [List.nil_append, isTagL_close]
    have : q.loc ≠ k := fun e => hq (e ▸ hk)
    simp [this]
  | cons r c =>
    cases r with
    | start p as =>
      refine ⟨next_start _ _ _ _, fun k hk ns => ?_⟩
      rw [List.cons_append, isTagL_start]
      have : p.loc ≠ k := fun e => h (e ▸ hk)
      simp [this]
    | empty p as =>
      refine ⟨next_empty _ _ _ _, fun k hk ns => ?_⟩
      rw [List.cons_append, isTagL_empty]
      have : p.loc ≠ k := fun e => h (e ▸ hk)
      simp [this]
    | _ => exact h.elim

theorem fine_op {st : Stack} (o : Op) (R : List Raw) : headBad (annotate st (opRaws o ++ R)) = false := by
  cases o with
  | closeSession => exact next_fine (next_empty _ _ _ _)
  | getSchema i v f => exact headBad_start _ _ _ _
  | _ => exact next_fine (next_elem _ _ _ _)

theorem fine_rpcOp {st : Stack} {q : QName} {sc : Scope} {o : RpcOp} (h : RpcOpOk o) (R : List Raw) : headBad (annotate ((q, sc) :: st) (rpcOpRaws o ++ .close q :: R)) = false := by
  cases o with
  | raw c => exact fine_bal h.1.bal
  | wellKnown o => exact fine_op o _

/-- a request is read back -/
theorem again_rpc {D Y : Type} (dates : Dates D) (lib : Library Y) {r : Rpc} (h : RpcOk r) : again dates lib (.rpc r) = some (.ok (.rpc r)) := by
  unfold again
  show ((output (writeRpc r) .new).map _) = _
  rw [output_rpc, Option.map_some, readMessage_start]
  simp only [show ("rpc" : String) ≠ "hello" by decide, if_false, if_true]
  suffices H : ∃ s, readRpc ⟨annotate [] (.start ⟨none, "rpc"⟩ (topAttrs (some r.messageId)) :: (rpcOpRaws r.operation ++ [.close ⟨none, "rpc"⟩])), []⟩ = (.ok r, s) by
    obtain ⟨s, hs⟩ := H
    rw [map_ok hs]
  have hns := topStack_ns "rpc" (some r.messageId)
  have hop : ∃ s, (fun s => match readOp s with
      | (.ok o, s') => (.ok (RpcOp.wellKnown o), s')
      | (.err .recoverable, s') => (do return RpcOp.raw (← copyTill "rpc") : P RpcOp) s'
      | (.err e, s') => (.err e, s')
      | (.fault f, s') => (.fault f, s') : P RpcOp) ⟨annotate (topStack "rpc" (some r.messageId)) (rpcOpRaws r.operation ++ [.close ⟨none, "rpc"⟩]), [true]⟩ = (.ok r.operation, s) := by
    have ho := h.op
    cases hr : r.operation with
    | raw c =>
      rw [hr] at ho
      obtain ⟨h1, h2⟩ := begins_next ho.2 [] ⟨none, "rpc"⟩ (declared (topAttrs (some r.messageId)) ++ []) [] (by decide)
      refine ⟨⟨annotate (topStack "rpc" (some r.messageId)) [.close ⟨none, "rpc"⟩], [true]⟩, ?_⟩
      simp only [rpcOpRaws]
      rw [readOp_unknown (s := ⟨annotate (topStack "rpc" (some r.messageId)) (c ++ [Raw.close ⟨none, "rpc"⟩]), [true]⟩) h1 h2]
      exact (bind_ok (copy_reads ho.1 rfl _ _)).trans rfl
    | wellKnown o =>
      rw [hr] at ho
      refine ⟨⟨annotate (topStack "rpc" (some r.messageId)) [.close ⟨none, "rpc"⟩], [true]⟩, ?_⟩
      simp only [rpcOpRaws]
      rw [reads_op hns ho _ _ (next_close _ _ _ _)]
  obtain ⟨s, hop⟩ := hop
  refine ⟨s, ?_⟩
  refine (bind_ok (skipText_next (next_start _ _ _ _))).trans ?_
  refine (bind_ok (open_start (by rfl) (fine_rpcOp h.op _))).trans ?_
  refine (bind_ok (message_id _ h.line h.short _)).trans ?_
  refine (bind_ok (p := pure r.messageId) rfl).trans ?_
  exact (bind_ok hop).trans rfl

end Verif.Xml
