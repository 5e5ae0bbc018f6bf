import Verif.NetconfXml.Names
import Verif.NetconfXml.HelloDoc
/-!
# What is written is well formed, and other facts about messages
-/
namespace Verif.Xml
open Verif.Collector (Text)

/-- the content that a filter brings along is well formed -/
def FilterFormed : Filter → Prop
  | .subtree c => balanced [] c = true
  | .xpath _ => True

/-- the content that an operation brings along is well formed -/
def OpFormed : Op → Prop
  | .getConfig _ f => FilterFormed f
  | .editConfig _ _ _ _ (.config c) => balanced [] c = true
  | .get f => FilterFormed f
  | _ => True

def RpcFormed : RpcOp → Prop
  | .raw c => balanced [] c = true
  | .wellKnown o => OpFormed o

theorem bal_written (t : Text) : Bal (written t) := bal_flat (flat_written t)

theorem bal_opt {α : Type} {f : α → List Raw} (h : ∀ a, Bal (f a)) (x : Option α) : Bal (optRaws f x) := by
  cases x with
  | none => exact .nil
  | some a => exact h a

theorem bal_filter {f : Filter} (h : FilterFormed f) : Bal (filterRaws f) := by
  cases f with
  | subtree c => have := Bal.tag ⟨none, "filter"⟩ [⟨⟨none, "type"⟩, some (escape "subtree".toList)⟩] (bal_iff.2 h) .nil; exact this
  | xpath t => exact Bal.tag (a := []) ⟨none, "filter"⟩ _ .nil .nil

theorem bal_op {o : Op} (h : OpFormed o) : Bal (opRaws o) := by
  have src : ∀ n : String, Bal [Raw.empty ⟨none, n⟩ []] := fun n => .single rfl .nil
  cases o with
  | getConfig s f => exact bal_elem (bal_append (bal_elem (src _)) (bal_filter h))
  | editConfig t d o e c =>
    refine bal_elem (bal_append (bal_elem (src _)) (bal_append (bal_elem (bal_written _)) (bal_append (bal_opt (fun _ => bal_elem (bal_written _)) _) (bal_append (bal_opt (fun _ => bal_elem (bal_written _)) _) ?_))))
    cases c with
    | config c => exact bal_elem (bal_iff.2 h)
    | url t => exact bal_elem (bal_written _)
  | get f => exact bal_elem (bal_filter h)
  | getYangLibrary => exact bal_elem (bal_filter (f := .subtree libraryFilter) (show balanced [] libraryFilter = true by decide +kernel))
  | closeSession => exact src _
  | getSchema i v f =>
    have : opRaws (.getSchema i v f) = Raw.start ⟨none, "get-schema"⟩ [⟨⟨none, "xmlns"⟩, some nsMonitoring⟩] :: ((elem "identifier" (written i) ++
        (optRaws (fun v => elem "version" (written v)) v ++ optRaws (fun f => elem "format" (written (SchemaFormat.name f).toList)) f)) ++ .close ⟨none, "get-schema"⟩ :: []) := by
      simp [opRaws]
    rw [this]
    exact Bal.tag _ _ (bal_append (bal_elem (bal_written _)) (bal_append (bal_opt (fun _ => bal_elem (bal_written _)) _) (bal_opt (fun _ => bal_elem (bal_written _)) _))) .nil

theorem bal_asIs {t : Text} (h : Clear t) : Bal (asIs t) := bal_flat (flat_asIs h)

/-- the texts of an error have no characters of markup -/
structure ErrorClear (e : RpcError) : Prop where
  app : ClearOpt e.appTag
  path : ClearOpt e.path
  message : ClearOpt e.message
  info : ∀ vs, e.info = some (.values vs) → ∀ v ∈ vs, InfoClear v

theorem bal_error {e : RpcError} (h : ErrorClear e) : Bal (errorRaws e) := by
  have c1 : ∀ t : ErrorType, Clear t.name.toList := by intro t; cases t <;> decide
  have c2 : ∀ t : ErrorTag, Clear t.name.toList := by intro t; cases t <;> decide +kernel
  have c3 : ∀ t : Severity, Clear t.name.toList := by intro t; cases t <;> decide
  refine bal_elem (bal_append (bal_elem (bal_asIs (c1 _))) (bal_append (bal_elem (bal_asIs (c2 _))) (bal_append (bal_elem (bal_asIs (c3 _)))
    (bal_append (bal_text h.app) (bal_append (bal_text h.path) (bal_append (bal_text h.message) ?_))))))
  cases hi : e.info with
  | none => exact .nil
  | some i =>
    cases i with
    | sessionId n => exact bal_elem (bal_elem (bal_written _))
    | values vs => exact bal_elem (bal_flatMap vs fun v hv => bal_info (h.info vs hi v hv))

/-- a request with an operation the library does not know -/
theorem raw_rpc {D Y : Type} (dates : Dates D) (lib : Library Y) {id : Text} (h1 : OneLine id) (h2 : utf8Length id ≤ 4095) {c c' : List Raw} (hb : Begins knownOps c)
    (hc : ∃ s, copyTill "rpc" ⟨annotate (topStack "rpc" (some id)) (c ++ [.close ⟨none, "rpc"⟩]), [true]⟩ = (.ok c', s)) :
    run (readMessage dates lib) (annotate [] (.start ⟨none, "rpc"⟩ (topAttrs (some id)) :: (c ++ [.close ⟨none, "rpc"⟩]))) = .ok (.rpc ⟨id, .raw c'⟩) := by
  obtain ⟨s, hs⟩ := hc
  rw [readMessage_start]
  simp only [show ("rpc" : String) ≠ "hello" by decide, if_false, if_true]
  suffices H : readRpc ⟨annotate [] (.start ⟨none, "rpc"⟩ (topAttrs (some id)) :: (c ++ [.close ⟨none, "rpc"⟩])), []⟩ = (.ok ⟨id, .raw c'⟩, s) by rw [map_ok H]
  obtain ⟨n1, n2⟩ := begins_next hb [] ⟨none, "rpc"⟩ (declared (topAttrs (some id)) ++ []) [] (by decide)
  refine (bind_ok (skipText_next (next_start _ _ _ _))).trans ?_
  refine (bind_ok (open_start (by rfl) (next_fine n1))).trans ?_
  refine (bind_ok (message_id _ h1 h2 _)).trans ?_
  refine (bind_ok (p := pure id) rfl).trans ?_
  refine (bind_ok (a := RpcOp.raw c') (s' := s) ?_).trans rfl
  have hop := readOp_unknown (s := ⟨annotate (topStack "rpc" (some id)) (c ++ [Raw.close ⟨none, "rpc"⟩]), [true]⟩) n1 n2
  have e : topStack "rpc" (some id) = [(⟨none, "rpc"⟩, declared (topAttrs (some id)) ++ Stack.scope [])] := rfl
  rw [e] at hop hs
  rw [hop]
  exact (bind_ok hs).trans rfl

/-- texts without ampersands have nothing to be decoded -/
theorem replaceGo_same (old new : Text) {t : Text} (h : '&' ∉ t) : replaceGo ('&' :: old) new 0 t = t := by
  induction t with
  | nil => rfl
  | cons c t ih =>
    have hc : '&' ≠ c := fun e => h (e ▸ List.mem_cons_self)
    have : ('&' :: old).isPrefixOf (c :: t) = false := by simp [List.isPrefixOf, hc]
    rw [replaceGo, this]
    simp only [Bool.false_eq_true, if_false]
    rw [ih fun hm => h (List.mem_cons_of_mem _ hm)]

theorem decodeEntities_same {t : Text} (h : '&' ∉ t) : decodeEntities t = t := by
  have one : ∀ (o : String) (old : Text) (n : Char), o.toList = '&' :: old → replaceAll o.toList [n] t = t := by
    intro o old n ho; unfold replaceAll; rw [ho]; exact replaceGo_same old [n] h
  unfold decodeEntities
  simp only
  rw [one "&quot;" "quot;".toList _ (by decide +kernel), one "&apos;" "apos;".toList _ (by decide +kernel), one "&amp;" "amp;".toList _ (by decide +kernel), one "&lt;" "lt;".toList _ (by decide +kernel),
    one "&gt;" "gt;".toList _ (by decide +kernel), one "&#34;" "#34;".toList _ (by decide +kernel), one "&#39;" "#39;".toList _ (by decide +kernel), one "&#38;" "#38;".toList _ (by decide +kernel),
    one "&#60;" "#60;".toList _ (by decide +kernel), one "&#62;" "#62;".toList _ (by decide +kernel)]

end Verif.Xml
