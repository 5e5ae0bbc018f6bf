import Verif.Props.NetconfMessages
/-!
# C216, C217, C220: capabilities that are read, and namespaces of one's own
-/
namespace Verif.Props
open Verif.Xml
open Verif.Collector (Text isSpace)

/-! ## C216 -/

/-- C216, in part: a capability that was read, without white space in its text, and is written is read as the same capability. -/
theorem c216_capability_kept_partial {D : Type} {dates : Dates D} (hd : DatesOk dates) {s : Text} (hs : ∀ c ∈ s, isSpace c = false) {c : Cap D} (h : Cap.read dates s = some c) :
    Cap.read dates (c.show' dates) = some c := read_back hd hs h

/-- parameters in another order, and some that say nothing -/
example : (∀ c ∈ "urn:x?&features=a,b&module=m&revision=2024-01-31&z".toList, isSpace c = false) ∧
    Cap.read oneDay "urn:x?&features=a,b&module=m&revision=2024-01-31&z".toList = some (.yang "urn:x".toList "m".toList (some ()) ["a".toList, "b".toList] []) ∧
    (Cap.yang "urn:x".toList "m".toList (some ()) ["a".toList, "b".toList] []).show' oneDay = "urn:x?module=m&revision=2024-01-31&features=a,b".toList := by
  refine ⟨by decide +kernel, by decide +kernel, by decide +kernel⟩

/-- C216 does not hold of capabilities with white space: the last feature loses it when it comes to be last. -/
theorem c216_white_space_disproved :
    (match Cap.read oneDay "urn:x?features=f &module=m".toList with
     | some c => decide (c = .yang "urn:x".toList "m".toList none ["f ".toList] [] ∧ Cap.read oneDay (c.show' oneDay) = some (.yang "urn:x".toList "m".toList none ["f".toList] [])) | none => false) = true := by
  decide +kernel

/-- and one that is read with white space in front of it is refused when it is written and read again -/
theorem c216_refused_disproved :
    (match Cap.read oneDay " urn:ietf:params:netconf:capability:url:1.0?module=x".toList with
     | some c => decide (Cap.read oneDay (c.show' oneDay) = none) | none => false) = true := by decide +kernel

/-! ## C217 -/

/-- the names of capabilities without parameters -/
def exactNames : List String :=
  ["urn:ietf:params:netconf:base:1.0", "urn:ietf:params:netconf:base:1.1", "urn:ietf:params:netconf:capability:writable-running:1.0", "urn:ietf:params:netconf:capability:candidate:1.0",
   "urn:ietf:params:netconf:capability:confirmed-commit:1.0", "urn:ietf:params:netconf:capability:confirmed-commit:1.1", "urn:ietf:params:netconf:capability:rollback-on-error:1.0",
   "urn:ietf:params:netconf:capability:validate:1.0", "urn:ietf:params:netconf:capability:validate:1.1", "urn:ietf:params:netconf:capability:startup:1.0", "urn:ietf:params:netconf:capability:xpath:1.0",
   "urn:ietf:params:netconf:capability:notification:1.0", "urn:ietf:params:netconf:capability:interleave:1.0", "urn:ietf:params:netconf:capability:partial-lock:1.0",
   "urn:ietf:params:netconf:capability:with-defaults:1.0", "urn:ietf:params:netconf:capability:time:1.0", "urn:ietf:params:netconf:capability:with-operational-defaults:1.0"]

theorem trim_around {w x t : Text} (hw : ∀ c ∈ w, isSpace c = true) (hx : ∀ c ∈ x, isSpace c = true) (ht : Solid t) : Verif.Collector.trim (w ++ t ++ x) = t := by
  have front : ∀ {w u : Text}, (∀ c ∈ w, isSpace c = true) → Verif.Collector.trimStart (w ++ u) = Verif.Collector.trimStart u := by
    intro w u h
    induction w with
    | nil => rfl
    | cons c w ih =>
      have := ih fun d hd => h d (List.mem_cons_of_mem _ hd)
      simp [Verif.Collector.trimStart, h c List.mem_cons_self] at this ⊢
      exact this
  unfold Verif.Collector.trim
  rw [List.append_assoc, front hw]
  cases t with
  | nil =>
    have : Verif.Collector.trimStart ([] ++ x) = [] := by
      have := front (u := []) hx
      rw [List.append_nil] at this; exact this
    rw [this]; rfl
  | cons c t =>
    have e : Verif.Collector.trimStart (c :: t ++ x) = c :: t ++ x := by simp [Verif.Collector.trimStart, ht c List.mem_cons_self]
    rw [e, List.reverse_append, front (fun d hd => hx d (List.mem_reverse.1 hd)), trimStart_solid (fun d hd => ht d (List.mem_reverse.1 hd)), List.reverse_reverse]

/-- C217, in part: white space around the name of a capability without parameters makes no difference, and the capability is the one that is written as that name. -/
theorem c217_white_space_partial {D : Type} (dates : Dates D) {n : String} (h : n ∈ exactNames) {w x : Text} (hw : ∀ c ∈ w, isSpace c = true) (hx : ∀ c ∈ x, isSpace c = true) :
    ∃ c, Cap.read dates (w ++ n.toList ++ x) = some c ∧ c.show' dates = n.toList ∧ Cap.read dates n.toList = some c := by
  have hs : ∀ n ∈ exactNames, Solid n.toList := by unfold Solid; decide +kernel
  have he : ∀ n ∈ exactNames, (exactCap n.toList : Option (Cap Empty)).isSome = true := by decide +kernel
  have hc : ∃ c : Cap D, exactCap n.toList = some c := by
    have := he n h
    unfold exactCap at this ⊢
    split at this
    · next e => exact ⟨_, if_pos e⟩
    · next e =>
      rw [if_neg e]
      split at this
      · next e' => exact ⟨_, if_pos e'⟩
      · next e' =>
        rw [if_neg e']
        cases hf : (Std.all.find? fun s => s.name.toList == n.toList) with
        | none => rw [hf] at this; simp at this
        | some s => exact ⟨_, rfl⟩
  obtain ⟨c, hc⟩ := hc
  refine ⟨c, ?_, (exact_names hc).2 dates, ?_⟩
  · unfold Cap.read; rw [trim_around hw hx (hs n h), hc]
  · unfold Cap.read; rw [trim_solid (hs n h), hc]

example : "urn:ietf:params:netconf:base:1.1" ∈ exactNames ∧ (∀ c ∈ "\n      ".toList, isSpace c = true) := by decide +kernel

/-- C217 does not hold of capabilities with parameters: with white space in front, the capability of URLs is taken for an unknown one, -/
theorem c217_url_disproved :
    Cap.read oneDay "urn:ietf:params:netconf:capability:url:1.0?scheme=file".toList = some (.url [.file]) ∧ 
    Cap.read oneDay "\n  urn:ietf:params:netconf:capability:url:1.0?scheme=file".toList = some (.custom "\n  urn:ietf:params:netconf:capability:url:1.0?scheme=file".toList) := by decide +kernel

/-- and with white space behind it, the identifier of the YANG library is another. -/
theorem c217_library_disproved :
    Cap.read oneDay "urn:ietf:params:netconf:capability:yang-library:1.1?revision=2024-01-31&content-id=1\n".toList = some (.library11 () "1\n".toList) := by decide +kernel

/-! ## C220 -/

/-- what is written with namespaces of one's own -/
def writtenWith (bs : List (Text × String)) (p : W Unit) : Option (List Raw) := (WSt.custom bs).bind (output p)

/-- C220, in part: with one more namespace, whose prefix is not called as an attribute is, the request to close the session is written with all its names, and read back. -/
theorem c220_more_namespaces_partial {D Y : Type} (dates : Dates D) (lib : Library Y) {ns : Text} {p : String} (h1 : p ≠ "") (h2 : p ≠ "message-id") {id : Text} (h3 : OneLine id) (h4 : utf8Length id ≤ 4095) :
    ∃ rs, writtenWith [(nsNetconf, ""), (ns, p)] (writeRpc ⟨id, .wellKnown .closeSession⟩) = some rs ∧
      run (readMessage dates lib) (annotate [] rs) = .ok (.rpc ⟨id, .wellKnown .closeSession⟩) := by
  have hd : distinctPrefixes [(nsNetconf, ""), (ns, p)] = true := by simp [distinctPrefixes, h1]
  let as : List Attr := [⟨⟨none, "xmlns"⟩, some nsNetconf⟩, ⟨⟨some "xmlns", p⟩, some ns⟩, ⟨⟨none, "message-id"⟩, some (escape id)⟩]
  refine ⟨.start ⟨none, "rpc"⟩ as :: ([.empty ⟨none, "close-session"⟩ []] ++ [.close ⟨none, "rpc"⟩]), ?_, ?_⟩
  · unfold writtenWith WSt.custom
    rw [if_pos hd]
    simp [output, writeRpc, writeOp, declarations, h1, bind, write, createElement, applyNs, pure, as]
  · have hsc : InNs [(⟨none, "rpc"⟩, declared as ++ [])] nsNetconf := by
      show Scope.resolve (declared as ++ []) ⟨none, ""⟩ = _
      have e : declared as ++ [] = [(p, ns), ("", nsNetconf)] := rfl
      rw [e]
      simp only [Scope.resolve, Scope.find, if_neg h1, if_true]
      rfl
    have hid : ∀ s, messageId as s = (.ok (some id), s) := by
      intro s
      have : attrOf "message-id" as = some id := by simp [as, attrOf, h2, normalized_escape, spaced_line h3]
      unfold messageId
      rw [this]
      simp only [show ¬ utf8Length id > 4095 by omega, if_false]
      rfl
    rw [readMessage_start]
    simp only [show ("rpc" : String) ≠ "hello" by decide, if_false, if_true]
    suffices H : ∃ s, readRpc ⟨annotate [] (.start ⟨none, "rpc"⟩ as :: ([.empty ⟨none, "close-session"⟩ []] ++ [.close ⟨none, "rpc"⟩])), []⟩ = (.ok ⟨id, .wellKnown .closeSession⟩, s) by
      obtain ⟨s, hs⟩ := H
      rw [map_ok hs]
    have hop := reads_closeSession hsc [.close ⟨none, "rpc"⟩] [true] (next_close _ _ _ _)
    refine ⟨⟨annotate [(⟨none, "rpc"⟩, declared as ++ [])] [.close ⟨none, "rpc"⟩], [true]⟩, ?_⟩
    refine (bind_ok (skipText_next (next_start _ _ _ _))).trans ?_
    refine (bind_ok (open_start (by exact hsc) (next_fine (next_empty _ _ _ _)))).trans ?_
    refine (bind_ok (hid _)).trans ?_
    refine (bind_ok (p := pure id) rfl).trans ?_
    have hop' : (fun s => match readOp s with
      | (.ok o, s') => (.ok (RpcOp.wellKnown o), s')
      | (.err .recoverable, s') => (do return RpcOp.raw (← copyTill "rpc") : P RpcOp) s'
      | (.err e, s') => (.err e, s')
      | (.fault f, s') => (.fault f, s') : P RpcOp) ⟨annotate [(⟨none, "rpc"⟩, declared as ++ [])] ([.empty ⟨none, "close-session"⟩ []] ++ [.close ⟨none, "rpc"⟩]), [true]⟩ =
        (.ok (.wellKnown .closeSession), ⟨annotate [(⟨none, "rpc"⟩, declared as ++ [])] [.close ⟨none, "rpc"⟩], [true]⟩) := by
      have e : opRaws .closeSession ++ [Raw.close ⟨none, "rpc"⟩] = [.empty ⟨none, "close-session"⟩ []] ++ [.close ⟨none, "rpc"⟩] := rfl
      rw [e] at hop
      simp only
      rw [hop]
    exact (bind_ok hop').trans rfl

example : "if" ≠ "" ∧ "if" ≠ "message-id" ∧ OneLine "12".toList ∧ utf8Length "12".toList ≤ 4095 := by unfold OneLine; decide +kernel

/-- C220 does not hold if the namespace of NETCONF is given a prefix: the elements of messages are written without it, and a request that is written cannot be read. -/
theorem c220_prefix_disproved :
    (match writtenWith [(nsNetconf, "nc")] (writeRpc ⟨['1'], .wellKnown .closeSession⟩) with
     | some rs => decide (names (annotate [] rs) = [(.unbound, "rpc"), (.unbound, "close-session")]) &&
        (match run (readMessage oneDay noLibrary) (annotate [] rs) with | .ok _ => false | .err _ => true | .fault _ => false)
     | none => false) = true := by decide +kernel

/-- Nor does it hold of a prefix that is called as an attribute is: another message-id is read, the name of the namespace. -/
theorem c220_attribute_disproved :
    (match writtenWith [(nsNetconf, ""), ("urn:a".toList, "message-id")] (writeRpc ⟨['1'], .wellKnown .closeSession⟩) with
     | some rs => (match run (readMessage oneDay noLibrary) (annotate [] rs) with | .ok (.rpc r) => decide (r.messageId = "urn:a".toList) | _ => false)
     | none => false) = true := by decide +kernel

end Verif.Props
