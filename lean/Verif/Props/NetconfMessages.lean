import Verif.NetconfXml.WellFormedness
import Verif.NetconfXml.CapLemmas
/-!
# C209-C215, C218, C219: messages of NETCONF that are written and read
-/
namespace Verif.Props
open Verif.Xml
open Verif.Collector (Text)

/-- for examples: dates of one day, and no YANG library -/
def oneDay : Dates Unit := ⟨fun t => if t = "2024-01-31".toList then some () else none, fun _ => "2024-01-31".toList⟩
def noLibrary : Library Empty := ⟨raise .recoverable, fun y => nomatch y⟩

/-- the name of an element without prefix, and the declaration of a namespace -/
def plainName (l : String) : QName := ⟨none, l⟩
def inSpace (ns : String) : List Attr := [⟨⟨none, "xmlns"⟩, some ns.toList⟩]

/-! ## C209 -/

/-- C209, in part: a request that is written is read back as it was, if the message-id has no tabs and line ends and at most 4095 octets, content that is brought along
begins with a tag (that is no known operation, for a request of another kind), declares the namespace of its first tag, and has no element in it with the name of the element around it, and the identifiers of `get-schema`
have no white space around them; and if the operation is not the one that asks for the YANG library. -/
theorem c209_rpc_back_partial {D Y : Type} (dates : Dates D) (lib : Library Y) {r : Rpc} (h : RpcOk r) : again dates lib (.rpc r) = some (.ok (.rpc r)) :=
  again_rpc dates lib h

example : RpcOk ⟨"101".toList, .wellKnown (.editConfig .candidate .replace (some .testThenSet) (some .rollback)
    (.config [.start (plainName "interfaces") (inSpace "urn:if"), .empty (plainName "interface") [], .text "\n".toList, .close (plainName "interfaces")]))⟩ := by
  refine ⟨by unfold OneLine; decide +kernel, by decide +kernel, bal_iff.2 (by decide +kernel), ?_, by decide +kernel, by decide +kernel⟩
  intro q hq; simp [plainName] at hq; subst hq; decide

/-- an operation of another kind -/
example : RpcOk ⟨"1".toList, .raw [.start (plainName "kill-session") (inSpace "urn:ietf:params:xml:ns:netconf:base:1.0"), .text "4".toList, .close (plainName "kill-session")]⟩ := by
  refine ⟨by unfold OneLine; decide +kernel, by decide +kernel, ⟨bal_iff.2 (by decide +kernel), ?_, by decide +kernel, by decide +kernel⟩, by unfold Begins; decide +kernel⟩
  intro q hq; simp [plainName] at hq; subst hq; decide

/-- C209 does not hold of the request for the YANG library: it is read back as a `get` with a filter. -/
theorem c209_yang_library_disproved :
    (match again oneDay noLibrary (.rpc ⟨['1'], .wellKnown .getYangLibrary⟩) with | some (.ok (.rpc ⟨_, .wellKnown (.get (.subtree _))⟩)) => true | _ => false) = true := by decide +kernel

/-- Nor does it hold of a message-id with a line end: the one that is read has a space. -/
theorem c209_message_id_disproved :
    (match again oneDay noLibrary (.rpc ⟨['1', '\n', '2'], .wellKnown .closeSession⟩) with | some (.ok (.rpc ⟨i, _⟩)) => decide (i = ['1', ' ', '2']) | _ => false) = true := by decide +kernel

/-- Nor of an identifier with a space in front. -/
theorem c209_identifier_disproved :
    (match again oneDay noLibrary (.rpc ⟨['1'], .wellKnown (.getSchema [' ', 'a'] none none)⟩) with | some (.ok (.rpc ⟨_, .wellKnown (.getSchema i _ _)⟩)) => decide (i = ['a']) | _ => false) = true := by
  decide +kernel

/-! ## C210 -/

/-- C210, in part: a reply that is written is read back as it was, under conditions like those of C209, if the texts of errors have no `&` and `<`, and two details of an error
that follow each other cannot be taken for one; and if the code for the YANG library reads back what it writes. -/
theorem c210_reply_back_partial {D Y : Type} (dates : Dates D) (lib : Library Y) {r : Reply Y} (h : ReplyOk lib r) : again dates lib (.reply r) = some (.ok (.reply r)) :=
  again_reply dates lib h

/-- two errors and data -/
example : ReplyOk noLibrary ⟨some "7".toList, .errorsAndData
    [⟨.application, .dataMissing, .error, some "app".toList, none, some "no such thing".toList, some (.values [⟨some "x".toList, some "y".toList, none, none, none, none⟩, ⟨some "z".toList, none, none, none, none, none⟩])⟩,
     ⟨.rpc, .inUse, .warning, none, some "/a/b".toList, none, some (.sessionId 3)⟩]
    (.wellKnown (.data [.start (plainName "top") (inSpace "urn:t"), .text "1".toList, .close (plainName "top")]))⟩ := by
  refine ⟨?_, ?_, ⟨bal_iff.2 (by decide +kernel), ?_, by decide +kernel, by decide +kernel⟩, by unfold Begins; decide +kernel⟩
  · intro id h; simp at h; subst h; exact ⟨by unfold OneLine; decide +kernel, by decide +kernel⟩
  · intro e he
    simp at he
    rcases he with rfl | rfl
    · refine ⟨?_, ?_, ?_, ?_⟩
      · intro t h; injection h with h; subst h; decide +kernel
      · intro t h; simp at h
      · intro t h; injection h with h; subst h; decide +kernel
      · intro i h; injection h with h; subst h
        refine ⟨⟨?_, ?_, ?_, ?_, ?_, ?_⟩, by decide, ⟨?_, ?_, ?_, ?_, ?_⟩, ⟨?_, ?_, ?_, ?_, ?_, ?_⟩, by decide⟩
        all_goals first
          | (intro t h; injection h with h; subst h; decide +kernel)
          | (intro t h; simp at h; done)
          | (intros; decide)
    · refine ⟨?_, ?_, ?_, ?_⟩
      · intro t h; simp at h
      · intro t h; injection h with h; subst h; decide +kernel
      · intro t h; simp at h
      · intro i h; injection h with h; subst h; trivial
  · intro q hq; simp [plainName] at hq; subst hq; decide

/-- C210 does not hold of an error whose message has an ampersand: what is written cannot be read. -/
theorem c210_error_message_disproved :
    (match again oneDay noLibrary (.reply ⟨some ['1'], .errorsAndData [⟨.rpc, .operationFailed, .error, none, none, some "a & b".toList, none⟩] (.raw [])⟩) with
     | some (.err .reader) => true | _ => false) = true := by decide +kernel

/-- Nor of one whose message has a reference in it: another message is read. -/
theorem c210_error_reference_disproved :
    (match again oneDay noLibrary (.reply ⟨some ['1'], .errorsAndData [⟨.rpc, .operationFailed, .error, none, none, some "a&amp;b".toList, none⟩] (.raw [])⟩) with
     | some (.ok (.reply ⟨_, .errorsAndData [e] _⟩)) => decide (e.message = some "a&b".toList) | _ => false) = true := by decide +kernel

/-- Nor of two details of an error, one with a bad attribute and one with a bad element: one with both is read. -/
theorem c210_details_disproved :
    (match again oneDay noLibrary (.reply ⟨some ['1'], .errorsAndData [⟨.rpc, .badElement, .error, none, none, none,
        some (.values [⟨some ['x'], none, none, none, none, none⟩, ⟨none, some ['y'], none, none, none, none⟩])⟩] (.raw [])⟩) with
     | some (.ok (.reply ⟨_, .errorsAndData [e] _⟩)) => decide (e.info = some (.values [⟨some ['x'], some ['y'], none, none, none, none⟩])) | _ => false) = true := by decide +kernel

/-! ## C211 -/

/-- a capability that is made of what its text can hold: parameters without `&`, the list of schemes not empty, the parts of a YANG capability without commas, question marks and white space, and a URN that is
no other capability; and a custom one that is not one of the others -/
def CapabilityOk {D : Type} : Cap D → Prop
  | .library10 _ i => '&' ∉ i
  | .library11 _ i => '&' ∉ i
  | .url ss => ss ≠ []
  | .yang urn name _ fs ds => YangOk urn name fs ds
  | .custom t => '?' ∉ t ∧ Solid t ∧ (∀ s : Std, t ≠ s.name.toList) ∧ t ≠ nameBase10 ∧ t ≠ nameBase11 ∧ nameUrl.isPrefixOf t = false ∧ nameLibrary10.isPrefixOf t = false ∧ nameLibrary11.isPrefixOf t = false
  | _ => True

theorem capability_back {D : Type} {dates : Dates D} (hd : DatesOk dates) {c : Cap D} (h : CapabilityOk c) : Cap.read dates (c.show' dates) = some c := by
  cases c with
  | base10 => exact (base_back dates).1
  | base11 => exact (base_back dates).2
  | library10 d i => exact (library_back hd d h).1
  | library11 d i => exact (library_back hd d h).2
  | std s => exact std_back dates s
  | url ss => exact url_back dates h
  | yang urn n r fs ds => exact yang_back hd r h
  | custom t =>
    obtain ⟨h1, h2, h3, h4, h5, h6, h7, h8⟩ := h
    have hx : (exactCap t : Option (Cap D)) = none := by
      unfold exactCap
      rw [if_neg h4, if_neg h5]
      have : (Std.all.find? fun s => s.name.toList == t) = none := by
        rw [List.find?_eq_none]; intro s _ e
        exact h3 s (by simpa using Eq.symm (by simpa using e))
      rw [this]; rfl
    have hq : Verif.Collector.splitOnce '?' t = none := by
      cases hs : Verif.Collector.splitOnce '?' t with
      | none => rfl
      | some x =>
        obtain ⟨a, b⟩ := x
        exact absurd (by rw [(splitOnce_some hs).1]; simp) h1
    show Cap.read dates t = _
    unfold Cap.read readModule
    simp only [trim_solid h2, hx, h6, h7, h8, Bool.false_eq_true, if_false, hq, ite_self]

/-- C211, in part: a hello is read back as it was, if dates are, and its capabilities are made of what their texts can hold. -/
theorem c211_hello_back_partial {D Y : Type} {dates : Dates D} (hd : DatesOk dates) (lib : Library Y) {h : Hello D} (hh : ∀ c ∈ h.capabilities, CapabilityOk c) :
    again dates lib (.hello h) = some (.ok (.hello h)) := again_hello dates lib fun c hc => capability_back hd (hh c hc)

theorem oneDay_ok : DatesOk oneDay := ⟨fun u => (by cases u; decide +kernel), fun u => (by cases u; decide +kernel)⟩

example : DatesOk oneDay ∧ ∀ c ∈ [Cap.base11, .std .xpath, .url [.https, .file], .library11 () "c1".toList,
    .yang "urn:ietf:params:xml:ns:yang:ietf-interfaces".toList "ietf-interfaces".toList (some ()) ["if-mib".toList, "pre-provisioning".toList] [], .custom "http://example.com/x".toList],
    CapabilityOk c := by
  refine ⟨oneDay_ok, ?_⟩
  intro c hc
  simp only [List.mem_cons, List.mem_nil_iff, or_false] at hc
  rcases hc with rfl | rfl | rfl | rfl | rfl | rfl
  · trivial
  · trivial
  · simp [CapabilityOk]
  · show '&' ∉ "c1".toList; decide +kernel
  · refine ⟨.inl (by decide +kernel), by decide +kernel, by decide +kernel, by unfold Solid; decide +kernel, by decide +kernel, by unfold Solid; decide +kernel, ?_, by simp⟩
    intro f hf
    simp only [List.mem_cons, List.mem_nil_iff, or_false] at hf
    rcases hf with rfl | rfl <;> exact ⟨by decide +kernel, by decide +kernel, by unfold Solid; decide +kernel⟩
  · exact ⟨by decide +kernel, by unfold Solid; decide +kernel, by intro s; cases s <;> decide +kernel, by decide +kernel, by decide +kernel, by decide +kernel, by decide +kernel, by decide +kernel⟩

/-- C211 does not hold of the capability of URLs without any scheme: no hello that has it can be read. -/
theorem c211_no_scheme_disproved : (match again oneDay noLibrary (.hello ⟨none, [.base11, .url []]⟩) with | some (.err .invalidValue) => true | _ => false) = true := by decide +kernel

/-! ## C212 -/

/-- C212, in part: the configuration of an `edit-config` is read as it was sent, if it is well formed and UTF-8, declares the namespace of its first tag itself, and has no element with the local name `config` in it. -/
theorem c212_config_partial {D Y : Type} (dates : Dates D) (lib : Library Y) (t : Target) (d : DefaultOp) (o : Option TestOption) (e : Option ErrorOption) {c : List Raw} (h1 : balanced [] c = true)
    (h2 : ∀ q, Raw.close q ∈ c → q.loc ≠ "config") (h3 : ∀ r ∈ c, r.utf8 = true) (h4 : own c = true) :
    again dates lib (.rpc ⟨['1'], .wellKnown (.editConfig t d o e (.config c))⟩) = some (.ok (.rpc ⟨['1'], .wellKnown (.editConfig t d o e (.config c))⟩)) :=
  again_rpc dates lib ⟨by simp [OneLine], show utf8Length ['1'] ≤ 4095 by decide, bal_iff.2 h1, h2, h3, h4⟩

example : let c := [Raw.start (plainName "a") (inSpace "urn:a"), .start (plainName "b") [], .text "1".toList, .close (plainName "b"), .empty (plainName "config") [], .close (plainName "a")]
    balanced [] c = true ∧ (∀ q, Raw.close q ∈ c → q.loc ≠ "config") ∧ (∀ r ∈ c, r.utf8 = true) ∧ own c = true := by
  refine ⟨by decide +kernel, ?_, by decide +kernel, by decide +kernel⟩
  intro q hq; simp [plainName] at hq; rcases hq with rfl | rfl <;> decide

/-- the configuration of another module, in which there is an element named `config` -/
def nestedConfig : List Raw :=
  [.start (plainName "a") (inSpace "urn:a"), .start (plainName "config") [], .text "1".toList, .close (plainName "config"), .start (plainName "rest") [], .close (plainName "rest"), .close (plainName "a")]

/-- C212 does not hold of configuration with an element named `config` in it: without an error, only what is in front of the end of that element is read, and it is not even well formed. -/
theorem c212_nested_config_disproved : balanced [] nestedConfig = true ∧
    (match again oneDay noLibrary (.rpc ⟨['1'], .wellKnown (.editConfig .running .merge none none (.config nestedConfig))⟩) with
     | some (.ok (.rpc ⟨_, .wellKnown (.editConfig _ _ _ _ (.config c))⟩)) => decide (c = nestedConfig.take 3) && !balanced [] c | _ => false) = true := by decide +kernel

/-! ## C213 -/

/-- C213, in part: a reply with no data in it is read, if it is written with an opening and a closing tag. -/
theorem c213_no_data_partial {D Y : Type} (dates : Dates D) (lib : Library Y) (id : Option Text) (h : ∀ x, id = some x → OneLine x ∧ utf8Length x ≤ 4095) :
    output (writeReply lib ⟨id, .errorsAndData [] (.wellKnown (.data []))⟩) .new = some (replyRaws id [.start ⟨none, "data"⟩ [], .close ⟨none, "data"⟩]) ∧
    run (readMessage dates lib) (annotate [] (replyRaws id [.start ⟨none, "data"⟩ [], .close ⟨none, "data"⟩])) = .ok (.reply ⟨id, .errorsAndData [] (.wellKnown (.data []))⟩) := by
  have hw := output_reply lib id [] (RpcResponseRaws.wellKnown (ResponseRaws.data (lib := lib) []))
  have ha := again_reply dates lib (r := ⟨id, .errorsAndData [] (.wellKnown (.data []))⟩) ⟨h, by simp, ⟨.nil, by simp, by simp, rfl⟩, trivial⟩
  refine ⟨hw, ?_⟩
  unfold again at ha
  have hw' : output (writeMessage dates lib (.reply ⟨id, .errorsAndData [] (.wellKnown (.data []))⟩)) .new = _ := hw
  rw [hw', Option.map_some] at ha
  exact Option.some.inj ha

example : ∀ x, some "12".toList = some x → OneLine x ∧ utf8Length x ≤ 4095 := by
  intro x h; injection h with h; subst h; exact ⟨by unfold OneLine; decide +kernel, by decide +kernel⟩

/-- C213 does not hold of `<data/>`, which XML says is the same: reading it is an error, as the end of the document is reached. -/
theorem c213_empty_tag_disproved :
    (match run (readMessage oneDay noLibrary) (annotate [] (replyRaws (some ['1']) [.empty ⟨none, "data"⟩ []])) with | .err .eof => true | _ => false) = true := by decide +kernel

/-! ## C214 -/

/-- C214, in part: a request of another kind that is one element, without prefixes, in the namespace of the request around it, is read with that namespace, and the expanded names of all its elements are those that they have in the request. -/
theorem c214_names_partial {D Y : Type} (dates : Dates D) (lib : Library Y) {id : Text} (h1 : OneLine id) (h2 : utf8Length id ≤ 4095) {l : String} {as : List Attr} {inner : List Raw}
    (hi : balanced [] inner = true) (hu : Unprefixed inner) (hd : NoDefault as) (hn : ∀ p, Raw.close p ∈ inner → p.loc ≠ "rpc") (hq : l ≠ "rpc") (hk : l ∉ knownOps) (h8 : ∀ r ∈ inner, r.utf8 = true) :
    let c := Raw.start (plainName l) as :: (inner ++ [.close (plainName l)])
    ∃ c', run (readMessage dates lib) (annotate [] (.start ⟨none, "rpc"⟩ (topAttrs (some id)) :: (c ++ [.close ⟨none, "rpc"⟩]))) = .ok (.rpc ⟨id, .raw c'⟩) ∧
      names (annotate [] (.start ⟨none, "rpc"⟩ (topAttrs (some id)) :: (c ++ [.close ⟨none, "rpc"⟩]))) = (.bound nsNetconf, "rpc") :: names (annotate [] c') := by
  intro c
  have hu' : Unprefixed c := by
    intro r hr
    rcases List.mem_cons.1 hr with rfl | hr
    · exact ⟨fun q as h => (by injection h with h _; subst h; rfl), fun q as h => (by cases h)⟩
    · rcases List.mem_append.1 hr with hr | hr
      · exact hu r hr
      · simp at hr; subst hr; exact ⟨fun q as h => (by cases h), fun q as h => (by cases h)⟩
  have := copy_names (tag := "rpc") (bal_iff.2 hi) hu' hd hn hq h8 (p := ⟨none, "rpc"⟩) rfl (sc := declared (topAttrs (some id)) ++ []) (st := []) (n := nsNetconf) (topStack_ns "rpc" (some id)) [] [true]
  obtain ⟨hc, hnm⟩ := this
  refine ⟨_, raw_rpc dates lib h1 h2 hk ⟨_, hc⟩, ?_⟩
  rw [annotate_start]
  show names (⟨.start ⟨none, "rpc"⟩ (topAttrs (some id)), declared (topAttrs (some id)) ++ []⟩ :: annotate [(⟨none, "rpc"⟩, declared (topAttrs (some id)) ++ [])] (c ++ [.close ⟨none, "rpc"⟩])) = _
  have hr : Scope.resolve (declared (topAttrs (some id)) ++ []) ⟨none, "rpc"⟩ = .bound nsNetconf := rfl
  simp only [names, hr]
  rw [show c ++ [Raw.close ⟨none, "rpc"⟩] = c ++ Raw.close ⟨none, "rpc"⟩ :: [] from rfl, hnm, annotate_close]
  simp [names, annotate]

example : balanced [] [.start (plainName "b") (inSpace "urn:b"), .empty (plainName "c") [], .close (plainName "b")] = true ∧
    Unprefixed [.start (plainName "b") (inSpace "urn:b"), .empty (plainName "c") [], .close (plainName "b")] ∧ NoDefault [⟨⟨none, "x"⟩, some "1".toList⟩] := by
  refine ⟨by decide +kernel, ?_, ?_⟩
  · intro r hr
    simp only [List.mem_cons, List.mem_nil_iff, or_false] at hr
    rcases hr with rfl | rfl | rfl
    · exact ⟨fun q as h => (by injection h with h _; subst h; rfl), fun q as h => (by cases h)⟩
    · exact ⟨fun q as h => (by cases h), fun q as h => (by injection h with h _; subst h; rfl)⟩
    · exact ⟨fun q as h => (by cases h), fun q as h => (by cases h)⟩
  · intro a ha; simp at ha; subst ha; exact ⟨by decide, by decide, rfl⟩

/-- a request of another kind, with content and more declarations -/
def otherRpc (more : List Attr) (c : List Raw) : List Raw :=
  .start ⟨none, "rpc"⟩ (topAttrs (some ['1']) ++ more) :: (c ++ [.close ⟨none, "rpc"⟩])

/-- C214 does not hold of prefixes that are bound by the request: the content that is read uses a prefix that is bound to nothing. -/
theorem c214_prefix_disproved :
    let c := [Raw.start ⟨some "if", "reset"⟩ [], .close ⟨some "if", "reset"⟩]
    names (annotate [] (otherRpc [⟨⟨some "xmlns", "if"⟩, some "urn:if".toList⟩] c)) = [(.bound nsNetconf, "rpc"), (.bound "urn:if".toList, "reset")] ∧
    (match run (readMessage oneDay noLibrary) (annotate [] (otherRpc [⟨⟨some "xmlns", "if"⟩, some "urn:if".toList⟩] c)) with
     | .ok (.rpc ⟨_, .raw c'⟩) => decide (names (annotate [] c') = [(.unknown, "reset")]) | _ => false) = true := by decide +kernel

/-- Nor of the second of two elements, or of an empty tag: they are in no namespace any more. -/
theorem c214_sibling_disproved :
    let c := [Raw.start ⟨none, "a"⟩ [], .close ⟨none, "a"⟩, .empty ⟨none, "b"⟩ []]
    names (annotate [] (otherRpc [] c)) = [(.bound nsNetconf, "rpc"), (.bound nsNetconf, "a"), (.bound nsNetconf, "b")] ∧
    (match run (readMessage oneDay noLibrary) (annotate [] (otherRpc [] c)) with
     | .ok (.rpc ⟨_, .raw c'⟩) => decide (names (annotate [] c') = [(.bound nsNetconf, "a"), (.unbound, "b")]) | _ => false) = true := by decide +kernel

/-! ## C215 -/

/-- C215, in part: the text of a YANG schema without ampersands is read back exactly, white space, quotes and all. -/
theorem c215_schema_partial {D Y : Type} (dates : Dates D) (lib : Library Y) {t : Text} (h : '&' ∉ t) :
    again dates lib (.reply ⟨some ['1'], .errorsAndData [] (.wellKnown (.yangSchema t))⟩) = some (.ok (.reply ⟨some ['1'], .errorsAndData [] (.wellKnown (.yangSchema t))⟩)) := by
  refine again_reply dates lib ⟨?_, by simp, decodeEntities_same h⟩
  intro id h; injection h with h; subst h; exact ⟨by simp [OneLine], by decide⟩

example : '&' ∉ "module a {\n  description \"x < y\";\n}\n".toList := by decide +kernel

/-- C215 does not hold of a schema with an entity in its text, as in a pattern or description: it is decoded once more than it was encoded. -/
theorem c215_entity_disproved :
    (match again oneDay noLibrary (.reply ⟨some ['1'], .errorsAndData [] (.wellKnown (.yangSchema "pattern \"&lt;.*\";".toList))⟩) with
     | some (.ok (.reply ⟨_, .errorsAndData _ (.wellKnown (.yangSchema t))⟩)) => decide (t = "pattern \"<.*\";".toList) | _ => false) = true := by decide +kernel

/-! ## C218 -/

/-- a capability that is a name without parameters, and does not begin like those that have some -/
def PlainUri (t : Text) : Prop := '?' ∉ t ∧ nameUrl.isPrefixOf t = false ∧ nameLibrary10.isPrefixOf t = false ∧ nameLibrary11.isPrefixOf t = false

theorem read_plain {D : Type} (dates : Dates D) {t : Text} (h : PlainUri t) : ∃ c, Cap.read dates t = some c := by
  obtain ⟨h1, h2, h3, h4⟩ := h
  unfold Cap.read
  cases exactCap (Verif.Collector.trim t) with
  | some c => exact ⟨c, rfl⟩
  | none =>
    have hq : Verif.Collector.splitOnce '?' (Verif.Collector.trim t) = none := by
      cases hs : Verif.Collector.splitOnce '?' (Verif.Collector.trim t) with
      | none => rfl
      | some x =>
        obtain ⟨a, b⟩ := x
        have hm : '?' ∈ Verif.Collector.trim t := by rw [(splitOnce_some hs).1]; simp
        have : ∀ {l : Text} {c : Char}, c ∈ Verif.Collector.trimStart l → c ∈ l := fun {l c} h => (List.dropWhile_sublist _).subset h
        unfold Verif.Collector.trim at hm
        exact absurd (this (List.mem_reverse.1 (this (List.mem_reverse.1 hm)))) h1
    refine ⟨.custom t, ?_⟩
    unfold readModule
    simp only [h2, h3, h4, Bool.false_eq_true, if_false, hq, ite_self]

/-- C218, in part: a hello whose capabilities are names without parameters is accepted, whatever the names are, and has as many capabilities as it says. -/
theorem c218_hello_accepted_partial {D Y : Type} (dates : Dates D) (lib : Library Y) (ts : List Text) (id : Option UInt32) (h : ∀ t ∈ ts, PlainUri t) :
    ∃ hs : List (Text × Cap D), hs.map (·.1) = ts ∧ run (readMessage dates lib) (annotate [] (helloDoc hs id)) = .ok (.hello ⟨id, hs.map (·.2)⟩) := by
  have : ∃ hs : List (Text × Cap D), hs.map (·.1) = ts ∧ ∀ c ∈ hs, Cap.read dates c.1 = some c.2 := by
    clear id
    induction ts with
    | nil => exact ⟨[], rfl, by simp⟩
    | cons t ts ih =>
      obtain ⟨hs, e, hr⟩ := ih fun x hx => h x (List.mem_cons_of_mem _ hx)
      obtain ⟨c, hc⟩ := read_plain dates (h t List.mem_cons_self)
      refine ⟨(t, c) :: hs, by simp [e], ?_⟩
      intro x hx
      rcases List.mem_cons.1 hx with rfl | hx
      · exact hc
      · exact hr x hx
  obtain ⟨hs, e, hr⟩ := this
  exact ⟨hs, e, read_helloDoc dates lib id hr⟩

example : PlainUri "urn:ietf:params:netconf:capability:new:1.0".toList ∧ PlainUri " some thing ".toList := by unfold PlainUri; decide +kernel

/-- C218 does not hold of a hello with a capability the library knows, with a scheme it does not: all of it is refused. -/
theorem c218_scheme_disproved :
    (match run (readMessage oneDay noLibrary) (annotate [] (helloDoc (D := Unit) [("urn:ietf:params:netconf:base:1.1".toList, .base11), ("urn:ietf:params:netconf:capability:url:1.0?scheme=tftp".toList, .base11)] (some 1))) with
     | .err .invalidValue => true | _ => false) = true := by decide +kernel

/-- Nor of one with a parameter that comes without the name of a module. -/
theorem c218_parameter_disproved :
    (match run (readMessage oneDay noLibrary) (annotate [] (helloDoc (D := Unit) [("urn:ietf:params:netconf:base:1.1".toList, .base11), ("http://example.com/a?revision=2024-01-31".toList, .base11)] (some 1))) with
     | .err .invalidValue => true | _ => false) = true := by decide +kernel

/-! ## C219 -/

/-- C219, in part: what is written of any hello, of any request with well formed content, and of any reply with well formed content whose errors have no `&` and `<` in their texts, is a well formed document. -/
theorem c219_well_formed_partial {D Y : Type} (dates : Dates D) (lib : Library Y) :
    (∀ h : Hello D, ∃ rs, output (writeHello dates h) .new = some rs ∧ WellFormed rs) ∧
    (∀ r : Rpc, RpcFormed r.operation → ∃ rs, output (writeRpc r) .new = some rs ∧ WellFormed rs) ∧
    (∀ (id : Option Text) (es : List RpcError) (c : List Raw), (∀ e ∈ es, ErrorClear e) → balanced [] c = true →
      (∃ rs, output (writeReply lib ⟨id, .errorsAndData es (.raw c)⟩) .new = some rs ∧ WellFormed rs) ∧
      (∃ rs, output (writeReply lib ⟨id, .errorsAndData es (.wellKnown (.data c))⟩) .new = some rs ∧ WellFormed rs)) ∧
    (∀ (id : Option Text) (es : List RpcError) (t : Text), (∀ e ∈ es, ErrorClear e) →
      ∃ rs, output (writeReply lib ⟨id, .errorsAndData es (.wellKnown (.yangSchema t))⟩) .new = some rs ∧ WellFormed rs) ∧
    ∀ id : Option Text, ∃ rs, output (writeReply lib ⟨id, .ok⟩) .new = some rs ∧ WellFormed rs := by
  have errs : ∀ es : List RpcError, (∀ e ∈ es, ErrorClear e) → Bal (es.flatMap errorRaws) := fun es h => bal_flatMap es fun e he => bal_error (h e he)
  refine ⟨?_, ?_, ?_, ?_, ?_⟩
  · intro h
    obtain ⟨rs, h1, h2⟩ := output_hello dates h
    refine ⟨rs, h1, ⟨none, "hello"⟩, [⟨⟨none, "xmlns"⟩, some nsNetconf⟩], elem "capabilities" (h.capabilities.flatMap fun c => elem "capability" (written (c.show' dates))) ++
      optRaws (fun n : UInt32 => elem "session-id" (written (decimal n.toNat))) h.sessionId, ?_, ?_⟩
    · rw [h2]; unfold helloRaws; rw [List.append_assoc]
    · exact balanced_of_bal (bal_append (bal_elem (bal_flatMap _ fun c _ => bal_elem (bal_written _))) (bal_opt (fun _ => bal_elem (bal_written _)) _))
  · intro r h
    refine ⟨_, output_rpc r, _, _, _, rfl, ?_⟩
    cases ho : r.operation with
    | raw c => rw [ho] at h; exact h
    | wellKnown o => rw [ho] at h; exact balanced_of_bal (bal_op h)
  · intro id es c he hc
    exact ⟨⟨_, output_reply lib id es (.raw c), _, _, _, rfl, balanced_of_bal (bal_append (errs es he) (bal_iff.2 hc))⟩,
      ⟨_, output_reply lib id es (.wellKnown (.data c)), _, _, _, rfl, balanced_of_bal (bal_append (errs es he) (bal_elem (bal_iff.2 hc)))⟩⟩
  · intro id es t he
    refine ⟨_, output_reply lib id es (.wellKnown (.schema t)), _, _, _, rfl, balanced_of_bal (bal_append (errs es he) ?_)⟩
    exact Bal.tag _ _ (bal_written t) .nil
  · intro id
    exact ⟨_, output_ok lib id, _, _, _, rfl, rfl⟩

example : RpcFormed (.wellKnown (.get (.subtree nestedConfig))) ∧ ErrorClear ⟨.rpc, .tooBig, .error, none, none, some "much > more".toList, none⟩ := by
  refine ⟨by show balanced [] nestedConfig = true; decide +kernel, ?_, ?_, ?_, ?_⟩
  · intro t h; simp at h
  · intro t h; simp at h
  · intro t h; injection h with h; subst h; decide +kernel
  · intro vs h; simp at h

/-- C219 does not hold of a reply with an error whose message has markup in it. -/
theorem c219_error_message_disproved :
    (match output (writeReply noLibrary ⟨none, .errorsAndData [⟨.rpc, .tooBig, .error, none, none, some "1 < 2".toList, none⟩] (.raw [])⟩) .new with
     | some rs => !balanced [] rs | none => false) = true := by decide +kernel

end Verif.Props
