import Verif.Props.NetconfMessages
import Verif.NetconfXml.EndsMessages
/-!
# C208: reading a message ends
-/
namespace Verif.Props
open Verif.Xml

/-- C208, in part: reading ends, with a message or an error, on every document in which some closing tag is behind each opening tag, well formed or not, and whose attributes are UTF-8;
if the code for the YANG library ends on such documents. -/
theorem c208_reading_ends_partial {D Y : Type} (dates : Dates D) {lib : Library Y} (hl : Safe lib.read) {rs : List Raw}
    (h : ∀ pre q as post, rs = pre ++ .start q as :: post → (∃ p, Raw.close p ∈ post) ∧ ∀ a ∈ as, a.value.isSome = true) :
    (∃ m, run (readMessage dates lib) (annotate [] rs) = .ok m) ∨ ∃ e, run (readMessage dates lib) (annotate [] rs) = .err e := by
  unfold run
  split
  · exact .inr ⟨_, rfl⟩
  · have := ((safe_message dates hl).sub (s := ⟨annotate [] rs, []⟩) (doc_annotate rs [] h)).2
    cases hr : (readMessage dates lib ⟨annotate [] rs, []⟩).1 with
    | ok m => exact .inl ⟨m, rfl⟩
    | err e => exact .inr ⟨e, rfl⟩
    | fault x => exact absurd hr (this x)

/-- So it does on every document that is well formed and UTF-8, and on every one that was made from one by leaving out or changing anything but the last closing tag. -/
theorem c208_closed_ends_partial {D Y : Type} (dates : Dates D) {lib : Library Y} (hl : Safe lib.read) (rs : List Raw) (q : QName) (hu : ∀ r ∈ rs, ∀ p as, r = Raw.start p as → ∀ a ∈ as, a.value.isSome = true) :
    (∃ m, run (readMessage dates lib) (annotate [] (rs ++ [.close q])) = .ok m) ∨ ∃ e, run (readMessage dates lib) (annotate [] (rs ++ [.close q])) = .err e := by
  refine c208_reading_ends_partial dates hl fun pre p as post e => ?_
  rcases List.eq_nil_or_concat post with rfl | ⟨post', r, rfl⟩
  · have := congrArg List.getLast? e
    simp at this
  · rw [List.concat_eq_append, ← List.cons_append, ← List.append_assoc] at e
    obtain ⟨e1, e2⟩ := List.append_inj' e rfl
    injection e2 with e2 _
    exact ⟨⟨q, by simp [e2]⟩, hu (.start p as) (by rw [e1]; simp) p as rfl⟩

example : Safe noLibrary.read := safe_raise _

/-- the closing tag of the capability is missing -/
example : (match run (readMessage oneDay noLibrary) (annotate [] ([.start ⟨none, "hello"⟩ (inSpace "urn:ietf:params:xml:ns:netconf:base:1.0"), .start ⟨none, "capabilities"⟩ [],
    .start ⟨none, "capability"⟩ [], .text "urn".toList] ++ [.close ⟨none, "hello"⟩])) with | .err .reader => true | _ => false) = true := by decide +kernel

/-- C208 does not hold of a document that ends in the middle: reading goes on forever. -/
theorem c208_truncated_disproved :
    (match run (readMessage oneDay noLibrary) (annotate [] [.start ⟨none, "hello"⟩ (inSpace "urn:ietf:params:xml:ns:netconf:base:1.0"), .start ⟨none, "capabilities"⟩ [], .start ⟨none, "capability"⟩ [], .text "urn".toList]) with | .fault .hang => true | _ => false) = true := by
  decide +kernel

/-- Nor does it hold of a tag with an attribute that is not UTF-8: reading panics. -/
theorem c208_attribute_disproved :
    (match run (readMessage oneDay noLibrary) (annotate [] (replyRaws (some ['1']) [.start ⟨none, "data"⟩ [], .start ⟨none, "a"⟩ [⟨⟨none, "x"⟩, none⟩], .close ⟨none, "a"⟩, .close ⟨none, "data"⟩])) with | .fault .panic => true | _ => false) = true := by
  decide +kernel

end Verif.Props
