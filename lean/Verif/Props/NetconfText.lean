import Verif.NetconfXml.SpecLemmas
/-!
# C206, C207: texts in messages of NETCONF
-/
namespace Verif.Props
open Verif.Xml
open Verif.Collector (Text)

/-- C206. Any text at all that is written in an element is what XML says the text of the element is, and what the library reads of the element. -/
theorem c206_text_back (name : String) (t : Text) :
    said (written t) = some t ∧ run (readText name) (annotate [] (element name (written t))) = .ok t := by
  refine ⟨said_written t, readText_said name (said_written t) ?_⟩
  intro r hr
  have key : ∀ (t acc : Text), Raw.ref r ∈ lex none acc (escape t) → (predefined r).isSome := by
    intro t
    induction t with
    | nil => intro acc h; simp only [escape, lex, textOf] at h; split at h <;> simp at h
    | cons c t ih =>
      intro acc h
      have one : ∀ (x : Text), (∀ y ∈ x, y ≠ ';' ∧ y ≠ '&' ∧ y ≠ '<') → (predefined x).isSome → Raw.ref r ∈ lex none acc ('&' :: (x ++ ';' :: escape t)) → (predefined r).isSome := by
        intro x hx hp hm
        have : lex none acc ('&' :: (x ++ ';' :: escape t)) = textOf acc ++ .ref x :: lex none [] (escape t) := by
          show textOf acc ++ lex (some []) [] (x ++ ';' :: escape t) = _
          rw [lex_ref _ _ _ hx]; simp
        rw [this] at hm
        rcases List.mem_append.1 hm with hm | hm
        · unfold textOf at hm; split at hm <;> simp at hm
        · rcases List.mem_cons.1 hm with hm | hm
          · injection hm with e; rw [e]; exact hp
          · exact ih _ hm
      by_cases h1 : c = '<'
      · subst h1; exact one ['l', 't'] (by decide) rfl h
      by_cases h2 : c = '>'
      · subst h2; exact one ['g', 't'] (by decide) rfl h
      by_cases h3 : c = '&'
      · subst h3; exact one ['a', 'm', 'p'] (by decide) rfl h
      by_cases h4 : c = '\''
      · subst h4; exact one ['a', 'p', 'o', 's'] (by decide) rfl h
      by_cases h5 : c = '"'
      · subst h5; exact one ['q', 'u', 'o', 't'] (by decide) rfl h
      rw [escape_other _ h1 h2 h3 h4 h5, lex_char _ _ h3 h1] at h
      exact ih _ h
  exact key t [] hr

/-- the same for a message: the URL of an `edit-config` is read back whatever it is -/
theorem c206_url_back {D Y : Type} (dates : Dates D) (lib : Library Y) (target : Target) (op : DefaultOp) (test : Option TestOption) (error : Option ErrorOption) (t : Text) :
    again dates lib (.rpc ⟨['1'], .wellKnown (.editConfig target op test error (.url t))⟩) = some (.ok (.rpc ⟨['1'], .wellKnown (.editConfig target op test error (.url t))⟩)) :=
  again_rpc dates lib ⟨by simp [OneLine], show utf8Length ['1'] ≤ 4095 by decide, trivial⟩

/-- text with all the characters that have a meaning in XML -/
example : run (readText "url") (annotate [] [.start ⟨none, "url"⟩ [⟨⟨none, "xmlns"⟩, some nsNetconf⟩], .text "a".toList, .ref "lt".toList, .text "b".toList, .ref "amp".toList, .text "c]]".toList, .ref "gt".toList,
    .close ⟨none, "url"⟩]) = .ok "a<b&c]]>".toList := by decide +kernel

/-- C207, in part: text of another program is read as XML says, as long as the references in it are the five that XML predefines. -/
theorem c207_text_as_said_partial (name : String) {content : List Raw} {v : Text} (h : said content = some v) (hr : ∀ r, Raw.ref r ∈ content → (predefined r).isSome) :
    run (readText name) (annotate [] (element name content)) = .ok v := readText_said name h hr

/-- text in several pieces, with a comment and a CDATA section -/
example : said [.text "a ".toList, .comment "x".toList, .ref "amp".toList, .cdata "<&>".toList] = some "a &<&>".toList ∧
    ∀ r, Raw.ref r ∈ [Raw.text "a ".toList, .comment "x".toList, .ref "amp".toList, .cdata "<&>".toList] → (predefined r).isSome := by
  refine ⟨by decide +kernel, fun r hr => ?_⟩
  simp at hr; subst hr; decide

/-- C207 does not hold of character references: `&#60;` is the character `<` by XML, and the text `#60` for the library. -/
theorem c207_character_references_disproved :
    said [.text "a ".toList, .ref "#60".toList, .text " b".toList] = some "a < b".toList ∧
    run (readText "url") (annotate [] (element "url" [.text "a ".toList, .ref "#60".toList, .text " b".toList])) = .ok "a #60 b".toList := by decide +kernel

/-- Nor is a reference to something that is not declared an error, as XML demands: it is read as its name. -/
theorem c207_undeclared_references_disproved :
    said [.ref "nbsp".toList] = none ∧ run (readText "url") (annotate [] (element "url" [.ref "nbsp".toList])) = .ok "nbsp".toList := by decide +kernel

end Verif.Props
