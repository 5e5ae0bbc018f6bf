import Verif.Pcap.Wire
/-!
# The interfaces of sections
-/
namespace Verif.Pcap
open Verif

/-- the events since the last section began -/
def sinceSection : List Event → List Event → List Event
  | acc, [] => acc
  | _, .section :: es => sinceSection [] es
  | acc, e :: es => sinceSection (acc ++ [e]) es

/-- the link types of the interfaces of the section in which a capture of the next generation is after some of its events: interfaces are numbered
from zero in each section -/
def sectionLinks (es : List Event) : List Nat := linksIn (sinceSection [] es)

/-- what the event at a place is by the rules of captures of the next generation: `none` if it is no packet of an interface of its section -/
def meantAt (lib : Lib) (es : List Event) (k : Nat) : Option Item :=
  match es[k]? with
  | some (.enhanced i d c) =>
    match (sectionLinks (es.take k))[i]? with
    | some l =>
      match parsePacket lib (lib.link l d c) with
      | .ok x => x
      | _ => none
    | none => none
  | _ => none

/-- there is one section: nothing is announced before one begins -/
def OneSection (es : List Event) : Prop := ∀ k, es[k]? = some .section → linksIn (es.take k) = []

theorem sinceSection_none {es : List Event} (acc : List Event) (h : Event.section ∉ es) : sinceSection acc es = acc ++ es := by
  induction es generalizing acc with
  | nil => simp [sinceSection]
  | cons e es ih =>
    have := ih (acc ++ [e]) (fun hh => h (List.mem_cons_of_mem _ hh))
    cases e <;> simp_all [sinceSection]

theorem linksIn_append (a b : List Event) : linksIn (a ++ b) = linksIn a ++ linksIn b := by simp [linksIn]

/-- while no section begins after an interface, the links are those of the section -/
theorem links_since {es : List Event} (acc : List Event) (h : ∀ k, es[k]? = some .section → linksIn acc ++ linksIn (es.take k) = []) :
    linksIn (sinceSection acc es) = linksIn acc ++ linksIn es := by
  induction es generalizing acc with
  | nil => simp [sinceSection, linksIn]
  | cons e es ih =>
    by_cases he : e = .section
    · subst he
      have h0 := h 0 rfl
      have h1 : linksIn acc = [] := by simpa [linksIn] using h0
      rw [sinceSection, ih [] (by
        intro k hk
        have := h (k + 1) (by simpa using hk)
        rw [h1] at this
        simpa [linksIn, Event.link?] using this), h1]
      rfl
    · have hs : sinceSection acc (e :: es) = sinceSection (acc ++ [e]) es := by cases e <;> simp_all [sinceSection]
      rw [hs, ih (acc ++ [e]) (by
        intro k hk
        have := h (k + 1) (by simpa using hk)
        rw [List.take_succ_cons, show e :: es.take k = [e] ++ es.take k from rfl, linksIn_append] at this
        rw [linksIn_append, List.append_assoc]; exact this)]
      rw [show e :: es = [e] ++ es from rfl, linksIn_append, linksIn_append, List.append_assoc]

theorem sectionLinks_one {es : List Event} (h : OneSection es) (k : Nat) : sectionLinks (es.take k) = linksIn (es.take k) := by
  unfold sectionLinks
  rw [links_since]
  · simp [linksIn]
  · intro j hj
    have hlt : j < k := by
      rcases Nat.lt_or_ge j k with h | h
      · exact h
      · rw [List.getElem?_eq_none (by rw [List.length_take]; omega)] at hj; cases hj
    have h1 : es[j]? = some .section := by rw [List.getElem?_take_of_lt hlt] at hj; exact hj
    have := h j h1
    rw [List.take_take, Nat.min_eq_left (by omega)]
    simpa [linksIn] using this

end Verif.Pcap
