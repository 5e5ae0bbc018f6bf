import Verif.Core.Inv
import Verif.Bmp.FrameLemmas
import Verif.Bmp.HeaderLemmas
/-!
# Information elements are read without loss
-/
namespace Verif.Bmp
open Verif Bgp Parser

theorem TextKind.code_ofCode {c : UInt16} {k : TextKind} (h : TextKind.ofCode c = some k) : k.code = c := by
  unfold TextKind.ofCode at h
  repeat' split at h
  all_goals first | (obtain rfl := Option.some.inj h; simp [TextKind.code, *]) | simp at h

theorem InfoType.code_ofCode {c : UInt16} {t : InfoType} (h : InfoType.ofCode c = some t) : t.code = c := by
  unfold InfoType.ofCode at h
  split at h
  · obtain rfl := Option.some.inj h; exact TextKind.code_ofCode ‹_›
  · obtain ⟨n, hn, rfl⟩ := Option.map_eq_some_iff.1 h
    exact exp16_ofExp16 hn

theorem TermType.code_ofCode {c : UInt16} {t : TermType} (h : TermType.ofCode c = some t) : t.code = c := by
  unfold TermType.ofCode at h
  split at h
  · obtain rfl := Option.some.inj h; simp [TermType.code, *]
  split at h
  · obtain rfl := Option.some.inj h; simp [TermType.code, *]
  · obtain ⟨n, hn, rfl⟩ := Option.map_eq_some_iff.1 h
    exact exp16_ofExp16 hn

theorem restBytes_exact {ε : Type} {g : ParseError → ε} {r r' : Reader} {b : Bytes} (h : restBytes g r = (.ok b, r')) :
    b = r.buf ∧ r'.buf = [] := by
  simp only [restBytes, bind_eq_ok, getRemaining_eq_ok, mapErr_eq_ok, readBytes_eq_ok] at h
  obtain ⟨n, r1, ⟨rfl, rfl⟩, h1, h2, h3⟩ := h
  have : r'.buf.length = 0 := by have := congrArg List.length h1; simp only [List.length_append] at this; omega
  have := List.length_eq_zero_iff.1 this
  rw [this, List.append_nil] at h1
  exact ⟨h1.symm, this⟩

theorem info_exact {r r' : Reader} {i : Info} (h : parseInfo r = (.ok i, r')) : r.buf = i.write ++ r'.buf := by
  simp only [parseInfo, bind_eq_ok, mapErr_eq_ok, readU16_eq_ok, getOffset_eq_ok, ofOption_eq_ok, takeSlice_eq_ok,
    onSub_eq_ok', pure_eq_ok] at h
  obtain ⟨c, r1, ⟨hc, -⟩, _, _, ⟨-, rfl⟩, t, _, ⟨ht, rfl⟩, l, r2, ⟨hl, -⟩, d, r3, ⟨hd, hn, -, -⟩, x, _, ⟨hx, rfl⟩, rfl, rfl⟩ := h
  have key : x.1.value = d.buf ∧ x.1.type = t := by
    simp only [infoBody, bind_eq_ok, getOffset_eq_ok] at hx
    obtain ⟨_, _, ⟨-, rfl⟩, b, r4, hb, hx⟩ := hx
    have hb := (restBytes_exact hb).1
    cases t with
    | text k =>
      simp only [bind_eq_ok, ofOption_eq_ok, pure_eq_ok] at hx
      obtain ⟨s, _, ⟨hs, rfl⟩, e, -⟩ := hx
      rw [← e, ← hb]
      exact ⟨utf8_of_ofUtf8 hs, rfl⟩
    | experimental n =>
      simp only [pure_eq_ok] at hx
      rw [← hx.1, ← hb]; exact ⟨rfl, rfl⟩
  rw [hc, hl, hd]
  unfold Info.write
  rw [key.1, key.2, InfoType.code_ofCode ht, hn, UInt16.ofNat_toNat]
  simp

theorem termInfo_exact {r r' : Reader} {i : TermInfo} (h : parseTermInfo r = (.ok i, r')) : r.buf = i.write ++ r'.buf := by
  simp only [parseTermInfo, bind_eq_ok, mapErr_eq_ok, readU16_eq_ok, getOffset_eq_ok, ofOption_eq_ok, takeSlice_eq_ok,
    onSub_eq_ok'] at h
  obtain ⟨c, r1, ⟨hc, -⟩, _, _, ⟨-, rfl⟩, t, _, ⟨ht, rfl⟩, l, r2, ⟨hl, -⟩, d, r3, ⟨hd, hn, -, -⟩, x, _, ⟨hx, rfl⟩, h⟩ := h
  by_cases he : x.2.buf = []
  · rw [if_pos he] at h
    simp only [pure_eq_ok] at h
    obtain ⟨rfl, rfl⟩ := h
    have key : x.1.value = d.buf ∧ x.1.type = t := by
      cases t with
      | string =>
        simp only [termBody, bind_eq_ok, getOffset_eq_ok, ofOption_eq_ok, pure_eq_ok] at hx
        obtain ⟨_, _, ⟨-, rfl⟩, b, r4, hb, s, _, ⟨hs, rfl⟩, e, -⟩ := hx
        rw [← e, ← (restBytes_exact hb).1]
        exact ⟨utf8_of_ofUtf8 hs, rfl⟩
      | reason =>
        simp only [termBody, bind_eq_ok, getOffset_eq_ok, ofOption_eq_ok, pure_eq_ok, mapErr_eq_ok, readU16_eq_ok] at hx
        obtain ⟨c', r4, ⟨hb, -⟩, _, _, ⟨-, rfl⟩, s, _, ⟨hs, rfl⟩, e, e'⟩ := hx
        rw [← e, hb, e', he, List.append_nil]
        refine ⟨?_, rfl⟩
        unfold TermReason.ofCode at hs
        split at hs
        · obtain rfl := Option.some.inj hs; rfl
        · simp at hs
      | experimental n =>
        simp only [termBody, bind_eq_ok, pure_eq_ok] at hx
        obtain ⟨b, r4, hb, e, -⟩ := hx
        rw [← e, ← (restBytes_exact hb).1]; exact ⟨rfl, rfl⟩
    rw [hc, hl, hd]
    unfold TermInfo.write
    rw [key.1, key.2, TermType.code_ofCode ht, hn, UInt16.ofNat_toNat]
    simp
  · rw [if_neg he] at h
    simp at h

theorem many_exact {ε ε' α : Type} {p : Parser ε α} {w : α → Bytes} (f : ε → ε')
    (hp : ∀ r r' a, p r = (.ok a, r') → r.buf = w a ++ r'.buf) {r r' : Reader} {l : List α}
    (h : many (mapErr f p) r = (.ok l, r')) : r.buf = l.flatMap w := by
  refine parseAll_ok_induction (p := mapErr f p) (Q := fun r l _ => r.buf = l.flatMap w) (fun r hr => by simpa using hr) ?_ h
  intro r a r1 as r2 h1 _ _ ih
  rw [hp _ _ _ (mapErr_eq_ok.1 h1), ih, List.flatMap_cons]

end Verif.Bmp
