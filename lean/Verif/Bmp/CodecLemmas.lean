import Verif.Bmp.Codec
import Verif.Bmp.FrameLemmas
/-!
# Lemmas about the BMP codec
-/
namespace Verif.Bmp
open Verif Bgp CParser

/-- the header at the start of the buffer is there and names a message -/
def Headed (b : Bytes) : Prop := 5 ≤ b.length ∧ (∃ v, b.head? = some v ∧ (Version.ofCode v).isSome) ∧ 5 ≤ (declared b).toNat

/-- `in_message` is set only once the header has been looked at -/
def Ready (s : Codec) (b : Bytes) : Prop := s.inMessage = true → Headed b

theorem head?_append {b : Bytes} {v : UInt8} (h : b.head? = some v) (more : Bytes) : (b ++ more).head? = some v := by
  cases b with
  | nil => simp at h
  | cons x xs => simpa using h

theorem declared_append {b : Bytes} (h : 5 ≤ b.length) (more : Bytes) : declared (b ++ more) = declared b := by
  unfold declared
  rw [List.drop_append_of_le_length (by omega), List.take_append_of_le_length (by simp; omega)]

theorem Headed.append {b : Bytes} (h : Headed b) (more : Bytes) : Headed (b ++ more) := by
  obtain ⟨h1, ⟨v, h2, h3⟩, h4⟩ := h
  exact ⟨by simp; omega, ⟨v, head?_append h2 more, h3⟩, by rw [declared_append h1]; exact h4⟩

theorem Ready.append {s : Codec} {b : Bytes} (h : Ready s b) (more : Bytes) : Ready s (b ++ more) :=
  fun hs => (h hs).append more

/-! ## The codec without `in_message` -/

/-- what `decode` does, apart from the flag `in_message` -/
def decode0 (ord : Nat → Order) : Decode (Peers × Nat) BmpErr BmpMsg := fun s b =>
  if 5 ≤ b.length then
    match b.head? with
    | none => (.wait, s, b)
    | some v =>
      if (Version.ofCode v).isNone then (.out (.err (.version 0 v)), s, b.drop 1)
      else
        let n := declared b
        if n.toNat < 5 then (.out (.err (.length 1 n)), s, b.drop 5)
        else if b.length < n.toNat then (.wait, s, b)
        else
          let x := Codec.frame (ord s.2) ⟨false, s.1, s.2⟩ (b.take n.toNat)
          (.out x.1, (x.2.peers, x.2.sets), b.drop n.toNat)
  else (.wait, s, b)

theorem head?_some {b : Bytes} (h : 5 ≤ b.length) : ∃ v, b.head? = some v := by
  cases b with
  | nil => simp at h
  | cons x xs => exact ⟨x, rfl⟩

theorem frame_flag (ord : Order) (s : Codec) (f : Bytes) :
    s.frame ord f = Codec.frame ord ⟨false, s.peers, s.sets⟩ f ∧ (s.frame ord f).2.inMessage = false := by
  unfold Codec.frame
  simp only
  split <;> simp

/-- `decode` in the cases that occur: either the flag is as it should be, or the call panics -/
theorem decode_sim (ord : Nat → Order) {s s' : Codec} {b b' : Bytes} {x : Dec BmpErr BmpMsg} (hr : Ready s b)
    (h : Codec.decode ord s b = (x, s', b')) :
    decode0 ord (s.peers, s.sets) b = (x, (s'.peers, s'.sets), b') ∧ Ready s' b' ∧
      (x = .wait → s'.inMessage = decide (5 ≤ b'.length)) := by
  unfold Codec.decode at h
  unfold decode0
  by_cases h5 : 5 ≤ b.length
  · obtain ⟨v, hv⟩ := head?_some h5
    rw [if_pos (by simp [h5])] at h
    rw [if_pos h5]
    rw [hv] at h ⊢
    simp only at h ⊢
    by_cases hn : (Version.ofCode v).isNone
    · rw [if_pos hn] at h ⊢
      simp only [Prod.mk.injEq] at h
      obtain ⟨rfl, rfl, rfl⟩ := h
      refine ⟨rfl, ?_, by simp⟩
      intro hs
      obtain ⟨_, ⟨w, hw, hw'⟩, _⟩ := hr hs
      rw [hv] at hw
      obtain rfl := Option.some.inj hw
      simp at hn hw'
      simp [hn] at hw'
    · rw [if_neg hn] at h ⊢
      rw [if_neg (by omega)] at h
      by_cases hd : (declared b).toNat < 5
      · rw [if_pos hd] at h ⊢
        simp only [Prod.mk.injEq] at h
        obtain ⟨rfl, rfl, rfl⟩ := h
        exact ⟨rfl, by intro hs; simp at hs, by simp⟩
      · rw [if_neg hd] at h ⊢
        by_cases hl : b.length < (declared b).toNat
        · rw [if_pos hl] at h ⊢
          simp only [Prod.mk.injEq] at h
          obtain ⟨rfl, rfl, rfl⟩ := h
          refine ⟨rfl, fun _ => ⟨h5, ⟨v, hv, ?_⟩, by omega⟩, by simp [h5]⟩
          cases hq : Version.ofCode v
          · simp [hq] at hn
          · rfl
        · rw [if_neg hl] at h ⊢
          obtain ⟨hf, hf'⟩ := frame_flag (ord s.sets) s (b.take (declared b).toNat)
          simp only [Prod.mk.injEq] at h
          obtain ⟨rfl, rfl, rfl⟩ := h
          refine ⟨by rw [hf], by intro hs; rw [hf'] at hs; simp at hs, by simp⟩
  · have hs : s.inMessage = false := by
      cases hs : s.inMessage
      · rfl
      · exact absurd (hr hs).1 h5
    rw [if_neg (by simp [hs, h5])] at h
    rw [if_neg h5]
    simp only [Prod.mk.injEq] at h
    obtain ⟨rfl, rfl, rfl⟩ := h
    exact ⟨rfl, hr, by simp [hs, h5]⟩

theorem decode0_local (ord : Nat → Order) : Local (decode0 ord) where
  wait := by
    intro s b s' b' h
    unfold decode0 at h
    split at h
    · split at h
      · simp only [Prod.mk.injEq, true_and] at h; exact ⟨h.1.symm, h.2.symm⟩
      · simp only at h
        split at h
        · simp at h
        · split at h
          · simp at h
          · split at h
            · simp only [Prod.mk.injEq, true_and] at h; exact ⟨h.1.symm, h.2.symm⟩
            · simp at h
    · simp only [Prod.mk.injEq, true_and] at h; exact ⟨h.1.symm, h.2.symm⟩
  out := by
    intro s b x s' b' h more
    unfold decode0 at h ⊢
    by_cases h5 : 5 ≤ b.length
    · obtain ⟨v, hv⟩ := head?_some h5
      rw [if_pos h5, hv] at h
      rw [if_pos (by simp; omega), head?_append hv]
      simp only [declared_append h5] at h ⊢
      by_cases hn : (Version.ofCode v).isNone
      · rw [if_pos hn] at h ⊢
        simp only [Prod.mk.injEq, Dec.out.injEq] at h ⊢
        obtain ⟨rfl, rfl, rfl⟩ := h
        exact ⟨rfl, rfl, List.drop_append_of_le_length (by omega)⟩
      · rw [if_neg hn] at h ⊢
        by_cases hd : (declared b).toNat < 5
        · rw [if_pos hd] at h ⊢
          simp only [Prod.mk.injEq, Dec.out.injEq] at h ⊢
          obtain ⟨rfl, rfl, rfl⟩ := h
          exact ⟨rfl, rfl, List.drop_append_of_le_length (by omega)⟩
        · rw [if_neg hd] at h ⊢
          by_cases hl : b.length < (declared b).toNat
          · rw [if_pos hl] at h; simp at h
          · rw [if_neg hl] at h
            rw [if_neg (by simp; omega), List.take_append_of_le_length (by omega), List.drop_append_of_le_length (by omega)]
            simp only [Prod.mk.injEq, Dec.out.injEq] at h ⊢
            obtain ⟨rfl, rfl, rfl⟩ := h
            exact ⟨rfl, rfl, rfl⟩
    · rw [if_neg h5] at h; simp at h

/-! ## Runs -/

theorem drains_sim (ord : Nat → Order) {s s' : Codec} {b b' : Bytes} {os : List (Res BmpErr BmpMsg)} (hr : Ready s b)
    (h : Drains (Codec.decode ord) s b os s' b') :
    Drains (decode0 ord) (s.peers, s.sets) b os (s'.peers, s'.sets) b' ∧ Ready s' b' ∧ s'.inMessage = decide (5 ≤ b'.length) := by
  induction h with
  | wait hw =>
    obtain ⟨h1, h2, h3⟩ := decode_sim ord hr hw
    exact ⟨.wait h1, h2, h3 rfl⟩
  | item hi hx _ ih =>
    obtain ⟨h1, h2, _⟩ := decode_sim ord hr hi
    obtain ⟨h4, h5, h6⟩ := ih h2
    exact ⟨.item h1 hx h4, h5, h6⟩

theorem drains_sim' (ord : Nat → Order) {t t' : Peers × Nat} {b b' : Bytes} {os : List (Res BmpErr BmpMsg)}
    (h : Drains (decode0 ord) t b os t' b') {s : Codec} (ht : t = (s.peers, s.sets)) (hr : Ready s b) :
    Drains (Codec.decode ord) s b os ⟨decide (5 ≤ b'.length), t'.1, t'.2⟩ b' := by
  induction h generalizing s with
  | @wait t b t' b' hw =>
    subst ht
    rcases hd : Codec.decode ord s b with ⟨x, s1, b1⟩
    obtain ⟨h1, h2, h3⟩ := decode_sim ord hr hd
    rw [hw] at h1
    simp only [Prod.mk.injEq] at h1
    obtain ⟨rfl, rfl, rfl⟩ := h1
    rw [← h3 rfl]
    exact .wait hd
  | @item t b x t1 b1 os t' b' hi hx _ ih =>
    subst ht
    rcases hd : Codec.decode ord s b with ⟨x', s1, b1'⟩
    obtain ⟨h1, h2, h3⟩ := decode_sim ord hr hd
    rw [hi] at h1
    simp only [Prod.mk.injEq] at h1
    obtain ⟨rfl, rfl, rfl⟩ := h1
    exact .item hd hx (ih rfl h2)

theorem drains_iff (ord : Nat → Order) {s s' : Codec} {b b' : Bytes} {os : List (Res BmpErr BmpMsg)} (hr : Ready s b) :
    Drains (Codec.decode ord) s b os s' b' ↔
      Drains (decode0 ord) (s.peers, s.sets) b os (s'.peers, s'.sets) b' ∧ s'.inMessage = decide (5 ≤ b'.length) := by
  constructor
  · intro h; obtain ⟨h1, _, h3⟩ := drains_sim ord hr h; exact ⟨h1, h3⟩
  · rintro ⟨h1, h2⟩
    have := drains_sim' ord h1 rfl hr
    rw [← h2] at this
    exact this

theorem feeds_sim (ord : Nat → Order) {s s' : Codec} {b b' : Bytes} {cs : List Bytes} {os : List (Res BmpErr BmpMsg)}
    (hr : Ready s b) (hm : s.inMessage = decide (5 ≤ b.length)) :
    Feeds (Codec.decode ord) s b cs os s' b' ↔
      Feeds (decode0 ord) (s.peers, s.sets) b cs os (s'.peers, s'.sets) b' ∧ s'.inMessage = decide (5 ≤ b'.length) := by
  constructor
  · intro h
    induction h with
    | nil => exact ⟨.nil, hm⟩
    | cons h t ih =>
      obtain ⟨h1, h2, h3⟩ := drains_sim ord (hr.append _) h
      obtain ⟨h4, h5⟩ := ih h2 h3
      exact ⟨.cons h1 h4, h5⟩
  · rintro ⟨h, h'⟩
    generalize ht : (s.peers, s.sets) = t at h
    generalize ht' : (s'.peers, s'.sets) = t' at h
    induction h generalizing s with
    | nil =>
      subst ht
      simp only [Prod.mk.injEq] at ht'
      have : s' = s := by
        cases s; cases s'
        simp only at *
        rw [ht'.1, ht'.2, hm, h']
      rw [this]; exact .nil
    | @cons t b c cs os t1 b1 os' t' b' h1 _ ih =>
      subst ht
      have := drains_sim' ord h1 rfl (hr.append _)
      obtain ⟨_, h5, _⟩ := drains_sim ord (hr.append _) this
      exact .cons this (ih h5 rfl h' rfl ht')

end Verif.Bmp
