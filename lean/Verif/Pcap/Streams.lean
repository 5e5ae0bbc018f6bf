import Verif.Pcap.Runs
/-!
# Payloads as streams
-/
namespace Verif.Pcap
open Verif Collector

variable {σ ε α J : Type}

/-! ## Decoders that come to an end -/

/-- what is known of a decoder: `C` holds before each call, `R` of what is kept between packets, `P` of payloads -/
structure Tame (d : Decode σ ε α) (C R : σ → Bytes → Prop) (P : Bytes → Prop) : Prop where
  more : ∀ s b p, R s b → P p → C s (b ++ p)
  empty : ∀ s, C s [] → R s []
  wait : ∀ s b s' b', C s b → d s b = (.wait, s', b') → R s' b'
  ok : ∀ s b x s' b', C s b → d s b = (.out (.ok x), s', b') → C s' b' ∧ b'.length < b.length
  err : ∀ s b e s' b', C s b → d s b = (.out (.err e), s', b') → R s' []

theorem decodeBuffer_nil (d : Decode σ ε α) (s : σ) : decodeBuffer d s [] = ([], .done, s, []) := by
  rw [decodeBuffer]; simp

theorem decodeBuffer_step (d : Decode σ ε α) (s : σ) {b : Bytes} (hb : b ≠ []) :
    decodeBuffer d s b =
      match d s b with
      | (.wait, s', b') => ([], .done, s', b')
      | (.out (.ok x), s', b') =>
        if b'.length < b.length then (.ok x :: (decodeBuffer d s' b').1, (decodeBuffer d s' b').2)
        else ([.ok x], .stuck, s', b')
      | (.out (.err e), s', _) => ([.err e], .done, s', [])
      | (.out (.fault _), s', b') => ([], .panic, s', b') := by
  rw [decodeBuffer, if_neg hb]
  rcases d s b with ⟨_ | x | e | f, s', b'⟩
  · rfl
  · rfl
  · rfl
  · rfl

/-- decoding a payload ends with the buffer in order, or with a panic of the decoder -/
theorem tame_buffer {d : Decode σ ε α} {C R : σ → Bytes → Prop} {P : Bytes → Prop} (ht : Tame d C R P) (s : σ) (b : Bytes) (hc : C s b) :
    ((decodeBuffer d s b).2.1 = .done ∧ R (decodeBuffer d s b).2.2.1 (decodeBuffer d s b).2.2.2) ∨
    ((decodeBuffer d s b).2.1 = .panic ∧ ∃ s1 b1 f s2 b2, C s1 b1 ∧ d s1 b1 = (.out (.fault f), s2, b2)) := by
  generalize hn : b.length = n
  induction n using Nat.strongRecOn generalizing s b with
  | _ n ih =>
    by_cases hb : b = []
    · subst hb; rw [decodeBuffer_nil]; exact .inl ⟨rfl, ht.empty s hc⟩
    · rw [decodeBuffer_step d s hb]
      rcases hd : d s b with ⟨_ | x | e | f, s', b'⟩
      · exact .inl ⟨rfl, ht.wait _ _ _ _ hc hd⟩
      · obtain ⟨h1, h2⟩ := ht.ok _ _ _ _ _ hc hd
        simp only
        rw [if_pos h2]
        exact ih b'.length (by omega) s' b' h1 rfl
      · exact .inl ⟨rfl, ht.err _ _ _ _ _ hc hd⟩
      · exact .inr ⟨rfl, s, b, f, s', b', hc, hd⟩

/-- a run never gets stuck; it panics only when the decoder does -/
theorem tame_run {h : Handler σ ε α J} {C R : σ → Bytes → Prop} {P : Bytes → Prop} (ht : Tame h.dec C R P) (is : List (Nat × Item)) (t : Peers σ)
    (hr : ∀ k, R (h.entry t k).1 (h.entry t k).2) (hp : ∀ x ∈ is, h.takes x.2 = true → P x.2.payload) :
    (h.decodeAll is t).2 = .done ∨
    ((h.decodeAll is t).2 = .panic ∧ ∃ s1 b1 f s2 b2, C s1 b1 ∧ h.dec s1 b1 = (.out (.fault f), s2, b2)) := by
  induction is generalizing t with
  | nil => exact .inl rfl
  | cons x is ih =>
    obtain ⟨n, i⟩ := x
    have hp' : ∀ x ∈ is, h.takes x.2 = true → P x.2.payload := fun x hx => hp x (List.mem_cons_of_mem _ hx)
    rw [Handler.decodeAll]
    cases hi : h.takes i with
    | false =>
      rw [decode_skip hi]
      exact ih t hr hp'
    | true =>
      rw [decode_take hi]
      have hc := ht.more _ _ _ (hr i.flow) (hp _ List.mem_cons_self hi)
      rcases tame_buffer ht _ _ hc with ⟨h1, h2⟩ | ⟨h1, h2⟩
      · rw [h1]
        refine ih _ ?_ hp'
        intro k
        rw [entry_put]
        split
        · exact h2
        · exact hr k
      · rw [h1]
        exact .inr ⟨rfl, h2⟩

/-! ## A stream in segments -/

/-- all results are messages -/
def AllOk (os : List (Res ε α)) : Prop := ∀ o ∈ os, o.isOk = true

/-- on an empty buffer there is nothing to decode -/
def EmptyWaits (d : Decode σ ε α) : Prop := ∀ s x s' b', d s [] = (x, s', b') → (x = .wait ∧ s' = s ∧ b' = []) ∨ ∃ f, x = .out (.fault f)

theorem decodeBuffer_drains {d : Decode σ ε α} (he : EmptyWaits d) (hprog : ∀ s b x s' b', d s b = (.out (.ok x), s', b') → b'.length < b.length)
    {s s' : σ} {b b' : Bytes} {os : List (Res ε α)} (h : Drains d s b os s' b') (hos : AllOk os) : decodeBuffer d s b = (os, .done, s', b') := by
  induction h with
  | @wait s b s' b' hw =>
    by_cases hb : b = []
    · subst hb
      rcases he _ _ _ _ hw with ⟨_, rfl, rfl⟩ | ⟨f, hf⟩
      · exact decodeBuffer_nil d _
      · simp at hf
    · rw [decodeBuffer_step d s hb, hw]
  | @item s b x s1 b1 os s' b' hi hx _ ih =>
    have hb : b ≠ [] := by
      rintro rfl
      rcases he _ _ _ _ hi with ⟨h1, _⟩ | ⟨f, hf⟩
      · simp at h1
      · simp only [Dec.out.injEq] at hf; subst hf; simp at hx
    have hok := hos x List.mem_cons_self
    cases x with
    | err e => simp at hok
    | fault f => simp at hok
    | ok y =>
      rw [decodeBuffer_step d s hb, hi]
      simp only
      rw [if_pos (hprog _ _ _ _ _ hi), ih fun o ho => hos o (List.mem_cons_of_mem _ ho)]

theorem AllOk.append {a b : List (Res ε α)} (h : AllOk (a ++ b)) : AllOk a ∧ AllOk b :=
  ⟨fun o ho => h o (List.mem_append_left _ ho), fun o ho => h o (List.mem_append_right _ ho)⟩

/-- packets of one flow with payloads that are the chunks of a stream -/
theorem decodeAll_feeds {h : Handler σ ε α J} (he : EmptyWaits h.dec) (hprog : ∀ s b x s' b', h.dec s b = (.out (.ok x), s', b') → b'.length < b.length)
    {k : Flow} (is : List (Nat × Item)) (t : Peers σ) (hk : ∀ x ∈ is, x.2.flow = k ∧ h.takes x.2 = true) {s s' : σ} {b b' : Bytes} {os : List (Res ε α)}
    (hent : h.entry t k = (s, b)) (hf : Feeds h.dec s b (is.map fun x => x.2.payload) os s' b') (hos : AllOk os) :
    (h.decodeAll is t).2 = .done ∧ (h.decodeAll is t).1.map (fun x => x.2.2) = os := by
  induction is generalizing t s b os with
  | nil =>
    cases hf
    exact ⟨rfl, rfl⟩
  | cons x is ih =>
    obtain ⟨n, i⟩ := x
    cases hf with
    | @cons _ _ _ _ os1 s1 b1 os2 _ _ h1 h2 =>
      obtain ⟨o1, o2⟩ := hos.append
      obtain ⟨rfl, hi⟩ := hk (n, i) List.mem_cons_self
      simp only at hent hi h1
      have hb := decodeBuffer_drains he hprog h1 o1
      rw [Handler.decodeAll, decode_take hi, hent, hb]
      simp only
      have := ih (put t i.flow (s1, b1)) (fun x hx => hk x (List.mem_cons_of_mem _ hx)) (by rw [entry_put, if_pos rfl]) h2 o2
      refine ⟨this.1, ?_⟩
      rw [List.map_append, this.2, List.map_map]
      congr 1
      exact List.map_id _

end Verif.Pcap
