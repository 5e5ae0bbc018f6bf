import Verif.Core.Reader
/-!
# Stream decoders

`tokio_util::codec::Decoder::decode` called in a loop on a growing buffer. `FramedRead` itself is not modelled; it
appends what it reads to the buffer and calls `decode` until it returns `Ok(None)`.
-/
namespace Verif

/-- the outcome of one call of `decode`: `Ok(None)`, or an item, an error or a panic -/
inductive Dec (ε α : Type) where
  | wait
  | out (x : Res ε α)
  deriving Repr, DecidableEq

/-- `fn decode(&mut self, buf: &mut BytesMut) -> Result<Option<α>, ε>`: the state and the buffer afterwards -/
abbrev Decode (σ ε α : Type) := σ → Bytes → Dec ε α × σ × Bytes

variable {σ ε α : Type}

/-- calling `decode` until it asks for more: the items and errors it returned, the state and what is left in the buffer.
There is no derivation for a run that does not end or that panics. -/
inductive Drains (d : Decode σ ε α) : σ → Bytes → List (Res ε α) → σ → Bytes → Prop where
  | wait {s b s' b'} (h : d s b = (.wait, s', b')) : Drains d s b [] s' b'
  | item {s b x s1 b1 os s' b'} (h : d s b = (.out x, s1, b1)) (hx : x.isFault = false) (t : Drains d s1 b1 os s' b') :
      Drains d s b (x :: os) s' b'

/-- chunks arrive one after the other and are appended to the buffer, each time `decode` is called until it asks for
more -/
inductive Feeds (d : Decode σ ε α) : σ → Bytes → List Bytes → List (Res ε α) → σ → Bytes → Prop where
  | nil {s b} : Feeds d s b [] [] s b
  | cons {s b c cs os s1 b1 os' s' b'} (h : Drains d s (b ++ c) os s1 b1) (t : Feeds d s1 b1 cs os' s' b') :
      Feeds d s b (c :: cs) (os ++ os') s' b'

/-- `decode` looks only at the octets of the frame: more octets behind it change nothing; and asking for more leaves
everything as it is -/
structure Local (d : Decode σ ε α) : Prop where
  wait : ∀ {s b s' b'}, d s b = (.wait, s', b') → s' = s ∧ b' = b
  out : ∀ {s b x s' b'}, d s b = (.out x, s', b') → ∀ more, d s (b ++ more) = (.out x, s', b' ++ more)

theorem Drains.append {d : Decode σ ε α} (hd : Local d) {s s1 s' : σ} {b b1 b' more : Bytes} {os os' : List (Res ε α)}
    (h : Drains d s b os s1 b1) (h' : Drains d s1 (b1 ++ more) os' s' b') : Drains d s (b ++ more) (os ++ os') s' b' := by
  induction h with
  | wait hw =>
    obtain ⟨rfl, rfl⟩ := hd.wait hw
    exact h'
  | item hi hx _ ih => exact .item (hd.out hi more) hx (ih h')

theorem Drains.split {d : Decode σ ε α} (hd : Local d) {s s' : σ} {b b' more : Bytes} {os : List (Res ε α)}
    (h : Drains d s (b ++ more) os s' b') :
    ∃ os1 s1 b1 os2, Drains d s b os1 s1 b1 ∧ Drains d s1 (b1 ++ more) os2 s' b' ∧ os = os1 ++ os2 := by
  generalize hb : b ++ more = bm at h
  induction h generalizing b with
  | @wait s bm s' b' hw =>
    subst hb
    rcases hd1 : d s b with ⟨_ | x, s1, b1⟩
    · have := hd.wait hd1
      exact ⟨[], s, b, [], .wait (by rw [hd1, this.1, this.2]), .wait hw, rfl⟩
    · rw [hd.out hd1 more] at hw; simp at hw
  | @item s bm x s1 b1 os s' b' hi hx t ih =>
    subst hb
    rcases hd1 : d s b with ⟨_ | y, s2, b2⟩
    · have := hd.wait hd1
      exact ⟨[], s, b, x :: os, .wait (by rw [hd1, this.1, this.2]), .item hi hx t, rfl⟩
    · have hm := hd.out hd1 more
      rw [hi] at hm
      simp only [Prod.mk.injEq, Dec.out.injEq] at hm
      obtain ⟨rfl, rfl, rfl⟩ := hm
      obtain ⟨os1, s3, b3, os2, h1, h2, rfl⟩ := ih rfl
      exact ⟨x :: os1, s3, b3, os2, .item hd1 hx h1, h2, rfl⟩

/-- when it is done, `decode` asks for more -/
theorem Drains.waits {d : Decode σ ε α} (hd : Local d) {s s' : σ} {b b' : Bytes} {os : List (Res ε α)}
    (h : Drains d s b os s' b') : d s' b' = (.wait, s', b') := by
  induction h with
  | wait hw =>
    obtain ⟨rfl, rfl⟩ := hd.wait hw
    exact hw
  | item _ _ _ ih => exact ih

/-- however the octets are cut into chunks, the outcome is that of all of them at once -/
theorem feeds_iff {d : Decode σ ε α} (hd : Local d) {s s' : σ} {b b' : Bytes} {cs : List Bytes} {os : List (Res ε α)}
    (hb : d s b = (.wait, s, b)) : Feeds d s b cs os s' b' ↔ Drains d s (b ++ cs.flatten) os s' b' := by
  constructor
  · intro h
    induction h with
    | nil => simpa using Drains.wait hb
    | @cons s b c cs os s1 b1 os' s' b' h1 t ih =>
      have := h1.append hd (ih (h1.waits hd))
      simpa using this
  · intro h
    induction cs generalizing s b os with
    | nil =>
      simp only [List.flatten_nil, List.append_nil] at h
      cases h with
      | wait hw =>
        rw [hb] at hw
        simp only [Prod.mk.injEq, true_and] at hw
        obtain ⟨rfl, rfl⟩ := hw
        exact .nil
      | item hi => rw [hb] at hi; simp at hi
    | cons c cs ih =>
      rw [List.flatten_cons, ← List.append_assoc] at h
      obtain ⟨os1, s1, b1, os2, h1, h2, rfl⟩ := h.split hd
      exact .cons h1 (ih (h1.waits hd) h2)

/-- the outcome is determined by the input -/
theorem Drains.unique {d : Decode σ ε α} {s s1 s2 : σ} {b b1 b2 : Bytes} {os1 os2 : List (Res ε α)}
    (h1 : Drains d s b os1 s1 b1) (h2 : Drains d s b os2 s2 b2) : os1 = os2 ∧ s1 = s2 ∧ b1 = b2 := by
  induction h1 generalizing os2 with
  | wait hw =>
    cases h2 with
    | wait hw' =>
      rw [hw] at hw'
      simp only [Prod.mk.injEq, true_and] at hw'
      exact ⟨rfl, hw'.1, hw'.2⟩
    | item hi => rw [hw] at hi; simp at hi
  | item hi _ _ ih =>
    cases h2 with
    | wait hw' => rw [hi] at hw'; simp at hw'
    | item hi' _ t' =>
      rw [hi] at hi'
      simp only [Prod.mk.injEq, Dec.out.injEq] at hi'
      obtain ⟨rfl, rfl, rfl⟩ := hi'
      obtain ⟨rfl, h⟩ := ih t'
      exact ⟨rfl, h⟩

end Verif
