import Verif.Bmp.CodecLemmas
/-!
# C29, C30: framing of BMP streams
-/
namespace Verif.Props
open Verif Verif.Bmp

/-- the length in the common header at the start of the buffer: octets 1 to 4, the most significant first -/
def bmpLength (b : Bytes) : Nat :=
  16777216 * (b[1]?.getD 0).toNat + 65536 * (b[2]?.getD 0).toNat + 256 * (b[3]?.getD 0).toNat + (b[4]?.getD 0).toNat

/-- the version in the common header is one that is known -/
def bmpVersion (b : Bytes) : Prop := b[0]? = some 3 ∨ b[0]? = some 4

theorem bmp_declared_eq {b : Bytes} (h : 5 ≤ b.length) : (Bmp.declared b).toNat = bmpLength b := by
  match b, h with
  | v :: b1 :: b2 :: b3 :: b4 :: rest, _ =>
    unfold Bmp.declared bmpLength
    rw [show (List.drop 1 (v :: b1 :: b2 :: b3 :: b4 :: rest)).take 4 = [b1, b2, b3, b4] from rfl, u32of_toNat rfl]
    simp [beVal]; omega

theorem ofCode_iff {b : Bytes} {v : UInt8} (hv : b.head? = some v) : (Version.ofCode v).isNone = true ↔ ¬ bmpVersion b := by
  have h0 : b[0]? = some v := by cases b <;> simp_all
  unfold bmpVersion
  rw [h0]
  unfold Version.ofCode
  by_cases h3 : v = 3
  · simp [h3]
  · by_cases h4 : v = 4
    · simp [h4]
    · simp [h3, h4]

/-! ## Progress -/

/-- **C29 (waiting).** When the codec asks for more, the buffer and what it knows about peers are as before, and the
common header or the rest of the declared length is not buffered yet. -/
theorem c29_wait (ord : Nat → Order) (s s' : Bmp.Codec) (b b' : Bytes) (h : Bmp.Codec.decode ord s b = (.wait, s', b')) :
    b' = b ∧ s'.peers = s.peers ∧ (b.length < 5 ∨ (bmpVersion b ∧ b.length < bmpLength b)) := by
  unfold Bmp.Codec.decode at h
  split at h
  · cases hv : b.head? with
    | none => rw [hv] at h; simp at h
    | some v =>
      rw [hv] at h
      simp only at h
      by_cases hn : (Version.ofCode v).isNone = true
      · rw [if_pos hn] at h; simp at h
      rw [if_neg hn] at h
      by_cases h5 : b.length < 5
      · rw [if_pos h5] at h; simp at h
      rw [if_neg h5] at h
      by_cases hd : (Bmp.declared b).toNat < 5
      · rw [if_pos hd] at h; simp at h
      rw [if_neg hd] at h
      by_cases hl : b.length < (Bmp.declared b).toNat
      · rw [if_pos hl] at h
        simp only [Prod.mk.injEq, true_and] at h
        obtain ⟨rfl, rfl⟩ := h
        rw [ofCode_iff hv, Classical.not_not] at hn
        exact ⟨rfl, rfl, .inr ⟨hn, by rw [← bmp_declared_eq (by omega)]; exact hl⟩⟩
      · rw [if_neg hl] at h; simp at h
  · rename_i hc
    simp only [Prod.mk.injEq, true_and] at h
    obtain ⟨rfl, rfl⟩ := h
    refine ⟨rfl, rfl, .inl ?_⟩
    simp at hc
    omega

theorem bmp_out (ord : Nat → Order) {s s' : Bmp.Codec} {b b' : Bytes} {x : Res BmpErr BmpMsg}
    (h : Bmp.Codec.decode ord s b = (.out x, s', b')) :
    (x = .fault .panic ∧ b.length < 5 ∧ s.inMessage = true) ∨
    (∃ v, b[0]? = some v ∧ ¬ bmpVersion b ∧ x = .err (.version 0 v) ∧ b' = b.drop 1 ∧ s'.peers = s.peers) ∨
    (bmpVersion b ∧ 5 ≤ b.length ∧ bmpLength b < 5 ∧ x = .err (.length 1 (UInt32.ofNat (bmpLength b))) ∧ b' = b.drop 5 ∧ s'.peers = s.peers) ∨
    (bmpVersion b ∧ 5 ≤ bmpLength b ∧ bmpLength b ≤ b.length ∧ b' = b.drop (bmpLength b) ∧
      (x, s') = s.frame (ord s.sets) (b.take (bmpLength b))) := by
  unfold Bmp.Codec.decode at h
  split at h
  · rename_i hc
    cases hv : b.head? with
    | none =>
      rw [hv] at h
      simp only [Prod.mk.injEq, Dec.out.injEq] at h
      have hb : b = [] := by cases b <;> simp_all
      subst hb
      left
      refine ⟨h.1.symm, by simp, by simpa using hc⟩
    | some v =>
      rw [hv] at h
      simp only at h
      have h0 : b[0]? = some v := by cases b <;> simp_all
      by_cases hn : (Version.ofCode v).isNone = true
      · rw [if_pos hn] at h
        simp only [Prod.mk.injEq, Dec.out.injEq] at h
        obtain ⟨rfl, rfl, rfl⟩ := h
        exact .inr (.inl ⟨v, h0, (ofCode_iff hv).1 hn, rfl, rfl, rfl⟩)
      rw [if_neg hn] at h
      rw [ofCode_iff hv, Classical.not_not] at hn
      by_cases h5 : b.length < 5
      · rw [if_pos h5] at h
        simp only [Prod.mk.injEq, Dec.out.injEq] at h
        have hs : s.inMessage = true := by
          rcases Bool.eq_false_or_eq_true s.inMessage with h | h
          · exact h
          · simp [h] at hc; omega
        exact .inl ⟨h.1.symm, h5, hs⟩
      rw [if_neg h5] at h
      right; right
      have he := bmp_declared_eq (b := b) (by omega)
      by_cases hd : (Bmp.declared b).toNat < 5
      · rw [if_pos hd] at h
        simp only [Prod.mk.injEq, Dec.out.injEq] at h
        obtain ⟨rfl, rfl, rfl⟩ := h
        exact .inl ⟨hn, by omega, by omega, by rw [← he, UInt32.ofNat_toNat], rfl, rfl⟩
      rw [if_neg hd] at h
      by_cases hl : b.length < (Bmp.declared b).toNat
      · rw [if_pos hl] at h; simp at h
      · rw [if_neg hl] at h
        simp only [Prod.mk.injEq, Dec.out.injEq] at h
        obtain ⟨rfl, rfl, rfl⟩ := h
        rw [he] at *
        exact .inr ⟨hn, by omega, by omega, rfl, rfl⟩
  · simp at h

/-- **C29 (messages).** A message takes exactly its declared length off the buffer, and is what these octets say. -/
theorem c29_message (ord : Nat → Order) (s s' : Bmp.Codec) (b b' : Bytes) (m : BmpMsg)
    (h : Bmp.Codec.decode ord s b = (.out (.ok m), s', b')) :
    5 ≤ bmpLength b ∧ bmpLength b ≤ b.length ∧ b' = b.drop (bmpLength b) ∧
    (parseBmp (⟨b.take (bmpLength b), 0⟩, s.peers)).1 = .ok m := by
  rcases bmp_out ord h with ⟨h1, _⟩ | ⟨_, _, _, h1, _⟩ | ⟨_, _, _, h1, _⟩ | ⟨_, h1, h2, h3, h4⟩
  · simp at h1
  · simp at h1
  · simp at h1
  · refine ⟨h1, h2, h3, ?_⟩
    have h4 := congrArg Prod.fst h4
    simp only [Bmp.Codec.frame] at h4
    rw [h4]
    split <;> rename_i hp <;> rw [hp]

/-- **C29 (errors).** An error takes something off the buffer: one octet if the version is not known, the common header
if the declared length is less than the header, and otherwise exactly the declared length. -/
theorem c29_error (ord : Nat → Order) (s s' : Bmp.Codec) (b b' : Bytes) (e : BmpErr)
    (h : Bmp.Codec.decode ord s b = (.out (.err e), s', b')) :
    b'.length < b.length ∧
    (¬ bmpVersion b ∧ b' = b.drop 1 ∨
     bmpVersion b ∧ bmpLength b < 5 ∧ 5 ≤ b.length ∧ b' = b.drop 5 ∨
     bmpVersion b ∧ 5 ≤ bmpLength b ∧ bmpLength b ≤ b.length ∧ b' = b.drop (bmpLength b) ∧
      (parseBmp (⟨b.take (bmpLength b), 0⟩, s.peers)).1 = .err e) := by
  rcases bmp_out ord h with ⟨h1, _⟩ | ⟨v, h0, h1, _, h2, _⟩ | ⟨h1, h2, h3, _, h4, _⟩ | ⟨h0, h1, h2, h3, h4⟩
  · simp at h1
  · refine ⟨?_, .inl ⟨h1, h2⟩⟩
    rw [h2, List.length_drop]
    cases b
    · simp at h0
    · simp
  · exact ⟨by rw [h4, List.length_drop]; omega, .inr (.inl ⟨h1, h3, h2, h4⟩)⟩
  · refine ⟨by rw [h3, List.length_drop]; omega, .inr (.inr ⟨h0, h1, h2, h3, ?_⟩)⟩
    have h4 := congrArg Prod.fst h4
    simp only [Bmp.Codec.frame] at h4
    rw [h4]
    split <;> rename_i hp <;> rw [hp]

/-- 5 octets of header and 3 of a body that is no message: an error that takes 8 octets; the Initiation behind it is
decoded; then an octet that is no version, and a header whose length is 4 -/
example (ord : Nat → Order) : ∃ s', Drains (Bmp.Codec.decode ord) Bmp.Codec.new
    ([3, 0, 0, 0, 8, 9, 1, 1] ++ [4, 0, 0, 0, 6, 4] ++ [7] ++ [3, 0, 0, 0, 4] ++ [3, 0])
    [.err (.v3 (.undefined 5 9)), .ok (.v4 (.initiation [])), .err (.version 0 7), .err (.length 1 4)] s' [3, 0] :=
  ⟨⟨false, .empty, 1⟩, .item (s1 := ⟨false, .empty, 0⟩) (b1 := _) rfl rfl (.item (s1 := ⟨false, .empty, 1⟩) (b1 := _) rfl rfl
    (.item (s1 := ⟨false, .empty, 1⟩) (b1 := _) rfl rfl (.item (s1 := ⟨false, .empty, 1⟩) (b1 := _) rfl rfl (.wait rfl))))⟩

/-- calling `decode` until it asks for more (or panics) ends -/
inductive Ends {σ ε α : Type} (d : Decode σ ε α) : σ → Bytes → Prop where
  | wait {s b s' b'} (h : d s b = (.wait, s', b')) : Ends d s b
  | stop {s b x s' b'} (h : d s b = (.out x, s', b')) (hx : x.isFault = true) : Ends d s b
  | item {s b x s' b'} (h : d s b = (.out x, s', b')) (hx : x.isFault = false) (t : Ends d s' b') : Ends d s b

/-- **C29 (progress).** However long the buffer, only finitely many calls return something before `decode` asks for
more. -/
theorem c29_ends (ord : Nat → Order) (s : Bmp.Codec) (b : Bytes) : Ends (Bmp.Codec.decode ord) s b := by
  generalize hn : b.length = n
  induction n using Nat.strongRecOn generalizing s b with
  | _ n ih =>
    rcases hd : Bmp.Codec.decode ord s b with ⟨_ | x, s', b'⟩
    · exact .wait hd
    · cases hx : x.isFault
      · refine .item hd hx (ih b'.length ?_ s' b' rfl)
        cases x with
        | ok m =>
          obtain ⟨h1, h2, h3, _⟩ := c29_message ord s s' b b' m hd
          rw [h3, List.length_drop]; omega
        | err e => rw [← hn]; exact (c29_error ord s s' b b' e hd).1
        | fault y => simp [Res.isFault] at hx
      · exact .stop hd hx

/-- the octets of a message with the given version and the given octets behind the common header -/
def bmpFrame (v : UInt8) (body : Bytes) : Bytes := v :: (u32be (UInt32.ofNat (5 + body.length)) ++ body)

/-- a version that is known, and a body whose length fits the common header -/
def IsFrame (f : UInt8 × Bytes) : Prop := (f.1 = 3 ∨ f.1 = 4) ∧ 5 + f.2.length < 4294967296

theorem bmpLength_frame {v : UInt8} {body rest : Bytes} (h : 5 + body.length < 4294967296) :
    bmpLength (bmpFrame v body ++ rest) = (bmpFrame v body).length := by
  rw [← bmp_declared_eq (by simp [bmpFrame, u32be])]
  unfold Bmp.declared bmpFrame
  rw [show (List.drop 1 (v :: (u32be (UInt32.ofNat (5 + body.length)) ++ body) ++ rest)).take 4 = u32be (UInt32.ofNat (5 + body.length)) from rfl]
  rw [u32of_u32be, UInt32.toNat_ofNat_of_lt' (by exact h)]
  simp [u32be]; omega

/-- what the frames of a stream give, one after the other -/
def runFrames (ord : Nat → Order) : Bmp.Codec → List (UInt8 × Bytes) → List (Res BmpErr BmpMsg) × Bmp.Codec
  | s, [] => ([], s)
  | s, f :: fs =>
    let x := s.frame (ord s.sets) (bmpFrame f.1 f.2)
    let y := runFrames ord x.2 fs
    (x.1 :: y.1, y.2)

/-- **C29 (later messages).** In a stream of well-delimited messages each gives exactly one message or error, which
depends on its own octets and on what is known about the peers; an error in one body does not shift what follows. -/
theorem c29_frames (ord : Nat → Order) (s : Bmp.Codec) (hs : s.inMessage = false) (fs : List (UInt8 × Bytes))
    (hf : ∀ f ∈ fs, IsFrame f) (hp : ∀ x ∈ (runFrames ord s fs).1, x.isFault = false) :
    Drains (Bmp.Codec.decode ord) s (fs.map fun f => bmpFrame f.1 f.2).flatten (runFrames ord s fs).1 (runFrames ord s fs).2 [] := by
  induction fs generalizing s with
  | nil => exact .wait (by unfold Bmp.Codec.decode; simp [hs, runFrames])
  | cons f fs ih =>
    simp only [runFrames, List.mem_cons, forall_eq_or_imp] at hp ⊢
    have hfl := hf f List.mem_cons_self
    rw [List.map_cons, List.flatten_cons]
    have hlen := bmpLength_frame (v := f.1) (rest := (fs.map fun f => bmpFrame f.1 f.2).flatten) hfl.2
    have h5 : 5 ≤ (bmpFrame f.1 f.2).length := by simp [bmpFrame, u32be]
    have hdec : Bmp.Codec.decode ord s (bmpFrame f.1 f.2 ++ (fs.map fun f => bmpFrame f.1 f.2).flatten) =
        (.out (s.frame (ord s.sets) (bmpFrame f.1 f.2)).1, (s.frame (ord s.sets) (bmpFrame f.1 f.2)).2,
          (fs.map fun f => bmpFrame f.1 f.2).flatten) := by
      unfold Bmp.Codec.decode
      have hv : (bmpFrame f.1 f.2 ++ (fs.map fun f => bmpFrame f.1 f.2).flatten).head? = some f.1 := rfl
      rw [if_pos (by simp; omega), hv]
      simp only
      rw [if_neg (by rw [ofCode_iff hv, Classical.not_not]; rcases hfl.1 with h | h <;> simp [bmpVersion, bmpFrame, h]),
        if_neg (by simp; omega), bmp_declared_eq (by simp; omega), hlen, if_neg (by omega), if_neg (by simp),
        List.take_left, List.drop_left]
    refine .item hdec hp.1 (ih _ (frame_flag _ _ _).2 (fun x hx => hf x (List.mem_cons_of_mem _ hx)) hp.2)

example (ord : Nat → Order) : (∀ f ∈ [((3 : UInt8), [(9 : UInt8), 1, 1]), (4, [4])], IsFrame f) ∧
    (runFrames ord Bmp.Codec.new [(3, [9, 1, 1]), (4, [4])]).1 = [.err (.v3 (.undefined 5 9)), .ok (.v4 (.initiation []))] := by
  refine ⟨?_, rfl⟩
  intro f hf
  simp only [List.mem_cons, List.not_mem_nil, or_false] at hf
  rcases hf with rfl | rfl <;> simp [IsFrame]

/-! ## Whole streams -/

/-- the states of a codec and its buffer: octets are appended to the buffer, `decode` is called, and again -/
inductive Reached (ord : Nat → Order) : Bmp.Codec → Bytes → Prop where
  | new : Reached ord .new []
  | more {s b} (t : Reached ord s b) (c : Bytes) : Reached ord s (b ++ c)
  | call {s b x s' b'} (t : Reached ord s b) (h : Bmp.Codec.decode ord s b = (x, s', b')) : Reached ord s' b'

theorem Reached.ready {ord : Nat → Order} {s : Bmp.Codec} {b : Bytes} (h : Reached ord s b) : Bmp.Ready s b := by
  induction h with
  | new => intro h; simp [Bmp.Codec.new] at h
  | more _ c ih => exact ih.append c
  | call _ h ih => exact (decode_sim ord ih h).2.1

/-- **C29 (panics).** Framing itself does not panic: with a new codec and an empty buffer, however the octets come in and
`decode` is called, a panic is one of the parser of a message whose octets are all there. -/
theorem c29_no_panic (ord : Nat → Order) (s s' : Bmp.Codec) (b b' : Bytes) (x : Fault) (hr : Reached ord s b)
    (hd : Bmp.Codec.decode ord s b = (.out (.fault x), s', b')) :
    5 ≤ bmpLength b ∧ bmpLength b ≤ b.length ∧ (parseBmp (⟨b.take (bmpLength b), 0⟩, s.peers)).1 = .fault x := by
  rcases bmp_out ord hd with ⟨_, h1, h2⟩ | ⟨_, _, _, h1, _⟩ | ⟨_, _, _, h1, _⟩ | ⟨_, h1, h2, _, h4⟩
  · exact absurd (hr.ready h2).1 (by omega)
  · simp at h1
  · simp at h1
  · refine ⟨h1, h2, ?_⟩
    have h4 := congrArg Prod.fst h4
    simp only [Bmp.Codec.frame] at h4
    rw [h4]
    split <;> rename_i hp <;> rw [hp]

/-- **C30.** Whatever chunks a stream arrives in, the messages and errors decoded, the octets left in the buffer and the
state of the codec are those of the whole stream at once. -/
theorem c30_chunks (ord : Nat → Order) (s s' : Bmp.Codec) (hs : s.inMessage = false) (chunks : List Bytes)
    (os : List (Res BmpErr BmpMsg)) (b' : Bytes) :
    Feeds (Bmp.Codec.decode ord) s [] chunks os s' b' ↔ Drains (Bmp.Codec.decode ord) s chunks.flatten os s' b' := by
  have hr : ∀ b, Bmp.Ready s b := fun b h => by rw [hs] at h; simp at h
  rw [feeds_sim ord (hr _) (by simp [hs]), drains_iff ord (hr _), feeds_iff (decode0_local ord) rfl]
  simp

/-- **C30 (two ways of cutting).** -/
theorem c30_two (ord : Nat → Order) (s s1 s2 : Bmp.Codec) (hs : s.inMessage = false) (cs1 cs2 : List Bytes)
    (h : cs1.flatten = cs2.flatten) (os1 os2 : List (Res BmpErr BmpMsg)) (b1 b2 : Bytes)
    (h1 : Feeds (Bmp.Codec.decode ord) s [] cs1 os1 s1 b1) (h2 : Feeds (Bmp.Codec.decode ord) s [] cs2 os2 s2 b2) :
    os1 = os2 ∧ s1 = s2 ∧ b1 = b2 := by
  rw [c30_chunks ord _ _ hs] at h1 h2
  rw [h] at h1
  exact h1.unique h2

/-- a frame with an error in it, cut inside the common header and inside the body, and the beginning of another -/
example (ord : Nat → Order) : ∃ s', Feeds (Bmp.Codec.decode ord) Bmp.Codec.new []
    [[3, 0, 0], [0, 8, 9], [1, 1, 4, 0, 0, 0, 7], [4], []] [.err (.v3 (.undefined 5 9))] s' [4, 0, 0, 0, 7, 4] := by
  refine ⟨⟨true, .empty, 0⟩, (c30_chunks ord _ _ rfl _ _ _).mpr ?_⟩
  exact .item (s1 := ⟨false, .empty, 0⟩) (b1 := [4, 0, 0, 0, 7, 4]) rfl rfl (.wait rfl)

end Verif.Props
