import Verif.Netconf.Lemmas
/-!
# C85 – C88: the framing of NETCONF over SSH (RFC 6242)

`rfcChunk`, `frame` and `Message` of `Verif.Netconf.Lemmas` are the grammar of RFC 6242, section 4.2.
-/
namespace Verif.Props
open Verif Netconf
variable {H M ε : Type}

namespace Nc85
/-- every sequence of octets is a message; a hello has to begin with `h` -/
def raw : Xml Bytes Bytes Unit := ⟨.ok, fun h => h.head? = some 104, .ok, id, id⟩
end Nc85
open Nc85

/-! ## C85 -/

/-- C85: however a message is divided into chunks, it is decoded to what its data is, and what follows is left alone. The last chunk must not be shorter than five octets. -/
theorem c85_partial (xml : Xml H M ε) {ds : List Bytes} {m : M} (hm : Message ds) (hx : xml.readMessage ds.flatten = .ok m) (rest : Bytes) :
    SshCodec.decode xml ⟨false, []⟩ (frame ds ++ rest) = (.out (.ok (.message m)), ⟨false, []⟩, rest) := by
  unfold SshCodec.decode
  rw [if_neg (by simp)]
  rcases chunks_run xml hm (b := frame ds ++ rest) (t := []) (tail := rest) (by simp) (by simp; omega) ((frame ds ++ rest).length + 1) (by omega) [] with
    ⟨r, h1, h2⟩ | ⟨ds1, ds2, b', h1, -, -, h2, h3⟩
  · have := List.append_cancel_left h1
    subst this
    simp only
    rw [h2]
    unfold outcome
    rw [List.nil_append, hx]
  · exfalso
    rw [List.append_nil] at h2
    have := congrArg List.length h2
    rw [List.length_append] at this
    omega

/-- C85 is false of messages with a last chunk of fewer than five octets: all of the message is there, and the decoder asks for more -/
theorem c85_disproved : ∃ ds : List Bytes, (∀ d ∈ ds, ChunkData d) ∧ ds ≠ [] ∧
    SshCodec.decode raw ⟨false, []⟩ (frame ds) = (.wait, ⟨false, [60, 97, 98, 99, 100, 101, 47]⟩, rfcChunk [62] ++ messageTerminator) := by
  refine ⟨[[60, 97, 98, 99, 100, 101, 47], [62]], ?_, by simp, by decide +kernel⟩
  intro d hd
  simp only [List.mem_cons, List.not_mem_nil, or_false] at hd
  rcases hd with rfl | rfl <;> exact ⟨by decide, by decide⟩

/-- a message in two chunks -/
example : Message [[60], [97, 98, 99, 47, 62]] ∧ frame [[60], [97, 98, 99, 47, 62]] =
    [10, 35, 49, 10, 60, 10, 35, 53, 10, 97, 98, 99, 47, 62, 10, 35, 35, 10] := by
  refine ⟨⟨fun d hd => ?_, _, rfl, by decide⟩, by decide +kernel⟩
  simp only [List.mem_cons, List.not_mem_nil, or_false] at hd
  rcases hd with rfl | rfl <;> exact ⟨by decide, by decide⟩

/-! ## C87 -/

/-- messages as they are sent, each with what its data is -/
def Sent (xml : Xml H M ε) : Bytes → List (List Bytes × M) → Prop
  | pre, [] => pre = []
  | pre, (ds, m) :: ms => Message ds ∧ xml.readMessage (pre ++ ds.flatten) = .ok m ∧ Sent xml [] ms

/-- the octets of messages one after the other -/
def frames (ms : List (List Bytes × M)) : Bytes := (ms.map fun x => frame x.1).flatten

/-- octets `t` are still to come: not just one to four octets more than some messages, that is, they do not begin within the terminator of a
message nor with it -/
def GoodCut (t : Bytes) (ms : List (List Bytes × M)) : Prop :=
  ∀ ms2, ms2 <:+ ms → ¬ ((frames ms2).length < t.length ∧ t.length ≤ (frames ms2).length + 4)

theorem decode_chunks (xml : Xml H M ε) (pre b : Bytes) :
    SshCodec.decode xml ⟨false, pre⟩ b = ((chunks xml (b.length + 1) pre b).1, { (chunks xml (b.length + 1) pre b).2.1 with inHello := false },
      (chunks xml (b.length + 1) pre b).2.2) := by
  unfold SshCodec.decode
  rw [if_neg (by simp)]

theorem drain_messages (xml : Xml H M ε) {pre : Bytes} {ms : List (List Bytes × M)} {b t : Bytes} (hs : Sent xml pre ms) (h : b ++ t = frames ms)
    (hg : GoodCut t ms) : ∃ ks ms' pre' b', ms.map (·.2) = ks ++ ms'.map (·.2) ∧
      Drains (SshCodec.decode xml) ⟨false, pre⟩ b (ks.map fun m => .ok (.message m)) ⟨false, pre'⟩ b' ∧ Sent xml pre' ms' ∧ b' ++ t = frames ms' ∧
      (∀ t' : Bytes, t'.length ≤ t.length → GoodCut t' ms → GoodCut t' ms') ∧ (t = [] → ms' = []) := by
  induction ms generalizing pre b with
  | nil =>
    obtain ⟨rfl, rfl⟩ := List.append_eq_nil_iff.mp (show b ++ t = [] from h)
    obtain rfl : pre = [] := hs
    refine ⟨[], [], [], [], rfl, .wait ?_, rfl, rfl, fun _ _ h => h, fun _ => rfl⟩
    rw [decode_chunks]; rfl
  | cons x ms ih =>
    obtain ⟨ds, m⟩ := x
    obtain ⟨hm, hx, hs⟩ := hs
    have hf : frames ((ds, m) :: ms) = frame ds ++ frames ms := by simp [frames]
    rw [hf] at h
    have hl := congrArg List.length h
    rw [List.length_append, List.length_append] at hl
    have hg1 := hg ms (List.suffix_cons _ _)
    rcases chunks_run xml hm h (by omega) (b.length + 1) (by omega) pre with ⟨r, rfl, h2⟩ | ⟨ds1, ds2, b', rfl, h2, h3, h4, h5⟩
    · rw [List.append_assoc] at h
      have h := List.append_cancel_left h
      have hsub : ∀ t', GoodCut t' ((ds, m) :: ms) → GoodCut t' ms := fun t' hg ms2 h2 => hg ms2 (h2.trans (List.suffix_cons _ _))
      obtain ⟨ks, ms', pre', b', h3, h4, h5, h6, h7, h8⟩ := ih hs h (hsub t hg)
      refine ⟨m :: ks, ms', pre', b', by rw [List.map_cons, h3]; rfl, ?_, h5, h6, fun t' hl hg => h7 t' hl (hsub t' hg), h8⟩
      refine .item ?_ rfl h4
      rw [decode_chunks, h2]
      unfold outcome
      rw [hx]
    · refine ⟨[], (ds2, m) :: ms, pre ++ ds1.flatten, b', rfl, .wait ?_, ⟨h2, ?_, hs⟩, by rw [h4]; simp [frames], ?_, ?_⟩
      · rw [decode_chunks, h3]
      · rw [← hx, List.flatten_append, List.append_assoc]
      · intro t' hl' hg ms2 hms
        rcases List.suffix_cons_iff.mp hms with rfl | hms
        · have e2 : frames ((ds2, m) :: ms) = frame ds2 ++ frames ms := by simp [frames]
          rw [← e2] at h4
          have := congrArg List.length h4
          rw [List.length_append] at this
          omega
        · exact hg ms2 (hms.trans (List.suffix_cons _ _))
      · rintro rfl
        rw [List.append_nil] at h4
        have := congrArg List.length h4
        rw [List.length_append] at this
        omega

theorem feed_messages (xml : Xml H M ε) {pieces : List Bytes} {pre : Bytes} {ms : List (List Bytes × M)} {b : Bytes} (hs : Sent xml pre ms)
    (h : b ++ pieces.flatten = frames ms) (hg : ∀ p1 p2, pieces = p1 ++ p2 → GoodCut p2.flatten ms) (hb : pieces = [] → ms = []) :
    Feeds (SshCodec.decode xml) ⟨false, pre⟩ b pieces (ms.map fun x => .ok (.message x.2)) ⟨false, []⟩ [] := by
  induction pieces generalizing pre ms b with
  | nil =>
    obtain rfl := hb rfl
    obtain rfl : pre = [] := hs
    obtain rfl : b = [] := by simpa [frames] using h
    exact .nil
  | cons d pieces ih =>
    rw [List.flatten_cons, ← List.append_assoc] at h
    obtain ⟨ks, ms', pre', b', h1, h2, h3, h4, h5, h6⟩ := drain_messages xml hs h (hg [d] pieces rfl)
    have e : (ms.map fun x => (.ok (.message x.2) : Res (SshErr ε) (Item H M))) = (ks.map fun m => .ok (.message m)) ++ ms'.map fun x => .ok (.message x.2) := by
      have := congrArg (List.map fun m => (.ok (.message m) : Res (SshErr ε) (Item H M))) h1
      simpa [Function.comp_def] using this
    rw [e]
    refine .cons h2 (ih h3 h4 (fun p1 p2 hp => h5 _ ?_ (hg (d :: p1) p2 (by rw [hp]; rfl))) fun hp => h6 (by rw [hp]; rfl))
    rw [hp, List.flatten_append, List.length_append]; omega

/-- octets of a hello in which the terminator does not begin -/
def HelloBody (w : Bytes) : Prop := position helloTerminator (w ++ helloTerminator) = some w.length

theorem decode_hello_wait (xml : Xml H M ε) {w b : Bytes} (hw : HelloBody w) (hp : b <+: w ++ helloTerminator) (hl : b.length < (w ++ helloTerminator).length) :
    SshCodec.decode xml .new b = (.wait, .new, b) := by
  unfold SshCodec.decode
  by_cases h6 : 6 ≤ b.length
  · rw [if_pos ⟨rfl, h6⟩]
    have : position helloTerminator b = none := by
      cases hpos : position helloTerminator b with
      | none => rfl
      | some i =>
        obtain ⟨u, hu⟩ := hp
        have h1 := position_append (u := u) hpos
        rw [hu, hw] at h1
        have h2 := position_bound hpos
        rw [List.length_append] at hl
        cases h1
        omega
    rw [this]
  · rw [if_neg (by simp [h6])]
    have : (nextChunk b : Chunk ε) = .wait := by unfold nextChunk; rw [if_pos (by omega)]
    simp only [chunks, this]

theorem decode_hello (xml : Xml H M ε) {w : Bytes} {h : H} (hw : HelloBody w) (hx : xml.readHello w = .ok h) (hb : xml.base11 h = true) (rest : Bytes) :
    SshCodec.decode xml .new (w ++ helloTerminator ++ rest) = (.out (.ok (.hello h)), ⟨false, []⟩, rest) := by
  unfold SshCodec.decode
  rw [if_pos ⟨rfl, by simp [helloTerminator]; omega⟩, position_append hw]
  simp only
  rw [List.append_assoc, List.take_left, hx]
  simp only
  rw [hb]
  simp only [if_true]
  rw [← List.append_assoc, List.drop_left' (by simp [helloTerminator])]
  rfl

/-- C87: a hello and messages come out as they were sent, however the octets arrive, as long as no piece ends behind the last chunk of a message and before the
end of the terminator of the message -/
theorem c87_partial (xml : Xml H M ε) {w : Bytes} {hello : H} {ms : List (List Bytes × M)} {pieces : List Bytes}
    (hw : HelloBody w) (hx : xml.readHello w = .ok hello) (hb : xml.base11 hello = true) (hs : Sent xml [] ms)
    (h : pieces.flatten = w ++ helloTerminator ++ frames ms)
    (hg : ∀ p1 p2, pieces = p1 ++ p2 → GoodCut p2.flatten ms) :
    Feeds (SshCodec.decode xml) .new [] pieces (.ok (.hello hello) :: ms.map fun x => .ok (.message x.2)) ⟨false, []⟩ [] := by
  suffices ∀ (b : Bytes) (pieces : List Bytes), b ++ pieces.flatten = w ++ helloTerminator ++ frames ms →
      b.length < (w ++ helloTerminator).length → (∀ p1 p2, pieces = p1 ++ p2 → GoodCut p2.flatten ms) →
      Feeds (SshCodec.decode xml) .new b pieces (.ok (.hello hello) :: ms.map fun x => .ok (.message x.2)) ⟨false, []⟩ [] from
    this [] pieces h (by simp [helloTerminator]) hg
  clear h hg pieces
  intro b pieces
  induction pieces generalizing b with
  | nil =>
    intro h hl _
    have := congrArg List.length h
    simp only [List.flatten_nil, List.append_nil, List.length_append] at this hl
    omega
  | cons d pieces ih =>
    intro h hl hg
    rw [List.flatten_cons, ← List.append_assoc] at h
    by_cases hc : (b ++ d).length < (w ++ helloTerminator).length
    · have hp : b ++ d <+: w ++ helloTerminator := List.prefix_of_prefix_length_le ⟨_, h⟩ ⟨_, rfl⟩ (by omega)
      exact .cons (os := []) (.wait (decode_hello_wait xml hw hp hc)) (ih _ h hc fun p1 p2 hp => hg (d :: p1) p2 (by rw [hp]; rfl))
    · obtain ⟨r, hr⟩ : w ++ helloTerminator <+: b ++ d := List.prefix_of_prefix_length_le ⟨_, rfl⟩ ⟨_, h⟩ (by omega)
      rw [← hr, List.append_assoc] at h
      have h := List.append_cancel_left h
      obtain ⟨ks, ms', pre', b', h1, h2, h3, h4, h5, h6⟩ := drain_messages xml hs h (hg [d] pieces rfl)
      have e : (ms.map fun x => (.ok (.message x.2) : Res (SshErr ε) (Item H M))) = (ks.map fun m => .ok (.message m)) ++ ms'.map fun x => .ok (.message x.2) := by
        have := congrArg (List.map fun m => (.ok (.message m) : Res (SshErr ε) (Item H M))) h1
        simpa [Function.comp_def] using this
      rw [e, ← List.cons_append]
      refine .cons (.item (by rw [← hr]; exact decode_hello xml hw hx hb r) rfl h2)
        (feed_messages xml h3 h4 (fun p1 p2 hp => h5 _ ?_ (hg (d :: p1) p2 (by rw [hp]; rfl))) fun hp => h6 (by rw [hp]; rfl))
      rw [hp, List.flatten_append, List.length_append]; omega

/-- C87 is false of other deliveries: if the terminator arrives on its own, the message does not come out, not when it is complete and not when the
next message arrives, which is an error -/
theorem c87_disproved : ∃ (ds : List Bytes), Message ds ∧
    SshCodec.decode raw ⟨false, []⟩ (rfcChunks ds) = (.wait, ⟨false, ds.flatten⟩, []) ∧
    SshCodec.decode raw ⟨false, ds.flatten⟩ messageTerminator = (.wait, ⟨false, ds.flatten⟩, messageTerminator) ∧
    SshCodec.decode raw ⟨false, ds.flatten⟩ (messageTerminator ++ frame ds) = (.out (.err .int), ⟨false, ds.flatten⟩, messageTerminator ++ frame ds) := by
  refine ⟨[[60, 97, 98, 99, 100, 101, 102, 47, 62]], ⟨fun d hd => ?_, _, rfl, by decide⟩, by decide +kernel, by decide +kernel, by decide +kernel⟩
  simp only [List.mem_cons, List.not_mem_nil, or_false] at hd
  subst hd; exact ⟨by decide, by decide⟩

/-- a hello and two messages; the first piece ends within a chunk -/
example : HelloBody [104] ∧ Sent raw [] [([[60, 97, 98, 99, 47, 62]], [60, 97, 98, 99, 47, 62]), ([[60], [97, 98, 99, 47, 62]], [60, 97, 98, 99, 47, 62])] ∧
    GoodCut (M := Bytes) [47, 62, 10, 35, 35, 10] [([[60, 97, 98, 99, 47, 62]], [60, 97, 98, 99, 47, 62])] := by
  refine ⟨by unfold HelloBody; decide +kernel, ⟨⟨fun d hd => ?_, _, rfl, by decide⟩, rfl, ⟨fun d hd => ?_, _, rfl, by decide⟩, rfl, rfl⟩, ?_⟩
  · simp only [List.mem_cons, List.not_mem_nil, or_false] at hd
    subst hd; exact ⟨by decide, by decide⟩
  · simp only [List.mem_cons, List.not_mem_nil, or_false] at hd
    rcases hd with rfl | rfl <;> exact ⟨by decide, by decide⟩
  · intro ms2 h
    rcases List.suffix_cons_iff.mp h with rfl | h
    · decide +kernel
    · rw [List.suffix_nil.mp h]; decide

/-! ## C86 -/

theorem encode_message (xml : Xml H M ε) (m : M) : SshCodec.encode xml (.message m) = frame [xml.writeMessage m] := by
  simp [SshCodec.encode, frame, rfcChunks, rfcChunk]

/-- C86: a hello and messages that were encoded are decoded as they were, if the XML of each of them is, and has at least 5 and at most 4294967295 octets -/
theorem c86_partial (xml : Xml H M ε) {hello : H} {ms : List M} (hw : HelloBody (xml.writeHello hello)) (hx : xml.readHello (xml.writeHello hello) = .ok hello)
    (hb : xml.base11 hello = true) (hm : ∀ m ∈ ms, xml.readMessage (xml.writeMessage m) = .ok m ∧ 5 ≤ (xml.writeMessage m).length ∧ (xml.writeMessage m).length ≤ 4294967295) :
    Drains (SshCodec.decode xml) .new (SshCodec.encode xml (.hello hello) ++ (ms.map fun m => SshCodec.encode xml (.message m)).flatten)
      (.ok (.hello hello) :: ms.map fun m => .ok (.message m)) ⟨false, []⟩ [] := by
  have hs : Sent xml [] (ms.map fun m => ([xml.writeMessage m], m)) := by
    induction ms with
    | nil => rfl
    | cons m ms ih =>
      obtain ⟨h1, h2, h3⟩ := hm m (by simp)
      refine ⟨⟨fun d hd => ?_, _, rfl, h2⟩, by simpa using h1, ih fun m h => hm m (by simp [h])⟩
      simp only [List.mem_cons, List.not_mem_nil, or_false] at hd
      subst hd; exact ⟨by omega, h3⟩
  have e : (ms.map fun m => SshCodec.encode xml (.message m)).flatten = frames (ms.map fun m => ([xml.writeMessage m], m)) := by
    simp only [encode_message, frames, List.map_map, Function.comp_def]
  have key := c87_partial xml (pieces := [SshCodec.encode xml (.hello hello) ++ frames (ms.map fun m => ([xml.writeMessage m], m))]) hw hx hb hs
    (by simp [SshCodec.encode]) (by
      intro p1 p2 hp ms2 h2
      have hle : (frames ms2).length ≤ (frames (ms.map fun m => ([xml.writeMessage m], m))).length := by
        obtain ⟨ms1, h1⟩ := h2
        rw [← h1]
        simp [frames]
      cases p1 with
      | nil =>
        rw [List.nil_append] at hp
        rw [← hp]
        simp only [List.flatten_cons, List.flatten_nil, List.append_nil, List.length_append, SshCodec.encode, helloTerminator, List.length_cons, List.length_nil]
        omega
      | cons x p1 =>
        simp only [List.cons_append, List.cons.injEq] at hp
        obtain ⟨-, hp⟩ := hp
        obtain ⟨-, rfl⟩ := List.append_eq_nil_iff.mp hp.symm
        simp)
  rw [e]
  generalize ho : (Res.ok (Item.hello hello) :: _ : List (Res (SshErr ε) (Item H M))) = os at key
  cases key with
  | cons h t =>
    cases t
    rw [List.append_nil] at ho
    subst ho
    simpa [Function.comp_def] using h

/-- C86 is false of messages of more than 4294967295 octets, which are not divided into chunks, though they have to be: none of them is accepted -/
theorem c86_disproved (xml : Xml H M ε) (m : M) (h1 : 4294967295 < (xml.writeMessage m).length) (h2 : (xml.writeMessage m).length < 10000000000) (rest : Bytes) :
    SshCodec.decode xml ⟨false, []⟩ (SshCodec.encode xml (.message m) ++ rest) =
      (.out (.err (.invalidSize (xml.writeMessage m).length)), ⟨false, []⟩, SshCodec.encode xml (.message m) ++ rest) := by
  rw [decode_chunks]
  have hc : (nextChunk (SshCodec.encode xml (.message m) ++ rest) : Chunk ε) = .err (.invalidSize (xml.writeMessage m).length) := by
    simp only [SshCodec.encode, List.append_assoc, List.cons_append, List.nil_append]
    generalize hx : xml.writeMessage m = w at *
    have hd : (decimal w.length).length ≤ 10 := by
      unfold decimal
      rw [List.length_map]
      exact (Nat.length_toDigits_le_iff (by decide) (by decide)).mpr (by omega)
    generalize messageTerminator ++ rest = t
    unfold nextChunk
    rw [if_neg (by simp only [List.length_append, List.length_cons]; omega), if_neg (by simp [chunkStart])]
    have e2 : (chunkStart ++ (decimal w.length ++ (10 :: (w ++ t)))).drop 2 = decimal w.length ++ (10 :: (w ++ t)) := rfl
    rw [e2]
    have e3 : (decimal w.length ++ 10 :: (w ++ t)).take 11 = decimal w.length ++ 10 :: (w ++ t).take (10 - (decimal w.length).length) := by
      rw [List.take_append, List.take_of_length_le (by omega), show 11 - (decimal w.length).length = (10 - (decimal w.length).length) + 1 by omega, List.take_succ_cons]
    rw [e3, idxOf?_first (decimal_no_newline _)]
    simp only
    rw [List.take_left, ofUtf8_decimal, parseUsize_decimal]
    simp only [Bool.false_eq_true, if_false]
    rw [if_pos (.inr h1)]
  simp only [chunks, hc]

/-! ## C88 -/

/-- a numeral that the decoder takes for a number: leading zeros and a plus sign are allowed -/
def LooseNumeral (w : Bytes) (n : Nat) : Prop := ∃ plus zeros, (plus = [] ∨ plus = [43]) ∧ w = plus ++ (List.replicate zeros 48 ++ decimal n)

theorem decimal_snoc {n d : Nat} (h0 : 0 < n) (hd : d < 10) : decimal (10 * n + d) = decimal n ++ [UInt8.ofNat (48 + d)] := by
  unfold decimal
  rw [← Nat.toDigits_append_toDigits (by decide) h0 hd, List.map_append]
  congr 1
  rw [Nat.toDigits_of_lt_base hd]
  revert d
  decide

theorem decimal_digit {d : Nat} (hd : d < 10) : decimal d = [UInt8.ofNat (48 + d)] := by
  unfold decimal
  rw [Nat.toDigits_of_lt_base hd]
  revert d
  decide

theorem digitsValue_inv {acc : Nat} {w : Bytes} {n : Nat} (h : digitsValue acc w = some n) (h0 : 0 < n) :
    (0 < acc → decimal acc ++ w = decimal n) ∧ (acc = 0 → ∃ k, w = List.replicate k 48 ++ decimal n) := by
  induction w generalizing acc with
  | nil =>
    simp only [digitsValue, Option.some.injEq] at h
    subst h
    exact ⟨fun _ => by simp, fun h => by omega⟩
  | cons x w ih =>
    unfold digitsValue at h
    split at h
    · rename_i hx
      obtain ⟨i1, i2⟩ := ih h
      have ex : x = UInt8.ofNat (48 + (x.toNat - 48)) := by
        rw [show 48 + (x.toNat - 48) = x.toNat by omega]; exact UInt8.ofNat_toNat.symm
      refine ⟨fun ha => ?_, fun ha => ?_⟩
      · have := i1 (by omega)
        rw [decimal_snoc ha (by omega), ← ex] at this
        simpa using this
      · subst ha
        by_cases hz : x.toNat - 48 = 0
        · obtain ⟨k, rfl⟩ := i2 (by omega)
          refine ⟨k + 1, ?_⟩
          rw [hz] at ex
          rw [ex]; rfl
        · have := i1 (by omega)
          rw [Nat.mul_zero, Nat.zero_add, decimal_digit (by omega), ← ex] at this
          exact ⟨0, by simpa using this⟩
    · simp at h

theorem parseUsize_inv {w : Bytes} {n : Nat} (h : parseUsize w = some n) (h0 : 0 < n) : LooseNumeral w n := by
  cases w with
  | nil => simp [parseUsize] at h
  | cons x w =>
    unfold parseUsize at h
    simp only at h
    by_cases hx : x = 43
    · rw [if_pos hx] at h
      split at h
      · simp at h
      · obtain ⟨k, rfl⟩ := (digitsValue_inv h h0).2 rfl
        exact ⟨[43], k, .inr rfl, by rw [hx]; rfl⟩
    · rw [if_neg hx] at h
      obtain ⟨k, hk⟩ := (digitsValue_inv h h0).2 rfl
      exact ⟨[], k, .inl rfl, hk⟩

theorem idxOf?_inv {b : Bytes} {i : Nat} (h : b.idxOf? 10 = some i) : ∃ x, b = b.take i ++ 10 :: x := by
  induction b generalizing i with
  | nil => simp at h
  | cons a b ih =>
    rw [List.idxOf?_cons] at h
    split at h
    · rename_i ha
      simp only [Option.some.injEq] at h
      subst h
      exact ⟨b, by simpa using ha⟩
    · obtain ⟨j, hj, rfl⟩ := Option.map_eq_some_iff.mp h
      obtain ⟨x, hx⟩ := ih hj
      exact ⟨x, by rw [List.take_succ_cons, List.cons_append, ← hx]⟩

theorem nextChunk_inv {src data rest : Bytes} (h : (nextChunk src : Chunk ε) = .chunk data rest) :
    ∃ w, LooseNumeral w data.length ∧ ChunkData data ∧ src = chunkStart ++ (w ++ (10 :: (data ++ rest))) := by
  unfold nextChunk at h
  split at h; · simp at h
  rename_i h13
  split at h; · simp at h
  rename_i hs
  obtain ⟨y, rfl⟩ : chunkStart <+: src := by simpa using hs
  have e2 : (chunkStart ++ y).drop 2 = y := rfl
  rw [e2] at h
  split at h; · simp at h
  rename_i pos hpos
  simp only at h
  split at h; · simp at h
  split at h; · simp at h
  rename_i size hsize
  split at h; · simp at h
  rename_i hz
  split at h; · simp at h
  rename_i hlen
  simp only [Chunk.chunk.injEq] at h
  obtain ⟨h1, h2⟩ := h
  obtain ⟨x, hx⟩ := idxOf?_inv hpos
  have hp11 : pos < 11 := by
    have := congrArg List.length hx
    simp only [List.length_append, List.length_cons, List.length_take] at this
    omega
  rw [List.take_take, Nat.min_eq_left (by omega)] at hx
  have hy : y = y.take pos ++ (10 :: (x ++ y.drop 11)) := by
    have := (List.take_append_drop 11 y).symm
    rw [hx, List.append_assoc, List.cons_append] at this
    exact this
  generalize hw : y.take pos = w at *
  have hwl : w.length = pos := by
    rw [← hw, List.length_take]
    have := congrArg List.length hy
    simp only [List.length_append, List.length_cons, ← hw, List.length_take] at this
    omega
  have e4 : ∀ k, (chunkStart ++ y).drop (2 + pos + 1 + k) = (x ++ y.drop 11).drop k := by
    intro k
    have e : chunkStart ++ y = (chunkStart ++ w ++ [10]) ++ (x ++ y.drop 11) := by simp only [List.append_assoc, List.singleton_append]; rw [← hy]
    rw [e, List.drop_append, List.drop_of_length_le (by simp [chunkStart]; omega), List.nil_append]
    congr 1
    simp [chunkStart]; omega
  have e5 := e4 0
  rw [Nat.add_zero, List.drop_zero] at e5
  rw [e5] at h1
  rw [e4] at h2
  have hl : size ≤ (x ++ y.drop 11).length := by
    rw [← e5, List.length_drop]; omega
  have hdl : data.length = size := by rw [← h1, List.length_take]; omega
  refine ⟨w, ?_, ⟨by omega, by omega⟩, ?_⟩
  · rw [hdl]; exact parseUsize_inv hsize (by omega)
  · rw [← h1, ← h2, List.take_append_drop]
    rw [← hy]

/-- C88: what is accepted as a message is a sequence of chunks and a terminator as in RFC 6242, except that chunk sizes may have leading zeros and
a plus sign; and its data is that of the chunks -/
theorem c88_partial (xml : Xml H M ε) {pre src rest : Bytes} {m : M} {c : SshCodec}
    (h : SshCodec.decode xml ⟨false, pre⟩ src = (.out (.ok (.message m)), c, rest)) :
    ∃ cs : List (Bytes × Bytes), cs ≠ [] ∧ (∀ x ∈ cs, LooseNumeral x.1 x.2.length ∧ ChunkData x.2) ∧
      src = (cs.map fun x => chunkStart ++ (x.1 ++ (10 :: x.2))).flatten ++ (messageTerminator ++ rest) ∧
      xml.readMessage (pre ++ (cs.map (·.2)).flatten) = .ok m ∧ c = ⟨false, []⟩ := by
  rw [decode_chunks] at h
  simp only [Prod.mk.injEq] at h
  obtain ⟨h1, h2, h3⟩ := h
  suffices ∀ (n : Nat) (pre src : Bytes) (x : SshCodec), chunks xml n pre src = (.out (.ok (.message m)), x, rest) →
      ∃ cs : List (Bytes × Bytes), cs ≠ [] ∧ (∀ x ∈ cs, LooseNumeral x.1 x.2.length ∧ ChunkData x.2) ∧
      src = (cs.map fun x => chunkStart ++ (x.1 ++ (10 :: x.2))).flatten ++ (messageTerminator ++ rest) ∧
      xml.readMessage (pre ++ (cs.map (·.2)).flatten) = .ok m ∧ x = ⟨false, []⟩ by
    obtain ⟨cs, k1, k2, k3, k4, k5⟩ := this _ pre src _ (Prod.ext h1 (Prod.ext rfl h3))
    refine ⟨cs, k1, k2, k3, k4, ?_⟩
    rw [← h2]
    simp only [k5]
  clear h1 h2 h3
  intro n
  induction n with
  | zero => intro pre src x h; simp [chunks] at h
  | succ n ih =>
    intro pre src x h
    unfold chunks at h
    cases hc : (nextChunk src : Chunk ε) with
    | wait => rw [hc] at h; simp at h
    | err e => rw [hc] at h; simp at h
    | chunk data r =>
      rw [hc] at h
      simp only at h
      obtain ⟨w, k1, k2, k3⟩ := nextChunk_inv hc
      split at h
      · rename_i ht
        obtain ⟨r', rfl⟩ := List.isPrefixOf_iff_prefix.mp ht
        cases hx : xml.readMessage (pre ++ data) with
        | error e => rw [hx] at h; simp at h
        | ok m' =>
          rw [hx] at h
          simp only [Prod.mk.injEq, Dec.out.injEq, Res.ok.injEq, Item.message.injEq] at h
          obtain ⟨rfl, rfl, hr⟩ := h
          have : r' = rest := hr
          subst this
          exact ⟨[(w, data)], by simp, by simpa using ⟨k1, k2⟩, by rw [k3]; simp, by simpa using hx, rfl⟩
      · obtain ⟨cs, j1, j2, j3, j4, j5⟩ := ih _ _ _ h
        refine ⟨(w, data) :: cs, by simp, ?_, ?_, ?_, j5⟩
        · intro x hx
          rcases List.mem_cons.mp hx with rfl | hx
          · exact ⟨k1, k2⟩
          · exact j2 x hx
        · rw [k3, j3]; simp
        · rw [List.map_cons, List.flatten_cons, ← List.append_assoc]; exact j4

theorem position_inv {pat b : Bytes} {i : Nat} (h : position pat b = some i) : i ≤ b.length ∧ pat <+: b.drop i ∧ ∀ j < i, ¬ pat <+: b.drop j := by
  induction b generalizing i with
  | nil =>
    unfold position at h
    split at h
    · rename_i hp
      simp only [Option.some.injEq] at h
      subst h
      exact ⟨by simp, List.isPrefixOf_iff_prefix.mp hp, by omega⟩
    · simp at h
  | cons x b ih =>
    unfold position at h
    split at h
    · rename_i hp
      simp only [Option.some.injEq] at h
      subst h
      exact ⟨by simp, List.isPrefixOf_iff_prefix.mp hp, by omega⟩
    · rename_i hp
      obtain ⟨k, hk, rfl⟩ := Option.map_eq_some_iff.mp h
      obtain ⟨i1, i2, i3⟩ := ih hk
      refine ⟨by simpa using i1, i2, fun j hj => ?_⟩
      cases j with
      | zero => exact fun h => hp (List.isPrefixOf_iff_prefix.mpr h)
      | succ j => exact i3 j (by omega)

/-- C88: before the hello nothing but a hello comes out. It is what stands before the first end-of-message mark, and has the capability of chunked framing,
which is in use from then on -/
theorem c88_hello (xml : Xml H M ε) {pre src rest : Bytes} {x : Item H M} {c : SshCodec}
    (h : SshCodec.decode xml ⟨true, pre⟩ src = (.out (.ok x), c, rest)) :
    ∃ hello w, x = .hello hello ∧ src = w ++ [93, 93, 62, 93, 93, 62] ++ rest ∧ (∀ j < w.length, ¬ [93, 93, 62, 93, 93, 62] <+: src.drop j) ∧
      xml.readHello w = .ok hello ∧ xml.base11 hello = true ∧ c = ⟨false, pre⟩ := by
  unfold SshCodec.decode at h
  split at h
  · split at h
    · simp at h
    · rename_i pos hp
      split at h
      · simp at h
      · rename_i hello hr
        split at h
        · rename_i hb
          simp only [Prod.mk.injEq, Dec.out.injEq, Res.ok.injEq] at h
          obtain ⟨rfl, rfl, rfl⟩ := h
          obtain ⟨h1, ⟨y, h2⟩, h3⟩ := position_inv hp
          have hl : (src.take pos).length = pos := by simp; omega
          refine ⟨hello, src.take pos, rfl, ?_, by rw [hl]; exact h3, hr, hb, rfl⟩
          have e : src.drop (pos + 6) = y := by
            rw [← List.drop_drop, ← h2]; rfl
          rw [e, List.append_assoc]
          have := (List.take_append_drop pos src).symm
          rw [← h2] at this
          exact this
        · simp at h
  · rename_i hc
    have h6 : src.length < 6 := Nat.lt_of_not_le fun h => hc ⟨rfl, h⟩
    have : (nextChunk src : Chunk ε) = .wait := by unfold nextChunk; rw [if_pos (by omega)]
    simp only [chunks, this] at h
    simp at h

/-- a hello before a message -/
example : SshCodec.decode raw .new ([104, 105] ++ [93, 93, 62, 93, 93, 62] ++ [10, 35]) = (.out (.ok (.hello [104, 105])), ⟨false, []⟩, [10, 35]) := by
  decide +kernel

/-- C88: decoding neither panics nor loops, whatever the octets are -/
theorem c88_noFault (xml : Xml H M ε) (c c' : SshCodec) (src rest : Bytes) (x : Res (SshErr ε) (Item H M))
    (h : SshCodec.decode xml c src = (.out x, c', rest)) : x.isFault = false := by
  have key : ∀ (n : Nat) (pre src : Bytes), src.length < n → ∀ x c' r, chunks xml n pre src = (.out x, c', r) → x.isFault = false := by
    intro n
    induction n with
    | zero => intro _ _ h; omega
    | succ n ih =>
      intro pre src hl x c' r h
      unfold chunks at h
      cases hc : (nextChunk src : Chunk ε) with
      | wait => rw [hc] at h; simp at h
      | err e =>
        rw [hc] at h
        simp only [Prod.mk.injEq, Dec.out.injEq] at h
        rw [← h.1]; rfl
      | chunk data r' =>
        rw [hc] at h
        simp only at h
        obtain ⟨w, -, -, k3⟩ := nextChunk_inv hc
        split at h
        · split at h <;>
          · simp only [Prod.mk.injEq, Dec.out.injEq] at h
            rw [← h.1]; rfl
        · refine ih _ _ ?_ _ _ _ h
          have := congrArg List.length k3
          simp only [List.length_append, List.length_cons] at this
          omega
  unfold SshCodec.decode at h
  split at h
  · split at h
    · simp at h
    · split at h
      · simp only [Prod.mk.injEq, Dec.out.injEq] at h
        rw [← h.1]; rfl
      · split at h <;>
        · simp only [Prod.mk.injEq, Dec.out.injEq] at h
          rw [← h.1]; rfl
  · simp only [Prod.mk.injEq] at h
    obtain ⟨h1, -, -⟩ := h
    exact key _ _ _ (by omega) _ _ _ (Prod.ext h1 (Prod.ext rfl rfl))

/-- C88 is false: sizes with a plus sign or with leading zeros are accepted, which RFC 6242 (section 4.2) excludes -/
theorem c88_disproved :
    (SshCodec.decode raw ⟨false, []⟩ ([10, 35, 43, 53, 10, 97, 98, 99, 100, 101] ++ messageTerminator)).1 = .out (.ok (.message [97, 98, 99, 100, 101])) ∧
    (SshCodec.decode raw ⟨false, []⟩ ([10, 35, 48, 48, 53, 10, 97, 98, 99, 100, 101] ++ messageTerminator)).1 = .out (.ok (.message [97, 98, 99, 100, 101])) := by
  decide +kernel

end Verif.Props
