import Verif.Netconf.Codec
import Verif.Bgp.CapsLemmas
/-!
# Lemmas on the framing of NETCONF
-/
namespace Verif.Netconf
variable {H M ε : Type}

/-! ## Numerals -/

theorem isDigit_bounds {c : Char} (h : c.isDigit = true) : 48 ≤ c.toNat ∧ c.toNat ≤ 57 := by
  simp only [Char.isDigit, Bool.and_eq_true, decide_eq_true_eq, UInt32.le_iff_toNat_le] at h
  exact h

theorem mem_decimal {n : Nat} {x : UInt8} (h : x ∈ decimal n) : 48 ≤ x.toNat ∧ x.toNat ≤ 57 := by
  obtain ⟨c, hc, rfl⟩ := List.mem_map.mp h
  have := isDigit_bounds (Nat.isDigit_of_mem_toDigits (by decide) (by decide) hc)
  rw [UInt8.toNat_ofNat_of_lt' (by show _ < 256; omega)]
  exact this

theorem digitsValue_chars (cs : List Char) (hd : ∀ c ∈ cs, c.isDigit = true) (init : Nat) :
    digitsValue init (cs.map fun c => UInt8.ofNat c.toNat) = some (Nat.ofDigitChars 10 cs init) := by
  induction cs generalizing init with
  | nil => simp [digitsValue]
  | cons c cs ih =>
    have hb := isDigit_bounds (hd c (by simp))
    have e : (UInt8.ofNat c.toNat).toNat = c.toNat := UInt8.toNat_ofNat_of_lt' (by show _ < 256; omega)
    rw [List.map_cons, digitsValue, e, if_pos hb, ih (fun c h => hd c (by simp [h])), Nat.ofDigitChars_cons]
    rfl

theorem digitsValue_decimal (n : Nat) : digitsValue 0 (decimal n) = some n := by
  unfold decimal
  rw [digitsValue_chars _ (fun c h => Nat.isDigit_of_mem_toDigits (by decide) (by decide) h), Nat.ofDigitChars_ten_toDigits]

theorem decimal_ne_nil (n : Nat) : decimal n ≠ [] := by
  simp [decimal, Nat.toDigits_ne_nil]

theorem parseUsize_decimal (n : Nat) : parseUsize (decimal n) = some n := by
  have h := digitsValue_decimal n
  have hm := @mem_decimal n
  have hne := decimal_ne_nil n
  generalize decimal n = w at *
  cases w with
  | nil => exact absurd rfl hne
  | cons x b =>
    unfold parseUsize
    simp only
    rw [if_neg, h]
    rintro rfl
    have := hm (x := 43) (by simp)
    revert this; decide

theorem length_decimal {n : Nat} (h : n ≤ maxChunkSize) : 1 ≤ (decimal n).length ∧ (decimal n).length ≤ 10 := by
  unfold decimal
  rw [List.length_map]
  refine ⟨Nat.length_toDigits_pos, (Nat.length_toDigits_le_iff (by decide) (by decide)).mpr ?_⟩
  unfold maxChunkSize at h; omega

theorem utf8_ascii (cs : List Char) (h : ∀ c ∈ cs, c.isDigit = true) :
    Bgp.utf8 (String.ofList cs) = cs.map fun c => UInt8.ofNat c.toNat := by
  unfold Bgp.utf8
  rw [String.toByteArray_ofList]
  unfold List.utf8Encode
  rw [List.data_toByteArray]
  simp only
  induction cs with
  | nil => rfl
  | cons c cs ih =>
    rw [List.flatMap_cons, List.map_cons, ← ih fun c hc => h c (by simp [hc])]
    have hb := isDigit_bounds (h c (by simp))
    have hv : c.val.toNat ≤ 127 := by show c.toNat ≤ 127; omega
    have : String.utf8EncodeChar c = [UInt8.ofNat c.toNat] := by
      unfold String.utf8EncodeChar
      simp only
      rw [if_pos hv]
      rfl
    rw [this]; rfl

theorem ofUtf8_decimal (n : Nat) : (Bgp.ofUtf8 (decimal n)).isNone = false := by
  unfold decimal
  rw [← utf8_ascii _ fun c h => Nat.isDigit_of_mem_toDigits (by decide) (by decide) h, Bgp.ofUtf8_utf8]
  rfl

/-! ## Chunks -/

/-- a chunk as RFC 6242 writes it -/
def rfcChunk (d : Bytes) : Bytes := chunkStart ++ (decimal d.length ++ (10 :: d))

/-- data that fits a chunk -/
def ChunkData (d : Bytes) : Prop := 1 ≤ d.length ∧ d.length ≤ maxChunkSize

theorem idxOf?_first {w x : Bytes} (h : (10 : UInt8) ∉ w) : (w ++ 10 :: x).idxOf? 10 = some w.length := by
  induction w with
  | nil => rfl
  | cons a w ih =>
    simp only [List.mem_cons, not_or] at h
    rw [List.cons_append, List.idxOf?_cons, ih h.2]
    have : (a == 10) = false := by simpa using fun e => h.1 e.symm
    rw [this]; rfl

theorem decimal_no_newline (n : Nat) : (10 : UInt8) ∉ decimal n := by
  intro h
  have := mem_decimal h
  revert this; decide

theorem nextChunk_header {ε : Type} {n : Nat} {x : Bytes} (h0 : 1 ≤ n) (h1 : n ≤ maxChunkSize)
    (hl : 13 ≤ (chunkStart ++ (decimal n ++ (10 :: x))).length) :
    (nextChunk (chunkStart ++ (decimal n ++ (10 :: x))) : Chunk ε) = if x.length < n then .wait else .chunk (x.take n) (x.drop n) := by
  have hd := length_decimal h1
  unfold nextChunk
  rw [if_neg (by omega), if_neg (by simp [chunkStart])]
  have e2 : (chunkStart ++ (decimal n ++ (10 :: x))).drop 2 = decimal n ++ (10 :: x) := rfl
  rw [e2]
  have e3 : (decimal n ++ 10 :: x).take 11 = decimal n ++ 10 :: x.take (10 - (decimal n).length) := by
    rw [List.take_append, List.take_of_length_le (by omega), show 11 - (decimal n).length = (10 - (decimal n).length) + 1 by omega, List.take_succ_cons]
  rw [e3, idxOf?_first (decimal_no_newline n)]
  simp only
  rw [List.take_left, ofUtf8_decimal, parseUsize_decimal]
  simp only [Bool.false_eq_true, if_false]
  rw [if_neg (by omega)]
  have e4 : ∀ k, (chunkStart ++ (decimal n ++ 10 :: x)).drop (2 + (decimal n).length + 1 + k) = x.drop k := by
    intro k
    rw [show chunkStart ++ (decimal n ++ 10 :: x) = (chunkStart ++ decimal n ++ [10]) ++ x by simp,
      List.drop_append, List.drop_of_length_le (by simp [chunkStart]; omega), List.nil_append]
    congr 1
    simp [chunkStart]; omega
  have e5 := e4 0
  rw [Nat.add_zero] at e5
  rw [e4, e5, List.drop_zero]
  have e6 : (chunkStart ++ (decimal n ++ 10 :: x)).length = 2 + (decimal n).length + 1 + x.length := by
    simp [chunkStart]; omega
  rw [e6]
  by_cases hx : x.length < n
  · rw [if_pos (by omega), if_pos hx]
  · rw [if_neg (by omega), if_neg hx]

theorem nextChunk_complete {ε : Type} {d rest : Bytes} (hd : ChunkData d) (hl : 13 ≤ (rfcChunk d ++ rest).length) :
    (nextChunk (rfcChunk d ++ rest) : Chunk ε) = .chunk d rest := by
  have e : rfcChunk d ++ rest = chunkStart ++ (decimal d.length ++ (10 :: (d ++ rest))) := by simp [rfcChunk]
  rw [e] at hl ⊢
  rw [nextChunk_header hd.1 hd.2 hl, if_neg (by simp), List.take_left, List.drop_left]

theorem length_rfcChunk (d : Bytes) : (rfcChunk d).length = 3 + (decimal d.length).length + d.length := by
  simp [rfcChunk, chunkStart]; omega

theorem nextChunk_partial {ε : Type} {d b : Bytes} (hd : ChunkData d) (hp : b <+: rfcChunk d) (hl : b.length < (rfcChunk d).length) :
    (nextChunk b : Chunk ε) = .wait := by
  by_cases h13 : b.length < 13
  · unfold nextChunk; rw [if_pos h13]
  · have hn := length_decimal hd.2
    have hh : (chunkStart ++ (decimal d.length ++ [10])) <+: b := by
      refine List.prefix_of_prefix_length_le ?_ hp (by simp [chunkStart]; omega)
      exact ⟨d, by simp [rfcChunk]⟩
    obtain ⟨x, rfl⟩ := hh
    have e : chunkStart ++ (decimal d.length ++ [10]) ++ x = chunkStart ++ (decimal d.length ++ (10 :: x)) := by simp
    rw [e] at h13 hl ⊢
    rw [nextChunk_header hd.1 hd.2 (by omega), if_pos]
    rw [length_rfcChunk] at hl
    simp [chunkStart] at hl
    omega

/-- chunks one after the other -/
def rfcChunks (ds : List Bytes) : Bytes := (ds.map rfcChunk).flatten

theorem not_terminator {d b t : Bytes} {x : Bytes} (h : b ++ t = rfcChunk d ++ x) : messageTerminator.isPrefixOf b = false := by
  rw [Bool.eq_false_iff]
  intro hp
  have hp := List.isPrefixOf_iff_prefix.mp hp
  obtain ⟨y, rfl⟩ := hp
  have hm := @mem_decimal d.length
  have hne := decimal_ne_nil d.length
  unfold rfcChunk at h
  generalize decimal d.length = w at *
  cases w with
  | nil => exact hne rfl
  | cons a w =>
    simp only [messageTerminator, chunkStart, List.cons_append, List.nil_append, List.cons.injEq] at h
    have := hm (x := a) (by simp)
    rw [← h.2.2.1] at this
    revert this; decide

/-- a message of RFC 6242: at least one chunk, none of them empty; the last has five octets or more -/
def Message (ds : List Bytes) : Prop := (∀ d ∈ ds, ChunkData d) ∧ ∃ d, ds.getLast? = some d ∧ 5 ≤ d.length

theorem Message.tail {d e : Bytes} {ds : List Bytes} (h : Message (d :: e :: ds)) : Message (e :: ds) := by
  obtain ⟨h1, x, h2, h3⟩ := h
  exact ⟨fun d h => h1 d (by simp [h]), x, by simpa using h2, h3⟩

/-- the octets of a message -/
def frame (ds : List Bytes) : Bytes := rfcChunks ds ++ messageTerminator

theorem frame_cons (d : Bytes) (ds : List Bytes) : frame (d :: ds) = rfcChunk d ++ frame ds := by
  simp [frame, rfcChunks]

theorem length_frame {ds : List Bytes} (h : Message ds) : 13 ≤ (frame ds).length := by
  obtain ⟨h1, x, h2, h3⟩ := h
  induction ds with
  | nil => simp at h2
  | cons d ds ih =>
    rw [frame_cons, List.length_append]
    cases ds with
    | nil =>
      simp only [List.getLast?_singleton, Option.some.injEq] at h2
      subst h2
      have := (length_decimal (h1 d (by simp)).2).1
      rw [length_rfcChunk]
      simp [frame, rfcChunks, messageTerminator]
      omega
    | cons e ds =>
      have := ih (fun d h => h1 d (by simp [h])) (by simpa using h2)
      omega

/-- what comes out of the octets of a message that are all there -/
def outcome (xml : Xml H M ε) (data rest : Bytes) : Dec (SshErr ε) (Item H M) × SshCodec × Bytes :=
  match xml.readMessage data with
  | .error e => (.out (.err (.xml e)), ⟨false, []⟩, messageTerminator ++ rest)
  | .ok m => (.out (.ok (.message m)), ⟨false, []⟩, rest)

/-- the loop on the start of a stream that begins with a message, unless it ends behind the last chunk but before the end of the terminator: the message is decoded, or
the first chunks of it are taken -/
theorem chunks_run (xml : Xml H M ε) {ds : List Bytes} (hm : Message ds) {b t tail : Bytes} (h : b ++ t = frame ds ++ tail)
    (hg : ¬ (b.length < (frame ds).length ∧ (frame ds).length ≤ b.length + 4)) (n : Nat) (hn : b.length < n) (pre : Bytes) :
    (∃ rest, b = frame ds ++ rest ∧ chunks xml n pre b = outcome xml (pre ++ ds.flatten) rest) ∨
    (∃ ds1 ds2 b', ds = ds1 ++ ds2 ∧ Message ds2 ∧ chunks xml n pre b = (.wait, ⟨false, pre ++ ds1.flatten⟩, b') ∧
      b' ++ t = frame ds2 ++ tail ∧ b'.length < (frame ds2).length) := by
  induction ds generalizing b n pre with
  | nil => obtain ⟨_, x, h2, _⟩ := hm; simp at h2
  | cons d ds ih =>
    obtain ⟨k, rfl⟩ : ∃ k, n = k + 1 := ⟨n - 1, by omega⟩
    have hd := hm.1 d (by simp)
    have h13 := length_frame hm
    have hlen := length_rfcChunk d
    have hdec := length_decimal hd.2
    by_cases hw : b.length < (rfcChunk d).length ∨ b.length < 13
    · right
      refine ⟨[], d :: ds, b, rfl, hm, ?_, h, ?_⟩
      · unfold chunks
        have : (nextChunk b : Chunk ε) = .wait := by
          by_cases h12 : b.length < 13
          · unfold nextChunk; rw [if_pos h12]
          · have hb : b.length < (rfcChunk d).length := by omega
            refine nextChunk_partial hd (List.prefix_of_prefix_length_le ⟨t, h⟩ ?_ (by omega)) hb
            rw [frame_cons, List.append_assoc]; exact ⟨_, rfl⟩
        rw [this]; simp
      · rw [frame_cons, List.length_append] at h13 ⊢
        omega
    · have hb : rfcChunk d <+: b := by
        refine List.prefix_of_prefix_length_le ?_ ⟨t, h⟩ (by omega)
        rw [frame_cons, List.append_assoc]; exact ⟨_, rfl⟩
      obtain ⟨r, rfl⟩ := hb
      have hr : r ++ t = frame ds ++ tail := by
        rw [frame_cons, List.append_assoc, List.append_assoc] at h
        exact List.append_cancel_left h
      have hc : (nextChunk (rfcChunk d ++ r) : Chunk ε) = .chunk d r := nextChunk_complete hd (by omega)
      unfold chunks
      rw [hc]
      simp only
      rw [frame_cons, List.length_append, List.length_append] at hg
      cases ds with
      | nil =>
        have e : frame ([] : List Bytes) = messageTerminator := rfl
        rw [e] at hg hr
        have h4 : messageTerminator.length = 4 := rfl
        have hp : messageTerminator <+: r := List.prefix_of_prefix_length_le ⟨tail, hr.symm ▸ rfl⟩ ⟨t, rfl⟩ (by omega)
        obtain ⟨rest, rfl⟩ := hp
        left
        refine ⟨rest, by rw [frame_cons, e, List.append_assoc], ?_⟩
        rw [if_pos (List.isPrefixOf_iff_prefix.mpr ⟨rest, rfl⟩)]
        unfold outcome
        simp only [List.flatten_cons, List.flatten_nil, List.append_nil]
        cases xml.readMessage (pre ++ d) with
        | error e => rfl
        | ok m => simp only; rw [List.drop_append, h4]; simp [messageTerminator]
      | cons e ds =>
        have hnt : messageTerminator.isPrefixOf r = false := by
          rw [frame_cons, List.append_assoc] at hr
          exact not_terminator hr
        rw [hnt]
        simp only [Bool.false_eq_true, if_false]
        have hlt : r.length < k := by rw [List.length_append] at hn; omega
        rcases ih hm.tail hr (by omega) k hlt (pre ++ d) with ⟨rest, rfl, h2⟩ | ⟨ds1, ds2, b', h2, h3, h4, h5, h6⟩
        · left
          refine ⟨rest, by rw [frame_cons d, List.append_assoc], ?_⟩
          rw [h2, List.flatten_cons (l := d), List.append_assoc]
        · right
          refine ⟨d :: ds1, ds2, b', by rw [h2]; rfl, h3, ?_, h5, h6⟩
          rw [h4, List.flatten_cons, List.append_assoc]

/-! ## The terminator of a hello -/

theorem position_bound {pat b : Bytes} {i : Nat} (h : position pat b = some i) : i + pat.length ≤ b.length := by
  induction b generalizing i with
  | nil =>
    unfold position at h
    split at h
    · rename_i hp
      have : pat = [] := by simpa using hp
      subst this
      simp only [Option.some.injEq] at h
      subst h; simp
    · simp at h
  | cons x b ih =>
    unfold position at h
    split at h
    · rename_i hp
      simp only [Option.some.injEq] at h
      subst h
      have := (List.isPrefixOf_iff_prefix.mp hp).length_le
      omega
    · obtain ⟨j, hj, rfl⟩ := Option.map_eq_some_iff.mp h
      have := ih hj
      simp only [List.length_cons]; omega

theorem position_append {pat b u : Bytes} {i : Nat} (h : position pat b = some i) : position pat (b ++ u) = some i := by
  induction b generalizing i with
  | nil =>
    unfold position at h
    split at h
    · rename_i hp
      have : pat = [] := by simpa using hp
      subst this
      simp only [Option.some.injEq] at h
      subst h
      cases u <;> simp [position]
    · simp at h
  | cons x b ih =>
    unfold position at h
    rw [List.cons_append]
    unfold position
    split at h
    · rename_i hp
      rw [if_pos]
      · exact h
      · have := List.isPrefixOf_iff_prefix.mp hp
        exact List.isPrefixOf_iff_prefix.mpr (this.trans ⟨u, rfl⟩)
    · rename_i hp
      obtain ⟨j, hj, rfl⟩ := Option.map_eq_some_iff.mp h
      split
      · rename_i hp'
        -- a match that needs more octets than there are contradicts the later match
        exfalso
        have hlen : pat.length ≤ b.length := by have := position_bound hj; omega
        have h1 := List.isPrefixOf_iff_prefix.mp hp'
        have h2 : pat <+: x :: b := List.prefix_of_prefix_length_le h1 ⟨u, rfl⟩ (by simp only [List.length_cons]; omega)
        exact hp (List.isPrefixOf_iff_prefix.mpr h2)
      · rw [ih hj]; rfl

end Verif.Netconf
