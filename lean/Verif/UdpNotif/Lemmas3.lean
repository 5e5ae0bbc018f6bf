import Verif.UdpNotif.Lemmas2
import Verif.UdpNotif.Spec
/-!
# UDP-notif: reassembly of one message, isolation between messages
-/
namespace Verif.UdpNotif
open Verif Parser

theorem lastOf_append (arr : List (Nat × Packet)) (x : Nat × Packet) (i : Nat) :
    lastOf (arr ++ [x]) i = if i = x.1 then some x.2 else lastOf arr i := by
  unfold lastOf
  rw [List.reverse_append]
  simp only [List.reverse_cons, List.reverse_nil, List.nil_append, List.cons_append, List.find?_cons]
  by_cases h : x.1 = i
  · simp [h]
  · simp [h, Ne.symm h]

theorem lastOf_isSome (arr : List (Nat × Packet)) (i : Nat) :
    (lastOf arr i).isSome ↔ i ∈ arr.map Prod.fst := by
  unfold lastOf
  simp [List.find?_isSome]

theorem lastOf_mem {arr : List (Nat × Packet)} {i : Nat} {p : Packet} (h : lastOf arr i = some p) :
    (i, p) ∈ arr := by
  unfold lastOf at h
  simp only [Option.map_eq_some_iff] at h
  obtain ⟨x, hx, rfl⟩ := h
  have h1 := List.mem_of_find?_eq_some hx
  have h2 := List.find?_some hx
  simp only [decide_eq_true_eq] at h2
  subst h2; simpa using h1

/-- the buffer holds exactly the segments received so far -/
structure BufInv (n : Nat) (arr : List (Nat × Packet)) (b : RBuf) : Prop where
  sorted : BMap.Sorted b.segments
  get : ∀ i, BMap.get? b.segments i = lastOf arr i
  last : b.hasLast = decide (n ∈ arr.map Prod.fst)
  count : n ∈ arr.map Prod.fst → b.expectedCount = n + 1

theorem bufInv_new (n now : Nat) : BufInv n [] (RBuf.new now) :=
  ⟨by simp [RBuf.new, BMap.Sorted], fun i => by simp [RBuf.new, BMap.get?, lastOf], by simp [RBuf.new],
    by simp⟩

theorem bufInv_add {n i : Nat} {p : Packet} {arr : List (Nat × Packet)} {b : RBuf} (hn : n < 2 ^ 15)
    (hi : i ≤ n) (h : BufInv n arr b) :
    ∃ b', b.addSegment (UInt16.ofNat i) p (decide (i = n)) = .ok b' ∧ BufInv n (arr ++ [(i, p)]) b' ∧
      b'.timestamp = b.timestamp := by
  have hti : (UInt16.ofNat i).toNat = i := by simp [UInt16.toNat_ofNat']; omega
  have hget : ∀ j, BMap.get? (BMap.insert i p b.segments) j = lastOf (arr ++ [(i, p)]) j := by
    intro j
    rw [BMap.get?_insert _ _ _ _ h.sorted, lastOf_append, h.get]
  unfold RBuf.addSegment
  rw [hti]
  by_cases hin : i = n
  · subst hin
    simp only [decide_true, ↓reduceIte]
    rw [if_neg (by omega)]
    exact ⟨_, rfl, ⟨BMap.sorted_insert _ _ _ h.sorted, hget, by simp, fun _ => rfl⟩, rfl⟩
  · simp only [hin, decide_false, Bool.false_eq_true, ↓reduceIte]
    refine ⟨_, rfl, ⟨BMap.sorted_insert _ _ _ h.sorted, hget, ?_, ?_⟩, rfl⟩
    · simp only [h.last, List.map_append, List.mem_append]
      simp [Ne.symm hin]
    · intro hmem
      apply h.count
      simp only [List.map_append, List.mem_append] at hmem
      simpa [Ne.symm hin] using hmem

theorem bufInv_keys {n : Nat} {arr : List (Nat × Packet)} {b : RBuf} (h : BufInv n arr b) (i : Nat) :
    i ∈ b.segments.map Prod.fst ↔ i ∈ arr.map Prod.fst := by
  rw [← lastOf_isSome arr, ← h.get]
  constructor
  · intro hi
    obtain ⟨⟨k, v⟩, hx, rfl⟩ := List.mem_map.mp hi
    rw [(BMap.get?_eq_some _ h.sorted k v).mpr hx]; rfl
  · intro hi
    obtain ⟨v, hv⟩ := Option.isSome_iff_exists.mp hi
    exact List.mem_map.mpr ⟨(i, v), (BMap.get?_eq_some _ h.sorted i v).mp hv, rfl⟩

theorem bufInv_full {n : Nat} {arr : List (Nat × Packet)} {b : RBuf} (h : BufInv n arr b)
    (hall : ∀ i ≤ n, i ∈ arr.map Prod.fst) (hle : ∀ i ∈ arr.map Prod.fst, i ≤ n) :
    b.segments.map Prod.fst = List.range' 0 (n + 1) := by
  apply BMap.sorted_ext h.sorted List.pairwise_lt_range'
  intro x
  rw [bufInv_keys h]
  simp only [List.mem_range'_1]
  constructor
  · intro hx; have := hle x hx; omega
  · intro hx; exact hall x (by omega)

theorem bufInv_ready {n : Nat} {arr : List (Nat × Packet)} {b : RBuf} (h : BufInv n arr b)
    (hle : ∀ i ∈ arr.map Prod.fst, i ≤ n) :
    b.ready = true ↔ ∀ i ≤ n, i ∈ arr.map Prod.fst := by
  unfold RBuf.ready
  constructor
  · intro hr
    simp only [Bool.and_eq_true, h.last, decide_eq_true_eq, beq_iff_eq] at hr
    rw [h.count hr.1] at hr
    have hf := BMap.sorted_full (l := b.segments.map Prod.fst) (lo := 0) h.sorted (by
      intro x hx
      have := hle x ((bufInv_keys h x).mp hx)
      simp only [List.length_map]; omega)
    intro i hi
    rw [← bufInv_keys h, hf]
    simp only [List.length_map, List.mem_range'_1]; omega
  · intro hall
    have hf := bufInv_full h hall hle
    have hlen : b.segments.length = n + 1 := by
      have := congrArg List.length hf; simpa using this
    simp [h.last, h.count (hall n (Nat.le_refl n)), hlen, hall n (Nat.le_refl n)]

theorem firstGap_none : ∀ {l : BMap Packet} {lo : Nat}, l.map Prod.fst = List.range' lo l.length →
    firstGap lo l = none
  | [], _, _ => rfl
  | (k, p) :: l, lo, h => by
    simp only [List.map_cons, List.length_cons, List.range'_succ, List.cons.injEq] at h
    unfold firstGap
    rw [if_neg (by omega)]
    exact firstGap_none h.2

theorem bufInv_reassemble {n : Nat} {arr : List (Nat × Packet)} {b : RBuf} (h : BufInv n arr b)
    (hall : ∀ i ≤ n, i ∈ arr.map Prod.fst) (hle : ∀ i ∈ arr.map Prod.fst, i ≤ n) :
    ∃ first rest, segmentsOf n arr = first :: rest ∧ lastOf arr 0 = some first ∧
      b.reassemble = .ok ⟨first.mediaType, first.publisherId, first.messageId, mergeOpts rest,
        ((segmentsOf n arr).map Packet.payload).flatten⟩ := by
  have hf := bufInv_full h hall hle
  have hlen : b.segments.length = n + 1 := by
    have := congrArg List.length hf; simpa using this
  have hsnd : b.segments.map Prod.snd = segmentsOf n arr := by
    rw [BMap.map_snd_eq _ h.sorted, hf, segmentsOf, ← List.range_eq_range']
    exact BMap.filterMap_congr' (fun i _ => h.get i)
  unfold RBuf.reassemble
  have hl : b.hasLast = true := by rw [h.last]; simpa using hall n (Nat.le_refl n)
  have hfg : firstGap 0 b.segments = none := firstGap_none (by rw [hf, hlen])
  simp only [hl, Bool.not_true, Bool.false_eq_true, ↓reduceIte, h.count (hall n (Nat.le_refl n)), hlen,
    ne_eq, not_true_eq_false, hfg]
  cases hs : b.segments with
  | nil => rw [hs] at hlen; simp at hlen
  | cons x rest =>
    obtain ⟨k, first⟩ := x
    rw [hs] at hsnd hf
    simp only [List.map_cons] at hsnd hf
    refine ⟨first, rest.map Prod.snd, hsnd.symm, ?_, ?_⟩
    · rw [← h.get 0]
      rw [List.range'_succ] at hf
      simp only [List.cons.injEq] at hf
      rw [hs, hf.1]; simp [BMap.get?]
    · rw [← hsnd]; simp [Function.comp_def]

/-- what one arrival does -/
theorem tryReassemble_seg {key : Key} {n i : Nat} {p : Packet} (hs : IsSegment key n i p) (hn : n < 2 ^ 15)
    (h1 : 1 ≤ n) (c : Codec) (now : Nat) (arr : List (Nat × Packet))
    (hle : ∀ x ∈ arr, x.1 ≤ n) (hb : BufInv n arr (c.entry key now)) :
    if ∀ j ≤ n, j ∈ (arr ++ [(i, p)]).map Prod.fst then
      ∃ first rest, segmentsOf n (arr ++ [(i, p)]) = first :: rest ∧
        lastOf (arr ++ [(i, p)]) 0 = some first ∧
        tryReassemble c now p = (.ok (some ⟨first.mediaType, first.publisherId, first.messageId,
          mergeOpts rest, ((segmentsOf n (arr ++ [(i, p)])).map Packet.payload).flatten⟩),
          { c with incomplete := c.incomplete.erase key })
    else ∃ b, tryReassemble c now p = (.ok none, { c with incomplete := c.incomplete.insert key b }) ∧
      BufInv n (arr ++ [(i, p)]) b ∧ b.timestamp = (c.entry key now).timestamp := by
  obtain ⟨b', hadd, hinv, hts⟩ := bufInv_add (p := p) hn hs.le hb
  have hle' : ∀ j ∈ (arr ++ [(i, p)]).map Prod.fst, j ≤ n := by
    intro j hj
    obtain ⟨x, hx, rfl⟩ := List.mem_map.mp hj
    rcases List.mem_append.mp hx with hx | hx
    · exact hle x hx
    · simp only [List.mem_singleton] at hx; subst hx; exact hs.le
  have hnot : ¬ (UInt16.ofNat i = 0 ∧ decide (i = n) = true) := by
    rintro ⟨h0, hi⟩
    simp only [decide_eq_true_eq] at hi
    have := congrArg UInt16.toNat h0
    simp only [UInt16.toNat_ofNat', UInt16.toNat_zero] at this
    omega
  have hex : extractSegmentInfo p.options = .ok (UInt16.ofNat i, decide (i = n)) := by
    unfold extractSegmentInfo; rw [hs.opt]
  unfold tryReassemble
  rw [hex]
  simp only
  rw [if_neg hnot, hs.key, hadd]
  simp only
  by_cases hall : ∀ j ≤ n, j ∈ (arr ++ [(i, p)]).map Prod.fst
  · rw [if_pos hall, if_pos ((bufInv_ready hinv hle').mpr hall)]
    obtain ⟨first, rest, e1, e2, e3⟩ := bufInv_reassemble hinv hall hle'
    exact ⟨first, rest, e1, e2, by rw [e3]⟩
  · rw [if_neg hall, if_neg (fun hr => hall ((bufInv_ready hinv hle').mp hr))]
    exact ⟨b', rfl, hinv, hts⟩

/-- a packet of another message does not touch the buffer -/
theorem tryReassemble_other (c : Codec) (now : Nat) (p : Packet) (key : Key)
    (h : (p.publisherId, p.messageId) ≠ key) :
    (tryReassemble c now p).2.incomplete key = c.incomplete key := by
  unfold tryReassemble
  cases extractSegmentInfo p.options with
  | fault f => rfl
  | err e => rfl
  | ok x =>
    obtain ⟨seg, last⟩ := x
    simp only
    split
    · rfl
    · cases (c.entry (p.publisherId, p.messageId) now).addSegment seg p last with
      | fault f => rfl
      | err e => nomatch e
      | ok b =>
        simp only
        split
        · cases b.reassemble <;> exact HMap.erase_ne _ (Ne.symm h)
        · exact HMap.insert_ne _ _ (Ne.symm h)

theorem tryReassemble_inMessage (c : Codec) (now : Nat) (p : Packet) :
    (tryReassemble c now p).2.inMessage = c.inMessage := by
  unfold tryReassemble
  cases extractSegmentInfo p.options with
  | fault f => rfl
  | err e => rfl
  | ok x =>
    obtain ⟨seg, last⟩ := x
    simp only
    split
    · rfl
    · cases (c.entry (p.publisherId, p.messageId) now).addSegment seg p last with
      | fault f => rfl
      | err e => nomatch e
      | ok b =>
        simp only
        split
        · cases b.reassemble <;> rfl
        · rfl

theorem fromBytes_write (p : Packet) (hw : p.WF) (order : List (OptCode × Opt))
    (ho : HMap.Enum order p.options) (b : Bytes) (h : p.write order = .ok b) :
    fromBytes b = .ok p := by
  have hp := parseHeader_write p hw order ho b h [] 0
  have hlen := length_write p order b h
  have hb := (write_ok h).2.2
  rw [List.append_nil] at hp
  unfold fromBytes Reader.new
  rw [hp]
  simp only
  unfold Packet.len at hlen
  rw [if_pos (by omega)]
  have : (b.drop (0 + (12 + optsLen order))).take p.payload.length = p.payload := by
    rw [hb, List.drop_left' (by simp only [List.length_append, length_optsWrite, length_u16be, length_u32be, List.length_cons, List.length_nil]; omega)]
    simp
  rw [this]

/-- decoding the encoding of a packet hands the packet to the reassembly -/
theorem decode_write (c : Codec) (now : Nat) (p : Packet) (hw : p.WF) (order : List (OptCode × Opt))
    (ho : HMap.Enum order p.options) (b : Bytes) (h : p.write order = .ok b) :
    decode c now b = ((tryReassemble { c with inMessage := false } now p).1,
      (tryReassemble { c with inMessage := false } now p).2, []) := by
  have hf := fromBytes_write p hw order ho b h
  have hlen := length_write p order b h
  obtain ⟨h1, h2, hb⟩ := write_ok h
  unfold Packet.len at hlen
  have hH : (UInt8.ofNat (12 + optsLen order)).toNat = 12 + optsLen order := by
    simp [UInt8.toNat_ofNat']; omega
  have hM : (UInt16.ofNat (12 + optsLen order + p.payload.length)).toNat
      = 12 + optsLen order + p.payload.length := by
    simp [UInt16.toNat_ofNat']; omega
  have hb1 : b[1]? = some (UInt8.ofNat (12 + optsLen order)) := by rw [hb]; simp
  have hb2 : u16of ((b.drop 2).take 2) = UInt16.ofNat (12 + optsLen order + p.payload.length) := by
    rw [hb]
    simp only [List.append_assoc, List.cons_append, List.nil_append, List.drop_succ_cons, List.drop_zero]
    rw [List.take_left' (by simp)]; simp
  have hc : checkLen c b = (.ok (some (UInt8.ofNat (12 + optsLen order),
      UInt16.ofNat (12 + optsLen order + p.payload.length))), c) := by
    unfold checkLen
    rw [if_neg (by simp; intro _; omega), hb1]
    simp only [hH, hb2, hM]
    rw [if_neg (by omega), if_neg (by omega), if_neg (by omega), if_neg (by omega), if_neg (by omega)]
  unfold decode
  rw [hc]
  simp only [hM]
  rw [if_neg (by omega), hf]

theorem checkLen_cases (c : Codec) (d : Bytes) :
    (checkLen c d = (.ok none, c) ∧ c.inMessage = false ∧ d.length < 12) ∨
    (checkLen c d = (.fault .panic, c) ∧ c.inMessage = true ∧ d.length < 2) ∨
    (2 ≤ d.length ∧ ((∃ e, checkLen c d = (.err e, c)) ∨
      (checkLen c d = (.ok none, { c with inMessage := true })) ∨
      (∃ hl, checkLen c d = (.ok (some (hl, u16of ((d.drop 2).take 2))), c) ∧ 12 ≤ hl.toNat ∧
        hl.toNat ≤ (u16of ((d.drop 2).take 2)).toNat ∧ (u16of ((d.drop 2).take 2)).toNat ≤ d.length))) := by
  unfold checkLen
  by_cases h1 : (!c.inMessage && decide (d.length < 12)) = true
  · rw [if_pos h1]
    simp only [Bool.and_eq_true, Bool.not_eq_true', decide_eq_true_eq] at h1
    exact .inl ⟨rfl, h1⟩
  · rw [if_neg h1]
    simp only [Bool.and_eq_true, Bool.not_eq_true', decide_eq_true_eq, not_and] at h1
    cases hd1 : d[1]? with
    | none =>
      rw [List.getElem?_eq_none_iff] at hd1
      refine .inr (.inl ⟨rfl, ?_, by omega⟩)
      cases hm : c.inMessage
      · exact absurd (h1 hm) (by omega)
      · rfl
    | some hl =>
      have hlen : 1 < d.length := by
        rw [List.getElem?_eq_some_iff] at hd1; exact hd1.1
      refine .inr (.inr ⟨hlen, ?_⟩)
      simp only
      by_cases ha : hl.toNat < 12
      · rw [if_pos ha]; exact .inl ⟨_, rfl⟩
      rw [if_neg ha]
      by_cases hb : d.length < hl.toNat
      · rw [if_pos hb]; exact .inr (.inl rfl)
      rw [if_neg hb, if_neg (by omega)]
      by_cases hm : (u16of ((d.drop 2).take 2)).toNat < hl.toNat
      · rw [if_pos hm]; exact .inl ⟨_, rfl⟩
      rw [if_neg hm]
      by_cases hn : d.length < (u16of ((d.drop 2).take 2)).toNat
      · rw [if_pos hn]; exact .inr (.inl rfl)
      rw [if_neg hn]
      exact .inr (.inr ⟨hl, rfl, by omega, by omega, by omega⟩)

/-- all the ways decoding one datagram can go -/
theorem decode_cases (c : Codec) (now : Nat) (d : Bytes) :
    (decode c now d = (.ok none, c, d) ∧ c.inMessage = false ∧ d.length < 12) ∨
    (decode c now d = (.fault .panic, c, d) ∧ c.inMessage = true ∧ d.length < 2) ∨
    (2 ≤ d.length ∧ ((∃ e m r, decode c now d = (.err e, { c with inMessage := m }, r)) ∨
      (decode c now d = (.ok none, { c with inMessage := true }, d)) ∨
      (∃ p, fromBytes d = .ok p ∧ p.WF ∧ d.length = (u16of ((d.drop 2).take 2)).toNat ∧
        decode c now d = ((tryReassemble { c with inMessage := false } now p).1,
          (tryReassemble { c with inMessage := false } now p).2, [])))) := by
  unfold decode
  rcases checkLen_cases c d with ⟨h, h2⟩ | ⟨h, h2⟩ | ⟨hl2, ⟨e, h⟩ | h | ⟨hl, h, h12, hle, hlen⟩⟩
  · rw [h]; exact .inl ⟨rfl, h2⟩
  · rw [h]; exact .inr (.inl ⟨rfl, h2⟩)
  · rw [h]; exact .inr (.inr ⟨hl2, .inl ⟨e, c.inMessage, d, rfl⟩⟩)
  · rw [h]; exact .inr (.inr ⟨hl2, .inr (.inl rfl)⟩)
  · rw [h]
    refine .inr (.inr ⟨hl2, ?_⟩)
    simp only
    by_cases hne : d.length ≠ (u16of ((d.drop 2).take 2)).toNat
    · rw [if_pos hne]; exact .inl ⟨_, _, _, rfl⟩
    · rw [if_neg hne]
      have hs := fromBytes_spec d hlen
      cases hf : fromBytes d with
      | ok p => rw [hf] at hs; exact .inr (.inr ⟨p, rfl, hs, by omega, rfl⟩)
      | err e => exact .inl ⟨_, _, _, rfl⟩
      | fault f => rw [hf] at hs; exact hs.elim

/-- a datagram that is not an encoding of a packet of the message leaves its buffer alone -/
theorem decode_other (c : Codec) (now : Nat) (b : Bytes) (key : Key)
    (h : ∀ p, fromBytes b = .ok p → (p.publisherId, p.messageId) ≠ key) :
    (decode c now b).2.1.incomplete key = c.incomplete key := by
  rcases decode_cases c now b with ⟨e, -⟩ | ⟨e, -⟩ | ⟨-, ⟨_, _, _, e⟩ | e | ⟨p, hp, -, -, e⟩⟩
  · rw [e]
  · rw [e]
  · rw [e]
  · rw [e]
  · rw [e]; exact tryReassemble_other _ _ _ _ (h p hp)

/-- every buffer holds packets of the message it is filed under -/
def KeyInv (c : Codec) : Prop :=
  ∀ k b, c.incomplete k = some b → ∀ x ∈ b.segments, x.2.key = k

theorem addSegment_segments {b b' : RBuf} {n p l} (h : b.addSegment n p l = .ok b') :
    b'.segments = BMap.insert n.toNat p b.segments ∧ b'.timestamp = b.timestamp := by
  unfold RBuf.addSegment at h
  cases l
  · simp only [Bool.false_eq_true, ↓reduceIte, Res.ok.injEq] at h; rw [← h]; exact ⟨rfl, rfl⟩
  · simp only [↓reduceIte] at h
    split at h
    · simp at h
    · simp only [Res.ok.injEq] at h; rw [← h]; exact ⟨rfl, rfl⟩

theorem mem_BMap_insert_weak {α : Type} (k : Nat) (v : α) (m : BMap α) (x : Nat × α)
    (h : x ∈ BMap.insert k v m) : x = (k, v) ∨ x ∈ m := by
  induction m with
  | nil => simpa [BMap.insert] using h
  | cons q m ih =>
    unfold BMap.insert at h
    split at h
    · simpa using h
    · split at h
      · rcases List.mem_cons.mp h with h | h
        · exact .inl h
        · exact .inr (by simp [h])
      · rcases List.mem_cons.mp h with h | h
        · exact .inr (by simp [h])
        · rcases ih h with h | h
          · exact .inl h
          · exact .inr (by simp [h])

theorem keyInv_entry {c : Codec} (h : KeyInv c) (k : Key) (now : Nat) :
    ∀ x ∈ (c.entry k now).segments, x.2.key = k := by
  unfold Codec.entry
  cases hk : c.incomplete k with
  | none => simp [RBuf.new]
  | some b => exact h k b hk

theorem reassemble_key {b : RBuf} {k : Key} (h : ∀ x ∈ b.segments, x.2.key = k) {q : Packet}
    (hq : b.reassemble = .ok q) : q.key = k := by
  unfold RBuf.reassemble at hq
  split at hq
  · simp at hq
  split at hq
  · simp at hq
  split at hq
  · simp at hq
  split at hq
  · simp at hq
  · rename_i hs
    simp only [Res.ok.injEq] at hq
    rw [← hq]
    exact h _ (by rw [hs]; exact List.mem_cons_self)

theorem tryReassemble_keyInv {c : Codec} (h : KeyInv c) (now : Nat) (p : Packet) :
    KeyInv (tryReassemble c now p).2 ∧
    ∀ q, (tryReassemble c now p).1 = .ok (some q) → q.key = p.key := by
  unfold tryReassemble
  cases extractSegmentInfo p.options with
  | fault f => exact ⟨h, by simp⟩
  | err e => exact ⟨h, by simp⟩
  | ok x =>
    obtain ⟨seg, last⟩ := x
    simp only
    split
    · exact ⟨h, by simp⟩
    · cases ha : (c.entry (p.publisherId, p.messageId) now).addSegment seg p last with
      | fault f => exact ⟨h, by simp⟩
      | err e => nomatch e
      | ok b =>
        have hb : ∀ x ∈ b.segments, x.2.key = p.key := by
          intro x hx
          rw [(addSegment_segments ha).1] at hx
          rcases mem_BMap_insert_weak _ _ _ _ hx with rfl | hx
          · rfl
          · exact keyInv_entry h _ _ _ hx
        have he : KeyInv { c with incomplete := c.incomplete.erase (p.publisherId, p.messageId) } := by
          intro k b' hk
          by_cases hkk : k = (p.publisherId, p.messageId)
          · subst hkk; simp at hk
          · simp only [HMap.erase_ne _ hkk] at hk; exact h k b' hk
        simp only
        split
        · cases hr : b.reassemble with
          | ok q => exact ⟨he, fun q' e => by simp at e; rw [← e]; exact reassemble_key hb hr⟩
          | err e => exact ⟨he, by simp⟩
          | fault f => exact ⟨he, by simp⟩
        · refine ⟨?_, by simp⟩
          intro k b' hk
          by_cases hkk : k = (p.publisherId, p.messageId)
          · subst hkk; simp at hk; subst hk; exact hb
          · simp only [HMap.insert_ne _ _ hkk] at hk; exact h k b' hk

theorem decode_keyInv {c : Codec} (h : KeyInv c) (now : Nat) (d : Bytes) : KeyInv (decode c now d).2.1 := by
  rcases decode_cases c now d with ⟨e, -⟩ | ⟨e, -⟩ | ⟨-, ⟨_, _, _, e⟩ | e | ⟨p, hp, -, -, e⟩⟩
  · rw [e]; exact h
  · rw [e]; exact h
  · rw [e]; exact h
  · rw [e]; exact h
  · rw [e]; exact (tryReassemble_keyInv (c := { c with inMessage := false }) h now p).1

theorem reach_keyInv {c : Codec} (h : Reach c) : KeyInv c := by
  induction h with
  | new => intro k b hk; simp [Codec.new] at hk
  | step now d _ ih => exact decode_keyInv ih now d
  | cleanup now timeout _ ih =>
    intro k b hk
    simp only [Codec.cleanup] at hk
    split at hk
    · split at hk
      · simp at hk
      · rename_i b' hb' _
        simp only [Option.some.injEq] at hk; subst hk; exact ih k _ hb'
    · simp at hk

end Verif.UdpNotif
