import Verif.UdpNotif.Spec
/-!
# Lemmas about the UDP-notif serializer and parser
-/
namespace Verif.UdpNotif
open Verif

theorem u16be_eq (x : UInt16) : u16be x = [UInt8.ofNat (x.toNat / 256), UInt8.ofNat x.toNat] := by
  simp [u16be, beBytes]

theorem seg_word (n : UInt16) (l : Bool) (h : n.toNat < 2 ^ 15) :
    ((n <<< 1) ||| (if l then 1 else 0)).toNat = 2 * n.toNat + l.toNat := by
  rw [UInt16.toNat_or, UInt16.toNat_shiftLeft]
  have h1 : (n.toNat <<< ((1 : UInt16).toNat % 16)) % 2 ^ 16 = n.toNat <<< 1 := by
    simp [Nat.shiftLeft_eq]; omega
  rw [h1]
  cases l
  · simp [Nat.shiftLeft_eq]; omega
  · simp only [↓reduceIte, UInt16.toNat_one, Bool.toNat_true]
    rw [← Nat.shiftLeft_add_eq_or_of_lt (by decide)]
    simp [Nat.shiftLeft_eq]; omega

theorem seg_number (x : Nat) (hx : x < 65536) :
    ((UInt8.ofNat (x / 256)).toUInt16 <<< 7) ||| ((UInt8.ofNat x).toUInt16 >>> 1)
      = UInt16.ofNat (x / 2) := by
  apply UInt16.toNat_inj.mp
  rw [UInt16.toNat_or, UInt16.toNat_shiftLeft, UInt16.toNat_shiftRight]
  simp only [UInt8.toNat_toUInt16, UInt8.toNat_ofNat', UInt16.toNat_ofNat']
  have h1 : ((x / 256 % 2 ^ 8) <<< ((7 : UInt16).toNat % 16)) % 2 ^ 16 = (x / 256) <<< 7 := by
    show ((x / 256 % 2 ^ 8) <<< 7) % 2 ^ 16 = _
    rw [Nat.shiftLeft_eq, Nat.shiftLeft_eq]; omega
  have h2 : (x % 2 ^ 8) >>> ((1 : UInt16).toNat % 16) = x % 256 / 2 := by
    show (x % 2 ^ 8) >>> 1 = _
    rw [Nat.shiftRight_eq_div_pow]
  rw [h1, h2, ← Nat.shiftLeft_add_eq_or_of_lt (by omega), Nat.shiftLeft_eq]
  omega

theorem seg_last (x : Nat) : ((UInt8.ofNat x &&& 1) != 0) = decide (x % 2 = 1) := by
  have h : (UInt8.ofNat x &&& 1).toNat = x % 2 := by
    rw [UInt8.toNat_and, UInt8.toNat_ofNat', UInt8.toNat_one, Nat.and_one_is_mod]; omega
  rw [Bool.eq_iff_iff]
  simp only [bne_iff_ne, ne_eq, decide_eq_true_eq]
  rw [← UInt8.toNat_inj, h]
  simp only [UInt8.toNat_zero]
  omega

theorem Opt.length_write (o : Opt) : o.write.length = o.len := by
  cases o <;> simp [Opt.write, Opt.len] <;> omega

theorem optLen_byte (n : Nat) (h : 2 + n ≤ 255) : (UInt8.ofNat n + 2).toNat = 2 + n := by
  rw [UInt8.toNat_add, UInt8.toNat_ofNat']
  show (n % 2 ^ 8 + 2) % 2 ^ 8 = _
  omega

theorem parseOpt_write (o : Opt) (hw : o.WF) (hl : o.len ≤ 255) (bs : Bytes) (off : Nat) :
    parseOpt ⟨o.write ++ bs, off⟩ = (.ok o, ⟨bs, off + o.len⟩) := by
  cases o with
  | segment n l =>
    have hn := hw.number n l rfl
    have hx := seg_word n l hn
    simp only [Opt.write, Opt.len, List.cons_append, List.nil_append]
    generalize hxx : ((n <<< 1) ||| (if l then 1 else 0)) = x at *
    simp only [parseOpt, Parser.bind_run, Parser.mapErr_run, readU8_cons, Res.mapErr_ok]
    simp only [show (4 : UInt8).toNat = 4 from rfl, show ¬ (4 < 2) by decide, ↓reduceIte,
      Parser.bind_run, Parser.mapErr_run, show 4 - 2 = 2 from rfl]
    rw [readBytes_append (length_u16be x)]
    simp only [Res.mapErr_ok, ↓reduceIte, Parser.bind_run, Parser.onSub_run, Parser.mapErr_run,
      u16be_eq, Reader.new, readU8_cons, Parser.pure_run, seg_last]
    rw [seg_number _ x.toNat_lt, hx]
    congr 2
    · congr 1
      · have : (2 * n.toNat + l.toNat) / 2 = n.toNat := by cases l <;> simp <;> omega
        rw [this]; simp
      · cases l <;> simp <;> omega
  | privateEncoding v =>
    simp only [Opt.len] at hl
    simp only [Opt.write, Opt.len, List.cons_append, List.nil_append]
    simp only [parseOpt, Parser.bind_run, Parser.mapErr_run, readU8_cons, Res.mapErr_ok,
      optLen_byte _ hl]
    rw [if_neg (by omega)]
    simp only [Parser.bind_run, Parser.mapErr_run]
    rw [readBytes_append (by omega)]
    simp only [Res.mapErr_ok, show ¬ ((2 : UInt8) = 1) by decide, ↓reduceIte, Parser.pure_run]
    congr 2; omega
  | unknown t v =>
    have ht := hw.typ t v rfl
    simp only [Opt.len] at hl
    simp only [Opt.write, Opt.len, List.cons_append, List.nil_append]
    simp only [parseOpt, Parser.bind_run, Parser.mapErr_run, readU8_cons, Res.mapErr_ok,
      optLen_byte _ hl]
    rw [if_neg (by omega)]
    simp only [Parser.bind_run, Parser.mapErr_run]
    rw [readBytes_append (by omega)]
    simp only [Res.mapErr_ok, ht.1, ht.2, ↓reduceIte, Parser.pure_run]
    congr 2; omega

theorem optsMap_eq (l : List (OptCode × Opt)) (h : ∀ x ∈ l, x.2.code = x.1) :
    optsMap (l.map Prod.snd) = HMap.ofList l := by
  unfold optsMap HMap.ofList
  generalize HMap.empty = m
  induction l generalizing m with
  | nil => rfl
  | cons x l ih =>
    simp only [List.map_cons, List.foldl_cons]
    rw [h x (by simp)]
    exact ih (fun y hy => h y (by simp [hy])) _

theorem mt_lt (m : MediaType) (h : m.WF) : m.toU8.toNat < 16 := by
  cases m with
  | unknown v => exact (h.unk v rfl).2
  | priv v => exact h.prv v rfl
  | _ => decide

/-- the first octet, as its three fields -/
theorem firstByte_fields (v : UInt8) (p : Bool) (h : v.toNat < 16) :
    let b := ((1 : UInt8) <<< 5) ||| (if p then 0x10 else 0) ||| v
    (b >>> 5) &&& 7 = 1 ∧ b &&& 0x0f = v ∧ ((b &&& 0x10) != 0) = p := by
  have key : ∀ (i : Fin 16) (p : Bool),
      let v : UInt8 := UInt8.ofNat i.val
      let b := ((1 : UInt8) <<< 5) ||| (if p then 0x10 else 0) ||| v
      (b >>> 5) &&& 7 = 1 ∧ b &&& 0x0f = v ∧ ((b &&& 0x10) != 0) = p := by decide
  have := key ⟨v.toNat, h⟩ p
  simpa using this

theorem fromWire_toU8 (m : MediaType) (h : m.WF) : MediaType.fromWire m.toU8 m.isPrivate = m := by
  cases m with
  | unknown v =>
    have := (h.unk v rfl).1
    have h0 : v ≠ 0 := by rintro rfl; simp at this
    have h1 : v ≠ 1 := by rintro rfl; simp at this
    have h2 : v ≠ 2 := by rintro rfl; exact absurd this (by decide)
    have h3 : v ≠ 3 := by rintro rfl; exact absurd this (by decide)
    simp [MediaType.fromWire, MediaType.toU8, MediaType.isPrivate, h0, h1, h2, h3]
  | priv v => rfl
  | _ => rfl

theorem length_optsWrite (order : List (OptCode × Opt)) :
    ((order.map (·.2.write)).flatten).length = optsLen order := by
  induction order with
  | nil => rfl
  | cons x l ih => simp_all [optsLen, Opt.length_write]

theorem Opt.len_le_of_mem {order : List (OptCode × Opt)} {x} (h : x ∈ order) :
    x.2.len ≤ optsLen order := by
  induction order with
  | nil => simp at h
  | cons y l ih =>
    simp only [optsLen, List.map_cons, List.sum_cons]
    rcases List.mem_cons.mp h with rfl | h
    · omega
    · have := ih h; simp only [optsLen] at this; omega

theorem word_of (b h : UInt8) (m : UInt16) (bs : Bytes) :
    wordMessageLen (u32of ((b :: h :: (u16be m ++ bs)).take 4)) = m ∧
    wordHeaderLen (u32of ((b :: h :: (u16be m ++ bs)).take 4)) = h := by
  have hb := b.toNat_lt
  have hh := h.toNat_lt
  have hm := m.toNat_lt
  have hv : (u32of ((b :: h :: (u16be m ++ bs)).take 4)).toNat
      = b.toNat * 16777216 + h.toNat * 65536 + m.toNat := by
    have : (b :: h :: (u16be m ++ bs)).take 4 = b :: h :: u16be m := by simp [u16be_eq]
    rw [this, u32of_toNat (by simp)]
    simp only [beVal, List.length_cons, length_u16be]
    have : beVal (u16be m) = m.toNat := by
      rw [u16be, beVal_beBytes_of_lt (by simpa using hm)]
    rw [this]; omega
  constructor
  · apply UInt16.toNat_inj.mp
    rw [wordMessageLen, UInt32.toNat_toUInt16, UInt32.toNat_and, hv]
    show (_ &&& (2 ^ 16 - 1)) % 2 ^ 16 = _
    rw [Nat.and_two_pow_sub_one_eq_mod]; omega
  · apply UInt8.toNat_inj.mp
    rw [wordHeaderLen, UInt32.toNat_toUInt8, UInt32.toNat_shiftRight, UInt32.toNat_and, hv]
    show ((_ &&& 0xff0000) >>> 16) % 2 ^ 8 = _
    rw [Nat.shiftRight_and_distrib]
    show (_ &&& (2 ^ 8 - 1)) % 2 ^ 8 = _
    rw [Nat.and_two_pow_sub_one_eq_mod, Nat.shiftRight_eq_div_pow]; omega

theorem write_ok {p : Packet} {order : List (OptCode × Opt)} {b : Bytes} (h : p.write order = .ok b) :
    12 + optsLen order ≤ 255 ∧ 12 + optsLen order + p.payload.length ≤ 65535 ∧
    b = [firstByte p.mediaType, UInt8.ofNat (12 + optsLen order)]
      ++ u16be (UInt16.ofNat (12 + optsLen order + p.payload.length))
      ++ u32be p.publisherId ++ u32be p.messageId ++ (order.map (·.2.write)).flatten ++ p.payload := by
  unfold Packet.write at h
  by_cases h1 : 12 + optsLen order > 255
  · rw [if_pos h1] at h; simp at h
  · rw [if_neg h1] at h
    by_cases h2 : 12 + optsLen order + p.payload.length > 65535
    · rw [if_pos h2] at h; simp at h
    · rw [if_neg h2] at h
      simp only [Res.ok.injEq] at h
      exact ⟨by omega, by omega, h.symm⟩

/-- Parsing what the serializer wrote, whatever the iteration order of the option map. -/
theorem parseHeader_write (p : Packet) (hw : p.WF) (order : List (OptCode × Opt))
    (ho : HMap.Enum order p.options) (b : Bytes) (h : p.write order = .ok b) (bs : Bytes) (off : Nat) :
    parseHeader ⟨b ++ bs, off⟩ =
      (.ok ⟨p.mediaType, p.publisherId, p.messageId, p.options, p.payload.length⟩,
        ⟨p.payload ++ bs, off + (12 + optsLen order)⟩) := by
  obtain ⟨hh, hm, hb⟩ := write_ok h
  clear h
  obtain ⟨H, hH⟩ : ∃ H, H = 12 + optsLen order := ⟨_, rfl⟩
  obtain ⟨M, hM⟩ : ∃ M, M = H + p.payload.length := ⟨_, rfl⟩
  rw [← hH, ← hM] at hb
  rw [← hH] at hh hm ⊢
  rw [← hM] at hm
  subst hb
  have hHb : (UInt8.ofNat H).toNat = H := by simp [UInt8.toNat_ofNat']; omega
  have hMb : (UInt16.ofNat M).toNat = M := by simp [UInt16.toNat_ofNat']; omega
  simp only [List.cons_append, List.nil_append, List.append_assoc]
  generalize hrest : u32be p.publisherId ++ (u32be p.messageId ++
    ((order.map (·.2.write)).flatten ++ (p.payload ++ bs))) = rest
  have hword := word_of (firstByte p.mediaType) (UInt8.ofNat H) (UInt16.ofNat M) rest
  have hlen : 12 ≤ (firstByte p.mediaType :: UInt8.ofNat H :: (u16be (UInt16.ofNat M) ++ rest)).length := by
    rw [← hrest]; simp; omega
  have hf := firstByte_fields p.mediaType.toU8 p.mediaType.isPrivate (mt_lt _ hw.media)
  have hsub : parseAll parseOpt ⟨(order.map (·.2.write)).flatten, off + 12⟩
      = (.ok (order.map Prod.snd), ⟨[], off + 12 + optsLen order⟩) := by
    have := parseAll_flatten parseOpt Opt.write (order.map Prod.snd) (fun o ho' bs off => by
      obtain ⟨x, hx, rfl⟩ := List.mem_map.mp ho'
      have := Opt.len_le_of_mem hx
      rw [Opt.length_write]
      exact parseOpt_write _ (hw.opts x.1 x.2 ((ho.mem _ _).mp hx)) (by omega) _ _)
      (fun o _ => by cases o <;> simp [Opt.write]) (off + 12)
    simp only [List.map_map, Function.comp_def] at this
    rw [length_optsWrite] at this
    exact this
  have hopts : optsMap (order.map Prod.snd) = p.options := by
    rw [optsMap_eq _ (fun x hx => hw.keyed _ _ ((ho.mem _ _).mp hx)), HMap.ofList_enum _ _ ho]
  have hsplit : u16be (UInt16.ofNat M) ++ rest
      = (u16be (UInt16.ofNat M) ++ (u32be p.publisherId ++ (u32be p.messageId ++
          (order.map (·.2.write)).flatten))) ++ (p.payload ++ bs) := by
    rw [← hrest]; simp
  have hhl : (u16be (UInt16.ofNat M) ++ (u32be p.publisherId ++ (u32be p.messageId ++
          (order.map (·.2.write)).flatten))).length = H - 2 := by
    simp only [List.length_append, length_u16be, length_u32be, length_optsWrite]; omega
  have hrd : ∀ o, (Parser.mapErr ParseErr.parse readU16) ⟨u16be (UInt16.ofNat M) ++ (u32be p.publisherId ++
      (u32be p.messageId ++ (order.map (·.2.write)).flatten)), o⟩ = (.ok (UInt16.ofNat M),
      ⟨u32be p.publisherId ++ (u32be p.messageId ++ (order.map (·.2.write)).flatten), o + 2⟩) := by
    intro o; simp only [Parser.mapErr_run, readU16_u16be, Res.mapErr_ok]
  generalize u16be (UInt16.ofNat M) ++ (u32be p.publisherId ++ (u32be p.messageId ++
          (order.map (·.2.write)).flatten)) = hbuf at hsplit hhl hrd
  rw [hsplit] at hword hlen ⊢
  generalize hB : firstByte p.mediaType :: UInt8.ofNat H :: (hbuf ++ (p.payload ++ bs)) = B at hword hlen ⊢
  have hpeek : peekU32 ⟨B, off⟩ = (.ok (u32of (B.take 4)), ⟨B, off⟩) := by
    simp only [peekU32, Parser.map_run, peekArray, show 4 ≤ B.length by omega, ↓reduceIte, Res.map_ok]
  have hu1 : readU8 ⟨B, off⟩ = (.ok (firstByte p.mediaType),
      ⟨UInt8.ofNat H :: (hbuf ++ (p.payload ++ bs)), off + 1⟩) := by rw [← hB, readU8_cons]
  generalize u32of (B.take 4) = w at hword hpeek
  generalize UInt8.ofNat H = hb at *
  generalize UInt16.ofNat M = mb at *
  obtain ⟨hv, hmt, hpr⟩ := hf
  change (firstByte p.mediaType >>> 5) &&& 7 = 1 at hv
  change firstByte p.mediaType &&& 0x0f = _ at hmt
  change ((firstByte p.mediaType &&& 0x10) != 0) = _ at hpr
  have hmedia := fromWire_toU8 _ hw.media
  rw [← hmt, ← hpr] at hmedia
  generalize firstByte p.mediaType = fb at *
  unfold parseHeader
  rw [Parser.bind_ok (Parser.getRemaining_run _), Parser.bind_ok (Parser.getOffset_run _)]
  rw [if_neg (by dsimp only; omega), Parser.bind_ok (Parser.mapErr_ok hpeek _)]
  dsimp only
  rw [hword.1, hword.2, if_neg (by omega), Parser.bind_ok (Parser.mapErr_ok hu1 _)]
  rw [if_neg (by simp [hv]), hmedia, Parser.bind_ok (Parser.mapErr_ok (readU8_cons _) _)]
  rw [if_neg (by omega), Parser.bind_ok (Parser.getRemaining_run _)]
  rw [if_neg (by rw [List.length_append, hhl]; omega)]
  rw [Parser.bind_ok (Parser.mapErr_ok (takeSlice_append (by omega)) _)]
  rw [Parser.bind_ok (Parser.onSub_ok (a := (p.publisherId, p.messageId, order.map Prod.snd))
    (s' := ⟨[], off + 12 + optsLen order⟩) ?_ _)]
  · dsimp only
    rw [hopts, Parser.pure_run]
    congr 2
    · congr 1; omega
    · omega
  · rw [Parser.bind_ok (hrd _), Parser.bind_ok (Parser.mapErr_ok (readU32_u32be _) _)]
    rw [Parser.bind_ok (Parser.mapErr_ok (readU32_u32be _) _)]
    rw [show off + 1 + 1 + 2 + 4 + 4 = off + 12 by omega, Parser.bind_ok (p := many parseOpt) hsub]
    rfl

theorem length_write (p : Packet) (order) (b) (h : p.write order = .ok b) : b.length = p.len order := by
  obtain ⟨-, -, rfl⟩ := write_ok h
  simp only [List.length_append, length_u16be, length_u32be, length_optsWrite, Packet.len,
    List.length_cons, List.length_nil]

end Verif.UdpNotif
