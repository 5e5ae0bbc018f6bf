import Verif.UdpNotif.Lemmas
import Verif.Core.Safe
import Verif.Core.Inv
/-!
# UDP-notif: what successful parses guarantee, absence of faults, reassembly invariants
-/
namespace Verif.UdpNotif
open Verif Parser

theorem safe_parseOpt : Safe 1 parseOpt := by
  unfold parseOpt
  refine safe_bind_l (safe_mapErr _ safe_readU8) ?_
  psafe

theorem safe_parseHeader : Safe 0 parseHeader := by
  unfold parseHeader
  psafe [safe_parseOpt]

theorem parseOpt_wf {r r' : Reader} {o : Opt} (h : parseOpt r = (.ok o, r')) : o.WF := by
  simp only [parseOpt, bind_eq_ok, ite_eq_ok, mapErr_eq_ok, fail_eq_ok, and_false, false_or,
    pure_eq_ok] at h
  obtain ⟨typ, r1, h1, len, r2, h2, hlen, v, r3, h3, h⟩ := h
  rcases h with ⟨ht, x, r4, hx, rfl, -⟩ | ⟨ht, ⟨ht2, rfl, -⟩ | ⟨ht2, rfl, -⟩⟩
  · refine ⟨fun n l e => ?_, fun _ _ e => by simp at e⟩
    simp only [Opt.segment.injEq] at e
    rw [← e.1]
    rw [UInt16.toNat_or, UInt16.toNat_shiftLeft, UInt16.toNat_shiftRight]
    simp only [UInt8.toNat_toUInt16]
    have h1 := x.1.1.toNat_lt
    have h2 := x.1.2.toNat_lt
    apply Nat.or_lt_two_pow
    · show ((x.1.1.toNat) <<< 7) % 2 ^ 16 < _
      rw [Nat.shiftLeft_eq]; omega
    · show (x.1.2.toNat) >>> 1 < _
      rw [Nat.shiftRight_eq_div_pow]; omega
  · exact ⟨fun _ _ e => by simp at e, fun _ _ e => by simp at e⟩
  · refine ⟨fun _ _ e => by simp at e, fun t v e => ?_⟩
    simp only [Opt.unknown.injEq] at e
    rw [← e.1]; exact ⟨ht, ht2⟩

theorem optsMap_some {l : List Opt} {k : OptCode} {o : Opt} (h : optsMap l k = some o) :
    o ∈ l ∧ o.code = k := by
  have key : ∀ (l : List Opt) (m : HMap OptCode Opt),
      (l.foldl (fun m o => HMap.insert m o.code o) m) k = some o → (o ∈ l ∧ o.code = k) ∨ m k = some o := by
    intro l
    induction l with
    | nil => intro m h; exact .inr h
    | cons a l ih =>
      intro m h
      rcases ih _ h with h | h
      · exact .inl ⟨by simp [h.1], h.2⟩
      · by_cases hk : k = a.code
        · subst hk
          simp only [HMap.insert_self, Option.some.injEq] at h
          exact .inl ⟨by simp [h], by rw [h]⟩
        · simp only [HMap.insert_ne _ _ hk] at h
          exact .inr h
  rcases key l _ h with h | h
  · exact h
  · simp at h

theorem fromWire_wf (v : UInt8) (p : Bool) (h : v.toNat < 16) : (MediaType.fromWire v p).WF := by
  unfold MediaType.fromWire
  split
  · exact ⟨fun _ e => by simp at e, fun w e => by simp at e; rw [← e]; exact h⟩
  · repeat' split
    all_goals refine ⟨fun w e => ?_, fun w e => ?_⟩ <;> simp at e
    rename_i h0 h1 h2 h3
    rw [← e]
    refine ⟨?_, h⟩
    have : ∀ k : Nat, v.toNat = k → v = UInt8.ofNat k := by intro k hk; rw [← hk]; simp
    rcases Nat.lt_or_ge v.toNat 4 with hlt | hge
    · exfalso
      have : v.toNat = 0 ∨ v.toNat = 1 ∨ v.toNat = 2 ∨ v.toNat = 3 := by omega
      rcases this with h | h | h | h
      · exact h0 (by rw [this 0 h]; rfl)
      · exact h1 (by rw [this 1 h]; rfl)
      · exact h2 (by rw [this 2 h]; rfl)
      · exact h3 (by rw [this 3 h]; rfl)
    · exact hge

theorem parseHeader_inv {buf : Bytes} {o : Nat} {h : Header} {r' : Reader}
    (hp : parseHeader ⟨buf, o⟩ = (.ok h, r')) :
    ∃ fb hl ml t, buf = fb :: hl :: (u16be ml ++ t) ∧ hl.toNat ≤ ml.toNat ∧
      r'.offset = o + hl.toNat ∧ r'.buf = buf.drop hl.toNat ∧ hl.toNat ≤ buf.length ∧
      h.payloadLen = ml.toNat - hl.toNat ∧ 12 ≤ hl.toNat ∧
      h.mediaType.WF ∧ (∀ k o, h.options k = some o → o.code = k ∧ o.WF) := by
  simp only [parseHeader, bind_eq_ok, ite_eq_ok, mapErr_eq_ok, fail_eq_ok, and_false, false_or,
    pure_eq_ok, getRemaining_eq_ok, getOffset_eq_ok, peekU32_eq_ok, readU8_eq_ok, takeSlice_eq_ok,
    onSub_eq_ok', readU16_eq_ok, readU32_eq_ok, many_run] at hp
  obtain ⟨_, _, ⟨rfl, rfl⟩, _, _, ⟨rfl, rfl⟩, hlen, w, _, ⟨⟨t, ht⟩, rfl⟩, hle, fb, r1, ⟨hb1, ho1⟩, hv,
    hl, r2, ⟨hb2, ho2⟩, hl2, _, _, ⟨rfl, rfl⟩, hrem, hb, r3, ⟨hb3, hbl, hbo, ho3⟩, x, r4, ⟨⟨_, r5, ⟨hb4, ho4⟩,
    pub, r6, ⟨hb5, ho5⟩, mid, r7, ⟨hb6, ho6⟩, opts, r8, hopts, hx, -⟩, rfl⟩, rfl, rfl⟩ := hp
  rename_i ml
  simp only at hb1 ho1 ht hlen
  have hbuf : buf = fb :: hl :: (u16be ml ++ (r5.buf ++ r3.buf)) := by
    rw [hb1, hb2, hb3, hb4]; simp
  have hw : w = u32of (buf.take 4) := by
    rw [ht, List.take_left' (by simp)]; simp
  have hword := word_of fb hl ml (r5.buf ++ r3.buf)
  rw [← hbuf, ← hw] at hword
  rw [hword.1, hword.2] at hle
  have hlen3 : hb.buf.length = 10 + r7.buf.length := by
    rw [hb4, hb5, hb6]; simp; omega
  refine ⟨fb, hl, ml, _, hbuf, by omega, by omega, ?_, ?_, ?_, by omega, ?_, ?_⟩
  · have : buf = (fb :: hl :: hb.buf) ++ r3.buf := by rw [hb1, hb2, hb3]; simp
    rw [this, List.drop_left' (by simp; omega)]
  · rw [hb1, hb2, hb3]; simp; omega
  · simp only [hword.1, hword.2]
  · refine fromWire_wf _ _ ?_
    rw [UInt8.toNat_and]
    exact Nat.lt_of_le_of_lt Nat.and_le_right (by decide)
  · intro k o ho
    simp only [← hx] at ho
    have := optsMap_some ho
    exact ⟨this.2, parseAll_forall (Q := Opt.WF) (fun r a r' h => parseOpt_wf h) hopts _ this.1⟩

/-- `from_bytes` on a buffer holding at least the declared message does not panic, and what it returns is
well formed. -/
theorem fromBytes_spec (buf : Bytes) (h : (u16of ((buf.drop 2).take 2)).toNat ≤ buf.length) :
    match fromBytes buf with
    | .ok p => p.WF
    | .err _ => True
    | .fault _ => False := by
  unfold fromBytes
  rcases he : parseHeader (Reader.new buf) with ⟨hd | e | f, r⟩
  · obtain ⟨fb, hl, ml, t, hbuf, h1, h2, h3, h4, h5, -, h6, h7⟩ := parseHeader_inv he
    have hml : u16of ((buf.drop 2).take 2) = ml := by
      rw [hbuf]; simp only [List.drop_succ_cons, List.drop_zero]
      rw [List.take_left' (by simp)]; simp
    rw [hml] at h
    simp only
    rw [if_pos (by rw [h2, h5]; omega)]
    exact ⟨h6, fun k o hk => (h7 k o hk).1, fun k o hk => (h7 k o hk).2⟩
  · trivial
  · have := safe_parseHeader.out (Reader.new buf)
    rw [he] at this; exact this.elim

theorem fromBytes_payload {buf : Bytes} {p : Packet} (h : fromBytes buf = .ok p) :
    ∃ hl ml t, buf = (buf.take 1) ++ hl :: (u16be ml ++ t) ∧ p.payload.length = ml.toNat - hl.toNat ∧
      p.payload = (buf.drop hl.toNat).take (ml.toNat - hl.toNat) := by
  unfold fromBytes at h
  rcases he : parseHeader (Reader.new buf) with ⟨hd | e | f, r⟩
  · obtain ⟨fb, hl, ml, t, hbuf, h1, h2, h3, h4, h5, -, h6, h7⟩ := parseHeader_inv he
    rw [he] at h
    simp only at h
    split at h
    · rename_i hle
      simp only [Res.ok.injEq] at h
      rw [← h]
      rw [Nat.zero_add] at h2
      rw [h2, h5] at hle
      refine ⟨hl, ml, t, by rw [hbuf]; simp, ?_, ?_⟩
      · simp only [List.length_take, List.length_drop, h2, h5]; omega
      · simp only [h2, h5]
    · simp at h
  · rw [he] at h; simp at h
  · rw [he] at h; simp at h

/-! ## Reassembly -/

theorem extract_wf {p : Packet} (h : p.WF) :
    (∃ n l, p.options .segment = some (.segment n l) ∧ extractSegmentInfo p.options = .ok (n, l) ∧
      n.toNat < 2 ^ 15) ∨
    (p.options .segment = none ∧ extractSegmentInfo p.options = .ok (0, true)) := by
  unfold extractSegmentInfo
  cases hs : p.options .segment with
  | none => exact .inr ⟨rfl, rfl⟩
  | some o =>
    have hk := h.keyed _ _ hs
    cases o with
    | segment n l => exact .inl ⟨n, l, rfl, rfl, (h.opts _ _ hs).number n l rfl⟩
    | privateEncoding v => simp [Opt.code] at hk
    | unknown t v => simp [Opt.code] at hk

theorem BMap_insert_ne_nil {α : Type} (k : Nat) (v : α) (m : BMap α) : BMap.insert k v m ≠ [] := by
  cases m with
  | nil => simp [BMap.insert]
  | cons q r => unfold BMap.insert; split <;> (try split) <;> simp

theorem addSegment_ok (b : RBuf) (n : UInt16) (p : Packet) (l : Bool) (h : n.toNat < 2 ^ 15) :
    ∃ b', b.addSegment n p l = .ok b' ∧ b'.segments = BMap.insert n.toNat p b.segments := by
  unfold RBuf.addSegment
  cases l
  · exact ⟨_, rfl, rfl⟩
  · simp only [↓reduceIte]
    rw [if_neg (by omega)]
    exact ⟨_, rfl, rfl⟩

theorem reassemble_noFault (b : RBuf) (h : b.segments ≠ []) : b.reassemble.isFault = false := by
  unfold RBuf.reassemble
  split
  · rfl
  · split
    · rfl
    · split
      · rfl
      · cases hs : b.segments with
        | nil => exact absurd hs h
        | cons x l => rfl

theorem tryReassemble_noFault (c : Codec) (now : Nat) (p : Packet) (h : p.WF) :
    (tryReassemble c now p).1.isFault = false := by
  unfold tryReassemble
  have hx : ∃ n l, extractSegmentInfo p.options = .ok (n, l) ∧ n.toNat < 2 ^ 15 := by
    rcases extract_wf h with ⟨n, l, -, h1, h2⟩ | ⟨-, h1⟩
    · exact ⟨n, l, h1, h2⟩
    · exact ⟨0, true, h1, by decide⟩
  obtain ⟨n, l, h1, h2⟩ := hx
  rw [h1]
  simp only
  split
  · rfl
  · generalize c.entry (p.publisherId, p.messageId) now = b0
    obtain ⟨b', hb', hseg⟩ := addSegment_ok b0 n p l h2
    rw [hb']
    simp only
    split
    · have hf := reassemble_noFault b' (by rw [hseg]; exact BMap_insert_ne_nil _ _ _)
      cases hr : b'.reassemble with
      | ok _ => rfl
      | err _ => rfl
      | fault f => rw [hr] at hf; simp at hf
    · rfl

end Verif.UdpNotif
