import Verif.Bgp.MsgSafe
/-!
# What the message parser does with every byte string

`view b` sorts a byte string by what is wrong with its header, in terms of its octets only; for each case the outcome
of `parseMsg` is given.
-/
namespace Verif.Bgp
open Verif Verif.Parser Verif.CParser

/-- the 16 octets of the marker -/
def marker : Bytes := List.replicate 16 0xff

theorem marker_eq : u128be (BitVec.allOnes 128) = marker := by decide +kernel

/-- the header of `b`, by the octets alone -/
inductive View (b : Bytes) : Prop where
  | short (h : b.length < 16)
  | unsync (w rest : Bytes) (hb : b = w ++ rest) (hw : w.length = 16) (hne : w ≠ marker)
  | noLength (rest : Bytes) (hb : b = marker ++ rest) (h : rest.length < 2)
  | badLength (l : UInt16) (rest : Bytes) (hb : b = marker ++ (u16be l ++ rest))
      (h : l.toNat < 19 ∨ rest.length < l.toNat - 18)
  | badType (l : UInt16) (t : UInt8) (v rest : Bytes) (hb : b = marker ++ (u16be l ++ (t :: v ++ rest)))
      (hl : l.toNat = 19 + v.length) (ht : t ∉ ([1, 2, 3, 4, 5] : List UInt8))
  | tooLong (l : UInt16) (t : UInt8) (v rest : Bytes) (hb : b = marker ++ (u16be l ++ (t :: v ++ rest)))
      (hl : l.toNat = 19 + v.length) (ht : t = 1 ∨ t = 4) (h : 4096 < l.toNat)
  | frame (l : UInt16) (t : MsgType) (v rest : Bytes) (hb : b = marker ++ (u16be l ++ (t.code :: v ++ rest)))
      (hl : l.toNat = 19 + v.length) (h : t = .open ∨ t = .keepAlive → l.toNat ≤ 4096)

theorem MsgType.ofCode_eq (c : UInt8) :
    (∃ t, MsgType.ofCode c = some t ∧ c = t.code) ∨ (MsgType.ofCode c = none ∧ c ∉ ([1, 2, 3, 4, 5] : List UInt8)) := by
  unfold MsgType.ofCode
  by_cases h1 : c = 1
  · subst h1; exact .inl ⟨.open, by simp, rfl⟩
  by_cases h2 : c = 2
  · subst h2; exact .inl ⟨.update, by simp, rfl⟩
  by_cases h3 : c = 3
  · subst h3; exact .inl ⟨.notification, by simp, rfl⟩
  by_cases h4 : c = 4
  · subst h4; exact .inl ⟨.keepAlive, by simp, rfl⟩
  by_cases h5 : c = 5
  · subst h5; exact .inl ⟨.routeRefresh, by simp, rfl⟩
  exact .inr ⟨by simp [h1, h2, h3, h4, h5], by simp [h1, h2, h3, h4, h5]⟩

theorem view (b : Bytes) : View b := by
  by_cases h16 : b.length < 16
  · exact .short h16
  have hb : b = b.take 16 ++ b.drop 16 := (List.take_append_drop 16 b).symm
  have hw : (b.take 16).length = 16 := by simp; omega
  generalize b.take 16 = w at hb hw
  generalize b.drop 16 = rest at hb
  subst hb
  by_cases hm : w = marker
  · subst hm
    by_cases h2 : rest.length < 2
    · exact .noLength rest rfl h2
    · have hr : rest = rest.take 2 ++ rest.drop 2 := (List.take_append_drop 2 rest).symm
      have hl2 : (rest.take 2).length = 2 := by simp; omega
      rw [← u16be_u16of hl2] at hr
      generalize u16of (rest.take 2) = l at hr
      generalize rest.drop 2 = r2 at hr
      subst hr
      by_cases hbad : l.toNat < 19 ∨ r2.length < l.toNat - 18
      · exact .badLength l r2 rfl hbad
      · obtain ⟨h19, hle⟩ := not_or.mp hbad
        obtain ⟨_ | ⟨t, v⟩, hv⟩ : ∃ x, x = r2.take (l.toNat - 18) := ⟨_, rfl⟩
        · have := congrArg List.length hv
          simp at this; omega
        · have hs : r2 = (t :: v) ++ r2.drop (l.toNat - 18) := by
            rw [hv]; exact (List.take_append_drop _ _).symm
          have hvl : l.toNat = 19 + v.length := by
            have := congrArg List.length hv
            simp at this; omega
          generalize r2.drop (l.toNat - 18) = r3 at hs
          subst hs
          rcases MsgType.ofCode_eq t with ⟨ty, _, rfl⟩ | ⟨_, ht⟩
          · by_cases hlong : (ty = .open ∨ ty = .keepAlive) ∧ 4096 < l.toNat
            · refine .tooLong l ty.code v r3 rfl hvl ?_ hlong.2
              rcases hlong.1 with rfl | rfl
              · exact .inl rfl
              · exact .inr rfl
            · exact .frame l ty v r3 rfl hvl fun h => by
                have := not_and.mp hlong h; omega
          · exact .badType l t v r3 rfl hvl ht
  · exact .unsync w rest rfl hw hm

/-! ## The outcome in each case -/

theorem run_short (c : MsgCtx) {b : Bytes} (h : b.length < 16) (o : Nat) (g : Ignored) :
    ∃ e s, parseMsg c (⟨b, o⟩, g) = (.err (.parse e), s) ∧ s.2 = g := by
  refine ⟨.eof o 16 b.length, (⟨b, o⟩, g), ?_, rfl⟩
  unfold parseMsg
  refine CParser.bind_err ?_
  rw [lift_run]
  unfold parseMarker
  rw [Parser.bind_err (Parser.mapErr_err (e := .eof o 16 b.length) (r' := ⟨b, o⟩) ?_ _)]
  unfold readU128
  rw [Parser.map_run]
  unfold readArray
  rw [if_neg (by simp; omega)]; rfl

theorem run_unsync (c : MsgCtx) {w rest : Bytes} (hw : w.length = 16) (hne : w ≠ marker) (o : Nat) (g : Ignored) :
    ∃ h s, parseMsg c (⟨w ++ rest, o⟩, g) = (.err (.notSynchronized o h), s) ∧ u128be h = w ∧ s.2 = g := by
  refine ⟨u128of w, (⟨rest, o + 16⟩, g), ?_, u128be_u128of hw, rfl⟩
  unfold parseMsg
  refine CParser.bind_err ?_
  rw [lift_run]
  have hr : Reads readU128 (u128of w) w := by
    have := reads_u128 (u128of w); rwa [u128be_u128of hw] at this
  unfold parseMarker
  rw [Parser.bind_ok (Parser.mapErr_ok (hr.run _ _) _), Parser.bind_ok (Parser.getOffset_run _), if_pos]
  · rw [hw]; simp [Parser.fail_run]
  · intro h
    apply hne
    rw [← u128be_u128of hw, h, marker_eq]

theorem run_marker (c : MsgCtx) (rest : Bytes) (o : Nat) (g : Ignored) :
    parseMsg c (⟨marker ++ rest, o⟩, g) = (do
      let (length, t, buf) ← CParser.lift parseHeader
      let (m, buf) ← CParser.onSub buf (parseBody c t)
      if buf.buf ≠ [] then CParser.fail (.unparseable buf.offset length buf.buf.length) else pure m :
        MParser MsgErr Msg) (⟨rest, o + 16⟩, g) := by
  have hm := (creads_lift (σ := Ignored) reads_marker).run rest o g
  unfold parseMsg
  rw [marker_eq] at hm
  rw [CParser.bind_ok hm]
  rfl

theorem run_noLength (c : MsgCtx) {rest : Bytes} (h : rest.length < 2) (o : Nat) (g : Ignored) :
    ∃ e s, parseMsg c (⟨marker ++ rest, o⟩, g) = (.err (.parse e), s) ∧ s.2 = g := by
  refine ⟨.eof (o + 16) 2 rest.length, (⟨rest, o + 16⟩, g), ?_, rfl⟩
  rw [run_marker]
  refine CParser.bind_err ?_
  rw [lift_run]
  unfold parseHeader
  rw [Parser.bind_err (Parser.mapErr_err (e := .eof (o + 16) 2 rest.length) (r' := ⟨rest, o + 16⟩) ?_ _)]
  unfold readU16
  rw [Parser.map_run]
  unfold readArray
  rw [if_neg (by simp; omega)]; rfl

theorem takeFrame_short {l : UInt16} {b : Bytes} {o : Nat} (h : b.length < l.toNat - 18) :
    takeFrame l ⟨b, o⟩ = (.err (.badLength (o - 2) l), ⟨b, o⟩) := by
  unfold takeFrame
  have : takeSlice (l.toNat - 18) ⟨b, o⟩ = (.err (.eof o (l.toNat - 18) b.length), ⟨b, o⟩) := by
    unfold takeSlice
    rw [Parser.bind_ok (Parser.getOffset_run _)]
    refine Parser.bind_err ?_ _
    unfold readBytes
    rw [if_neg (by simp; omega)]
  rw [this]

theorem run_badLength (c : MsgCtx) {l : UInt16} {rest : Bytes} (h : l.toNat < 19 ∨ rest.length < l.toNat - 18)
    (o : Nat) (g : Ignored) :
    ∃ s, parseMsg c (⟨marker ++ (u16be l ++ rest), o⟩, g) = (.err (.badLength (o + 16) l), s) ∧ s.2 = g := by
  refine ⟨(⟨rest, o + 18⟩, g), ?_, rfl⟩
  rw [run_marker]
  refine CParser.bind_err ?_
  rw [lift_run]
  unfold parseHeader
  rw [Parser.bind_ok (Parser.mapErr_ok ((reads_u16 l).run _ _) _), Parser.bind_ok (Parser.getOffset_run _)]
  by_cases h19 : l.toNat < 19
  · rw [if_pos (by exact h19)]
    simp [Parser.fail_run]
  · rw [if_neg (by exact h19), Parser.bind_err (takeFrame_short (by omega))]
    simp

theorem run_badType (c : MsgCtx) {l : UInt16} {t : UInt8} {v rest : Bytes} (hl : l.toNat = 19 + v.length)
    (ht : t ∉ ([1, 2, 3, 4, 5] : List UInt8)) (o : Nat) (g : Ignored) :
    ∃ s, parseMsg c (⟨marker ++ (u16be l ++ (t :: v ++ rest)), o⟩, g) = (.err (.undefinedType (o + 18) t), s) ∧ s.2 = g := by
  refine ⟨(⟨rest, o + 18 + (v.length + 1)⟩, g), ?_, rfl⟩
  have hn : MsgType.ofCode t = none := by
    rcases MsgType.ofCode_eq t with ⟨ty, _, rfl⟩ | ⟨h, _⟩
    · exact absurd (by cases ty <;> decide) ht
    · exact h
  rw [run_marker]
  refine CParser.bind_err ?_
  rw [lift_run]
  unfold parseHeader
  rw [Parser.bind_ok (Parser.mapErr_ok ((reads_u16 l).run _ _) _), Parser.bind_ok (Parser.getOffset_run _),
    if_neg (by unfold minLen; omega), Parser.bind_ok (takeFrame_append (v := t :: v) (by simp; omega)),
    Parser.bind_ok (a := (t, ⟨v, o + 16 + (u16be l).length + 1⟩)) (by rfl)]
  simp only [hn]
  rw [Parser.bind_err (r' := ⟨rest, o + 16 + (u16be l).length + (t :: v).length⟩) (by rfl)]
  simp

theorem run_tooLong (c : MsgCtx) {l : UInt16} {t : UInt8} {v rest : Bytes} (hl : l.toNat = 19 + v.length)
    (ht : t = 1 ∨ t = 4) (h : 4096 < l.toNat) (o : Nat) (g : Ignored) :
    ∃ s, parseMsg c (⟨marker ++ (u16be l ++ (t :: v ++ rest)), o⟩, g) = (.err (.badLength (o + 16) l), s) ∧ s.2 = g := by
  refine ⟨(⟨rest, o + 18 + (v.length + 1)⟩, g), ?_, rfl⟩
  obtain ⟨ty, hty, hk⟩ : ∃ ty, MsgType.ofCode t = some ty ∧ (ty = .open ∨ ty = .keepAlive) := by
    rcases ht with rfl | rfl
    · exact ⟨.open, rfl, .inl rfl⟩
    · exact ⟨.keepAlive, rfl, .inr rfl⟩
  rw [run_marker]
  refine CParser.bind_err ?_
  rw [lift_run]
  unfold parseHeader
  rw [Parser.bind_ok (Parser.mapErr_ok ((reads_u16 l).run _ _) _), Parser.bind_ok (Parser.getOffset_run _),
    if_neg (by unfold minLen; omega), Parser.bind_ok (takeFrame_append (v := t :: v) (by simp; omega)),
    Parser.bind_ok (a := (t, ⟨v, o + 16 + (u16be l).length + 1⟩)) (by rfl)]
  simp only [hty, Parser.ofOption_some]
  rw [Parser.bind_ok (Parser.pure_run _ _), if_pos ⟨hk, by unfold maxLen; omega⟩]
  simp [Parser.fail_run]

/-- a well-delimited frame: the outcome is that of the body parser on exactly the body, and what follows the frame is
never looked at -/
theorem run_frame (c : MsgCtx) {l : UInt16} {t : MsgType} {v rest : Bytes} (hl : l.toNat = 19 + v.length)
    (h : t = .open ∨ t = .keepAlive → l.toNat ≤ 4096) (o : Nat) (g : Ignored) :
    parseMsg c (⟨marker ++ (u16be l ++ (t.code :: v ++ rest)), o⟩, g) =
      match parseBody c t (⟨v, o + 19⟩, g) with
      | (.ok m, (s, g')) =>
        if s.buf ≠ [] then (.err (.unparseable s.offset l s.buf.length), (⟨rest, o + l.toNat⟩, g'))
        else (.ok m, (⟨rest, o + l.toNat⟩, g'))
      | (.err e, (_, g')) => (.err e, (⟨rest, o + l.toNat⟩, g'))
      | (.fault x, (_, g')) => (.fault x, (⟨rest, o + l.toNat⟩, g')) := by
  rw [run_marker]
  have hh := reads_header (l := l) (t := t) (v := v) hl h rest (o + 16)
  rw [show o + 16 + l.toNat - 16 = o + l.toNat by omega] at hh
  rw [CParser.bind_ok (p := CParser.lift parseHeader) (a := (l, t, ⟨v, o + 16 + 3⟩))
    (s' := (⟨rest, o + l.toNat⟩, g)) (by rw [lift_run, hh])]
  simp only
  rcases hp : parseBody c t (⟨v, o + 19⟩, g) with ⟨m | e | x, ⟨s, g'⟩⟩
  · rw [CParser.bind_ok (a := (m, s)) (s' := (⟨rest, o + l.toNat⟩, g')) (by
      unfold CParser.onSub; rw [hp])]
    by_cases hs : s.buf = []
    · simp only [hs, ne_eq, not_true_eq_false, if_false]; rfl
    · simp only [hs, ne_eq, not_false_eq_true, if_true]; rfl
  · rw [CParser.bind_err (e := e) (s' := (⟨rest, o + l.toNat⟩, g')) (by
      unfold CParser.onSub; rw [hp])]
  · rw [CParser.bind_fault (x := x) (s' := (⟨rest, o + l.toNat⟩, g')) (by
      unfold CParser.onSub; rw [hp])]

/-- success only comes from a well-delimited frame -/
theorem parseMsg_ok {c : MsgCtx} {b : Bytes} {o : Nat} {g : Ignored} {m : Msg} {r' : Reader} {g' : Ignored}
    (h : parseMsg c (⟨b, o⟩, g) = (.ok m, (r', g'))) :
    ∃ (l : UInt16) (t : MsgType) (v rest : Bytes) (s : Reader), b = marker ++ (u16be l ++ (t.code :: v ++ rest)) ∧
      l.toNat = 19 + v.length ∧ (t = .open ∨ t = .keepAlive → l.toNat ≤ 4096) ∧
      parseBody c t (⟨v, o + 19⟩, g) = (.ok m, (s, g')) ∧ s.buf = [] ∧ r' = ⟨rest, o + l.toNat⟩ := by
  cases view b with
  | short hs => obtain ⟨e, s, he, _⟩ := run_short c hs o g; rw [he] at h; simp at h
  | unsync w rest hb hw hne =>
    subst hb; obtain ⟨e, s, he, _⟩ := run_unsync c (rest := rest) hw hne o g; rw [he] at h; simp at h
  | noLength rest hb hs => subst hb; obtain ⟨e, s, he, _⟩ := run_noLength c hs o g; rw [he] at h; simp at h
  | badLength l rest hb hs => subst hb; obtain ⟨s, he, _⟩ := run_badLength c hs o g; rw [he] at h; simp at h
  | badType l t v rest hb hl ht =>
    subst hb; obtain ⟨s, he, _⟩ := run_badType c (rest := rest) hl ht o g; rw [he] at h; simp at h
  | tooLong l t v rest hb hl ht hlt =>
    subst hb; obtain ⟨s, he, _⟩ := run_tooLong c (rest := rest) hl ht hlt o g; rw [he] at h; simp at h
  | frame l t v rest hb hl hm =>
    subst hb
    rw [run_frame c hl hm] at h
    rcases hp : parseBody c t (⟨v, o + 19⟩, g) with ⟨m' | e | x, ⟨s, g1⟩⟩ <;> rw [hp] at h
    · by_cases hs : s.buf = []
      · simp only [hs, ne_eq, not_true_eq_false, if_false, Prod.mk.injEq, Res.ok.injEq] at h
        obtain ⟨rfl, rfl, rfl⟩ := h
        exact ⟨l, t, v, rest, s, rfl, hl, hm, hp, hs, rfl⟩
      · simp [hs] at h
    · simp at h
    · simp at h

theorem NotifKind.ofCode_some {c : UInt8} {k : NotifKind} (h : NotifKind.ofCode c = some k) : c = k.code := by
  unfold NotifKind.ofCode at h
  by_cases h1 : c = 1
  · rw [if_pos h1] at h; cases h; exact h1
  rw [if_neg h1] at h
  by_cases h1 : c = 2
  · rw [if_pos h1] at h; cases h; exact h1
  rw [if_neg h1] at h
  by_cases h1 : c = 3
  · rw [if_pos h1] at h; cases h; exact h1
  rw [if_neg h1] at h
  by_cases h1 : c = 4
  · rw [if_pos h1] at h; cases h; exact h1
  rw [if_neg h1] at h
  by_cases h1 : c = 5
  · rw [if_pos h1] at h; cases h; exact h1
  rw [if_neg h1] at h
  by_cases h1 : c = 6
  · rw [if_pos h1] at h; cases h; exact h1
  rw [if_neg h1] at h
  by_cases h1 : c = 7
  · rw [if_pos h1] at h; cases h; exact h1
  rw [if_neg h1] at h; simp at h

theorem RefreshOp.ofCode_some {c : UInt8} {k : RefreshOp} (h : RefreshOp.ofCode c = some k) : c = k.code := by
  unfold RefreshOp.ofCode at h
  by_cases h1 : c = 0
  · rw [if_pos h1] at h; cases h; exact h1
  rw [if_neg h1] at h
  by_cases h1 : c = 1
  · rw [if_pos h1] at h; cases h; exact h1
  rw [if_neg h1] at h
  by_cases h1 : c = 2
  · rw [if_pos h1] at h; cases h; exact h1
  rw [if_neg h1] at h; simp at h

theorem peekU8_eq_ok {r r' : Reader} {x : UInt8} :
    peekU8 r = (.ok x, r') ↔ (∃ t, r.buf = x :: t) ∧ r = r' := by
  obtain ⟨_ | ⟨y, bs⟩, o⟩ := r <;> simp [peekU8]

theorem notif_ok {v : Bytes} {o : Nat} {n : Notif} {r' : Reader} (h : parseNotif ⟨v, o⟩ = (.ok n, r')) :
    v = n.kind.code :: n.sub :: n.value := by
  simp only [parseNotif, parseNotifBody, Parser.bind_eq_ok, Parser.mapErr_eq_ok, Parser.getOffset_eq_ok, peekU8_eq_ok,
    Parser.ofOption_eq_ok, readU8_eq_ok, Parser.ite_eq_ok, Parser.fail_eq_ok, and_false, or_false,
    Parser.getRemaining_eq_ok, readBytes_eq_ok] at h
  obtain ⟨c, _, ⟨⟨t, h1⟩, rfl⟩, _, _, ⟨rfl, rfl⟩, k, _, ⟨hk, rfl⟩, c', r1, h2, s, _, ⟨⟨t2, h3⟩, rfl⟩, _, _, ⟨rfl, rfl⟩, hs,
    s', r2, h4, n', _, ⟨rfl, rfl⟩, b, r3, ⟨h5, h6, h7⟩, hm, rfl⟩ := h
  have e1 := (List.cons.inj (h1.symm.trans h2.1)).1
  have e2 := (List.cons.inj (h3.symm.trans h4.1)).1
  unfold Notif.make at hm
  rw [dif_pos hs] at hm
  cases hm
  have h8 : r3.buf = [] := by
    have := congrArg List.length h5
    rw [List.length_append] at this
    exact List.length_eq_zero_iff.mp (by omega)
  simp only at h2
  rw [h2.1, h4.1, h5, h8, ← e1, ← e2, NotifKind.ofCode_some hk, List.append_nil]

theorem refresh_ok {v : Bytes} {o : Nat} {m : Refresh} {r' : Reader} (h : parseRefresh ⟨v, o⟩ = (.ok m, r')) :
    v = (u16be m.type.afi ++ [m.op.code, m.type.safi]) ++ r'.buf := by
  simp only [parseRefresh, Parser.bind_eq_ok, Parser.mapErr_eq_ok, Parser.getOffset_eq_ok, peekU8_eq_ok, peekU16_eq_ok,
    Parser.ofOption_eq_ok, readU8_eq_ok, readU16_eq_ok, Parser.pure_eq_ok] at h
  obtain ⟨c, _, ⟨⟨t, h1⟩, rfl⟩, _, _, ⟨rfl, rfl⟩, a, _, ⟨ha, rfl⟩, c', r1, h2, p, _, ⟨⟨t2, h3⟩, rfl⟩, _, _, ⟨rfl, rfl⟩, op, _,
    ⟨hop, rfl⟩, p', r2, h4, q, _, ⟨⟨t3, h5⟩, rfl⟩, _, _, ⟨rfl, rfl⟩, sf, _, ⟨hsf, rfl⟩, q', r3, h6, _, _, ⟨rfl, rfl⟩, ty, _,
    ⟨hty, rfl⟩, rfl, rfl⟩ := h
  have e2 := (List.cons.inj (h3.symm.trans h4.1)).1
  have e3 := (List.cons.inj (h5.symm.trans h6.1)).1
  have e1 : c' = c := by
    have := h1.symm.trans h2.1
    have := (List.append_inj' this (by have := congrArg List.length this; simp at this ⊢; omega)).1
    exact (u16be_inj this).symm
  obtain ⟨f1, f2⟩ := AddressType.ofAfiSafi_eq_some.mp hty
  simp only at h2
  rw [h2.1, h4.1, h6.1, ← e2, ← e3, e1, RefreshOp.ofCode_some hop]
  simp [← f1, ← f2, afiOf_eq_some.mp ha, safiOf_eq_some.mp hsf]

/-- the body parser of a type returns a message of that type -/
theorem body_type {c : MsgCtx} {t : MsgType} {m : Msg} {s s' : Reader × Ignored} (hp : parseBody c t s = (.ok m, s')) :
    m.type = t := by
  cases t with
  | keepAlive => simp only [parseBody, CParser.pure_run, Prod.mk.injEq, Res.ok.injEq] at hp; rw [← hp.1]; rfl
  | _ =>
    simp only [parseBody] at hp
    obtain ⟨_, _, _, hp⟩ := CParser.bind_eq_ok hp
    simp only [CParser.pure_run, Prod.mk.injEq, Res.ok.injEq] at hp
    rw [← hp.1]; rfl

end Verif.Bgp
