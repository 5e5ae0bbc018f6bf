import Verif.Flow.WriteLemmas
/-!
# C24, C25, C26, C27, C28: the flow codec, its templates and its sets
-/
namespace Verif.Props
open Verif Flow

namespace Flow24

/-- a registry with four elements and one vendor with one element, for the examples -/
def reg : Registry where
  iana c := if c = 1 then some .unsigned64 else if c = 4 then some .unsigned8 else if c = 8 then some .ipv4
    else if c = 82 then some .string else none
  vendor p := if p = 9 then some fun c => if c = 7 then some .unsigned32 else none else none

/-- an IPFIX message with these octets after its header -/
def message (sets : Bytes) : Bytes :=
  u16be 10 ++ (u16be (UInt16.ofNat (16 + sets.length)) ++ ([0, 0, 0, 1, 0, 0, 0, 2, 0, 0, 0, 3] ++ sets))

/-- a set with this id and content -/
def set (id : UInt16) (body : Bytes) : Bytes := u16be id ++ (u16be (UInt16.ofNat (4 + body.length)) ++ body)

/-- template 256: a protocol and an address -/
def tplA : Bytes := [1, 0, 0, 2, 0, 4, 0, 1, 0, 8, 0, 4]
/-- template 256: an address and a protocol -/
def tplB : Bytes := [1, 0, 0, 2, 0, 8, 0, 4, 0, 4, 0, 1]

end Flow24
open Flow24

/-! ## C24 -/

/-- C24: when more octets are needed, the buffer and the codec stay as they are -/
theorem c24_wait {reg : Registry} {c c' : FlowCodec} {b b' : Bytes}
    (h : FlowCodec.decode reg c b = (.wait, c', b')) : c' = c ∧ b' = b := decode_wait h

/-- every call that returns something, by the version of the buffer -/
theorem decode_cases {reg : Registry} {c c' : FlowCodec} {b b' : Bytes} {x : Res FlowErr FlowInfo}
    (h : FlowCodec.decode reg c b = (.out x, c', b')) :
    (∃ len body, b = u16be 10 ++ (u16be len ++ (body ++ b')) ∧ 16 ≤ len.toNat ∧ body.length + 4 = len.toNat ∧
      x = ((ipfixBody reg (⟨body, 4⟩, c.ipfix)).1.map FlowInfo.ipfix).mapErr FlowErr.ipfix ∧
      c' = { c with ipfix := (ipfixBody reg (⟨body, 4⟩, c.ipfix)).2.2 }) ∨
    (∃ len rest, b = u16be 10 ++ (u16be len ++ rest) ∧ 12 ≤ rest.length ∧ len.toNat < 16 ∧
      x = .err (.ipfix (.invalidLength 2 len)) ∧ c' = c ∧ b' = b.drop (max 5 len.toNat)) ∨
    (∃ len rest, b = u16be 9 ++ (u16be len ++ rest) ∧ 12 ≤ rest.length ∧ len.toNat ≤ rest.length + 4 ∧
      x = ((NetflowPacket.parse reg (.new b, c.netflow)).1.map FlowInfo.netflow).mapErr FlowErr.netflow ∧
      c' = { c with netflow := (NetflowPacket.parse reg (.new b, c.netflow)).2.2 } ∧
      b' = if (NetflowPacket.parse reg (.new b, c.netflow)).1.isOk then (NetflowPacket.parse reg (.new b, c.netflow)).2.1.buf
        else []) ∨
    (∃ v len rest, b = u16be v ++ (u16be len ++ rest) ∧ 12 ≤ rest.length ∧ v ≠ 10 ∧ v ≠ 9 ∧ x = .err (.unsupportedVersion v) ∧ c' = c ∧
      b' = []) := by
  obtain ⟨v, len, rest, rfl, h12, hl⟩ := decode_buffer h
  by_cases h10 : v = 10
  · subst h10
    by_cases h16 : len.toNat < 16
    · rw [decode_ipfix_short reg c rest h16 h12] at h
      simp only [Prod.mk.injEq, Dec.out.injEq] at h
      exact .inr (.inl ⟨len, rest, rfl, h12, h16, h.1.symm, h.2.1.symm, h.2.2.symm⟩)
    · have hb : (rest.take (len.toNat - 4)).length + 4 = len.toNat := by rw [List.length_take]; omega
      have := decode_ipfix reg c (len := len) (body := rest.take (len.toNat - 4)) (rest.drop (len.toNat - 4)) (by omega) hb
      rw [List.take_append_drop] at this
      rw [this] at h
      simp only [Prod.mk.injEq, Dec.out.injEq] at h
      refine .inl ⟨len, rest.take (len.toNat - 4), ?_, by omega, hb, h.1.symm, h.2.1.symm⟩
      rw [← h.2.2, List.take_append_drop]
  · by_cases h9 : v = 9
    · subst h9
      rw [decode_netflow reg c h12 hl] at h
      simp only [Prod.mk.injEq, Dec.out.injEq] at h
      exact .inr (.inr (.inl ⟨len, rest, rfl, h12, hl, h.1.symm, h.2.1.symm, h.2.2.symm⟩))
    · rw [decode_other reg c h12 hl h10 h9] at h
      simp only [Prod.mk.injEq, Dec.out.injEq] at h
      exact .inr (.inr (.inr ⟨v, len, rest, rfl, h12, h10, h9, h.1.symm, h.2.1.symm, h.2.2.symm⟩))

/-- C24: a call that returns an error or a packet has removed octets -/
theorem c24_progress {reg : Registry} {c c' : FlowCodec} {b b' : Bytes} {x : Res FlowErr FlowInfo}
    (h : FlowCodec.decode reg c b = (.out x, c', b')) : b'.length < b.length := by
  rcases decode_cases h with ⟨len, body, hb, h1, h2, -⟩ | ⟨len, rest, hb, h1, h2, -, -, hb'⟩ | ⟨len, rest, hb, h1, h2, -, -, hb'⟩ |
    ⟨v, len, rest, hb, h1, -, -, -, -, hb'⟩
  · rw [hb]; simp [u16be]; omega
  · have : b.length = 4 + rest.length := by rw [hb]; simp [u16be]; omega
    rw [hb', List.length_drop]
    omega
  · have hlen : b.length = 4 + rest.length := by rw [hb]; simp [u16be]; omega
    have hadv := (csafe_netflow reg).out (.new b) c.netflow
    rcases hp : NetflowPacket.parse reg (.new b, c.netflow) with ⟨x | e | x, ⟨r1, m1⟩⟩ <;> rw [hp] at hb' hadv
    · obtain ⟨n, hn, hn', rfl⟩ := hadv
      simp only [Reader.new] at hn'
      simp only [Res.isOk, if_true, Reader.new] at hb'
      rw [hb', List.length_drop]
      omega
    · have hb' : b' = [] := hb'
      rw [hb']; simp; omega
    · exact hadv.elim
  · rw [hb, hb']; simp [u16be]; omega

/-- C24 as far as it holds: a message of version 10 that fails removes exactly the length it declares, or five octets when
it declares less; never more. What is missing: a message that declares fewer than five octets loses five. -/
theorem c24_ipfix_partial {reg : Registry} {c c' : FlowCodec} {b b' : Bytes} {e : FlowErr} {len : UInt16} {rest : Bytes}
    (hb : b = u16be 10 ++ (u16be len ++ rest)) (h : FlowCodec.decode reg c b = (.out (.err e), c', b')) :
    b' = b.drop (max 5 len.toNat) ∧ max 5 len.toNat ≤ b.length := by
  have inj : ∀ {v v' l l' : UInt16} {r r' : Bytes}, u16be v ++ (u16be l ++ r) = u16be v' ++ (u16be l' ++ r') →
      v = v' ∧ l = l' ∧ r = r' := by
    intro v v' l l' r r' h
    obtain ⟨h1, h2⟩ := List.append_inj h (by simp [u16be])
    obtain ⟨h2, h3⟩ := List.append_inj h2 (by simp [u16be])
    exact ⟨by rw [← u16of_u16be v, h1, u16of_u16be], by rw [← u16of_u16be l, h2, u16of_u16be], h3⟩
  rcases decode_cases h with ⟨len', body, e', h1, h2, -⟩ | ⟨len', rest', e', h1, h2, -, -, h3⟩ |
    ⟨len', rest', e', -⟩ | ⟨v, len', rest', e', h1, h2, -⟩
  · obtain ⟨-, rfl, rfl⟩ := inj (hb.symm.trans e')
    have hl : (u16be 10 ++ (u16be len ++ body)).length = max 5 len.toNat := by simp [u16be]; omega
    refine ⟨?_, ?_⟩
    · rw [hb, ← List.append_assoc (u16be len), ← List.append_assoc, ← hl, List.drop_left]
    · rw [hb, ← hl]; simp [u16be]
  · obtain ⟨-, rfl, rfl⟩ := inj (hb.symm.trans e')
    refine ⟨h3, ?_⟩
    rw [hb]; simp [u16be]; omega
  · exact absurd (inj (hb.symm.trans e')).1 (by decide)
  · exact absurd (inj (hb.symm.trans e')).1.symm h2

/-- a message whose set is cut short, and a message behind it -/
example : FlowCodec.decode reg .new (message [0, 2, 0, 9, 1] ++ message []) =
    (.out (.err (.ipfix (.set (.parse (.eof 20 5 1))))), .new, message []) := by
  rw [show message [0, 2, 0, 9, 1] ++ message [] = u16be 10 ++ (u16be 21 ++
    ([0, 0, 0, 1, 0, 0, 0, 2, 0, 0, 0, 3, 0, 2, 0, 9, 1] ++ message [])) from rfl, decode_ipfix reg .new _ (by decide) (by decide)]
  rfl

/-- C24 does not hold as stated: a message that declares a length of 0 loses five octets -/
theorem c24_disproved : ∃ (b : Bytes) (e : FlowErr), b.take 4 = u16be 10 ++ u16be 0 ∧
    FlowCodec.decode reg .new b = (.out (.err e), .new, b.drop 5) ∧ 5 < b.length :=
  ⟨u16be 10 ++ (u16be 0 ++ List.replicate 12 7), _, rfl, decode_ipfix_short reg .new _ (by decide) (by decide), by decide⟩

/-! ## C28 -/

/-- C28: decoding neither panics nor fails to end, whatever the octets and the templates -/
theorem c28_noFault (reg : Registry) (c c' : FlowCodec) (b b' : Bytes) (x : Res FlowErr FlowInfo)
    (h : FlowCodec.decode reg c b = (.out x, c', b')) : x.isFault = false := by
  rcases decode_cases h with ⟨len, body, -, -, -, rfl, -⟩ | ⟨len, rest, -, -, -, rfl, -⟩ | ⟨len, rest, -, -, -, rfl, -⟩ |
    ⟨v, len, rest, -, -, -, -, rfl, -⟩
  · have := (csafe_ipfixBody reg).noFault (⟨body, 4⟩, c.ipfix)
    rcases hp : (ipfixBody reg (⟨body, 4⟩, c.ipfix)).1 with a | e | f <;> rw [hp] at this <;> first | rfl | exact this
  · rfl
  · have := (csafe_netflow reg).noFault (.new b, c.netflow)
    rcases hp : (NetflowPacket.parse reg (.new b, c.netflow)).1 with a | e | f <;> rw [hp] at this <;> first | rfl | exact this
  · rfl

/-- C28: calling the decoder until it asks for more ends, whatever the octets and the templates -/
theorem c28_drains (reg : Registry) (c : FlowCodec) (b : Bytes) :
    ∃ os c' b', Drains (FlowCodec.decode reg) c b os c' b' := by
  generalize hn : b.length = n
  induction n using Nat.strongRecOn generalizing b c with
  | ind n ih =>
    rcases h : FlowCodec.decode reg c b with ⟨_ | x, c1, b1⟩
    · exact ⟨[], c1, b1, .wait h⟩
    · obtain ⟨os, c', b', ht⟩ := ih b1.length (by have := c24_progress h; omega) c1 b1 rfl
      exact ⟨x :: os, c', b', .item h (c28_noFault _ _ _ _ _ _ h) ht⟩

/-- template 256 without fields, then three octets of data for it: nothing is read and the set is skipped -/
example : (FlowCodec.decode reg .new (message (set 2 [1, 0, 0, 0] ++ set 256 [1, 2, 3]))).1 =
    .out (.ok (.ipfix ⟨⟨1, 0⟩, 2, 3, [.template [⟨256, []⟩], .data 256 []]⟩)) := by decide +kernel

/-! ## C26 -/

/-- C26: a set that is read consists of its header and exactly the octets it declares; what is behind it is left, and the
outcome would be the same with anything else behind it -/
theorem c26_exact {κ φ : Type} {reg : Registry} {d : Dialect κ φ} {r r' : Reader} {m m' : Templates κ} {s : FlowSet κ φ}
    (h : FlowSet.parse reg d (r, m) = (.ok s, (r', m'))) :
    ∃ id len body, r.buf = u16be id ++ (u16be len ++ (body ++ r'.buf)) ∧ body.length + 4 = len.toNat ∧
      r'.offset = r.offset + len.toNat ∧
      ∀ rest, FlowSet.parse reg d (⟨u16be id ++ (u16be len ++ (body ++ rest)), r.offset⟩, m) =
        (.ok s, (⟨rest, r.offset + len.toNat⟩, m')) := by
  obtain ⟨id, len, body, e, hl, ho, hid, sub, hc⟩ := set_frame h
  exact ⟨id, len, body, e, hl, ho, fun rest => by rw [set_eq reg d rest _ _ hid hl, hc]⟩

/-- C26: the same for a complete set whatever comes of it, an error or a result: it does not depend on what is behind the
set -/
theorem c26_independent {κ φ : Type} (reg : Registry) (d : Dialect κ φ) {id len : UInt16} {body : Bytes} (o : Nat)
    (m : Templates κ) (hl : body.length + 4 = len.toNat) (rest rest' : Bytes) :
    (FlowSet.parse reg d (⟨u16be id ++ (u16be len ++ (body ++ rest)), o⟩, m)).1 =
      (FlowSet.parse reg d (⟨u16be id ++ (u16be len ++ (body ++ rest')), o⟩, m)).1 := by
  by_cases hid : d.badId id
  · have : ∀ rest, FlowSet.parse reg d (⟨u16be id ++ (u16be len ++ (body ++ rest)), o⟩, m) =
        (.err (.invalidSetId o id), (⟨u16be id ++ (u16be len ++ (body ++ rest)), o⟩, m)) := by
      intro rest
      unfold FlowSet.parse
      rw [CParser.bind_ok (lift_getOffset _ _), CParser.bind_ok (lift_mapErr_ok (peekU16_u16be _ _ _) _ _),
        if_pos (c := id ≠ d.templateSet ∧ id ≠ d.optionsSet ∧ id < 256) hid]
      rfl
    rw [this, this]
  · rw [set_eq reg d rest _ _ hid hl, set_eq reg d rest' _ _ hid hl]

/-- C26: a set that declares more octets than there are is an error, and the templates are as before -/
theorem c26_incomplete {κ φ : Type} (reg : Registry) (d : Dialect κ φ) {id len : UInt16} {body : Bytes} (o : Nat)
    (m : Templates κ) (hl : body.length + 4 < len.toNat) :
    ∃ e r, FlowSet.parse reg d (⟨u16be id ++ (u16be len ++ body), o⟩, m) = (.err e, (r, m)) := by
  unfold FlowSet.parse
  rw [CParser.bind_ok (lift_getOffset _ _), CParser.bind_ok (lift_mapErr_ok (peekU16_u16be _ _ _) _ _)]
  by_cases hid : d.badId id
  · rw [if_pos (c := id ≠ d.templateSet ∧ id ≠ d.optionsSet ∧ id < 256) hid]
    exact ⟨_, _, rfl⟩
  rw [if_neg (c := id ≠ d.templateSet ∧ id ≠ d.optionsSet ∧ id < 256) hid,
    CParser.bind_ok (lift_mapErr_ok (readU16_u16be _) _ _), CParser.bind_ok (lift_getOffset _ _),
    CParser.bind_ok (lift_mapErr_ok (peekU16_u16be _ _ _) _ _),
    if_neg (by rw [UInt16.lt_iff_toNat_lt]; have : (4 : UInt16).toNat = 4 := rfl; omega),
    CParser.bind_ok (lift_mapErr_ok (readU16_u16be _) _ _)]
  have : takeSlice (len.toNat - 4) ⟨body, o + 2 + 2⟩ =
      (.err (.eof (o + 2 + 2) (len.toNat - 4) body.length), ⟨body, o + 2 + 2⟩) := by
    unfold takeSlice
    rw [Parser.bind_ok (p := Parser.getOffset) (a := o + 2 + 2) (r' := ⟨body, o + 2 + 2⟩) rfl]
    have : readBytes (len.toNat - 4) ⟨body, o + 2 + 2⟩ =
        (.err (.eof (o + 2 + 2) (len.toNat - 4) body.length), ⟨body, o + 2 + 2⟩) := by
      unfold readBytes
      rw [if_neg (by simp only; omega)]
    rw [Parser.bind_err this]
  refine ⟨.parse (.eof (o + 2 + 2) (len.toNat - 4) body.length), ⟨body, o + 2 + 2⟩, ?_⟩
  rw [CParser.bind_err]
  unfold CParser.lift Parser.mapErr
  rw [this]
  rfl

/-- data of three octets for a template of two: one record, and the third octet is skipped -/
example : (FlowSet.parse reg ipfix (⟨[1, 0, 0, 7, 6, 17, 99, 0xAA], 0⟩,
    HMap.insert HMap.empty 256 ⟨[], [⟨.known 0 4 .unsigned8, 1⟩, ⟨.known 0 4 .unsigned8, 1⟩], 0⟩)).1 =
      .ok (.data 256 [⟨[], [.known 0 4 (.unsigned8 6), .known 0 4 (.unsigned8 17)]⟩]) ∧
    (FlowSet.parse reg ipfix (⟨[1, 0, 0, 7, 6, 17, 99, 0xAA], 0⟩,
      HMap.insert HMap.empty 256 ⟨[], [⟨.known 0 4 .unsigned8, 1⟩, ⟨.known 0 4 .unsigned8, 1⟩], 0⟩)).2.1 = ⟨[0xAA], 7⟩ := by
  decide +kernel

end Verif.Props
