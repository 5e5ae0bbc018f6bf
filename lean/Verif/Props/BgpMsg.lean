import Verif.Bgp.OpenLemmas
import Verif.Props.BgpAttr
/-!
# C05, C06, C07, C12, C14, C15, C54: BGP messages
-/
namespace Verif.Props
open Verif Verif.Bgp

/-- a strict context: four-octet AS numbers, no ADD-PATH, every error fails the message -/
def strictCtx : MsgCtx := ⟨plainCtx, true, true, true, true⟩
/-- a lenient context: recoverable errors are recorded and parsing carries on -/
def lenientCtx : MsgCtx := ⟨plainCtx, false, false, false, false⟩

theorem strictCtx_lim : strictCtx.attr.LimOk := ⟨by decide, by decide, by decide, by decide⟩
theorem lenientCtx_lim : lenientCtx.attr.LimOk := ⟨by decide, by decide, by decide, by decide⟩

/-! ## Framing -/

/-- the octets of a message: sixteen times 0xff, the length, the type and the body -/
def frameOf (l : UInt16) (t : UInt8) (body : Bytes) : Bytes := List.replicate 16 0xff ++ (u16be l ++ t :: body)

/-- **C05.** A message is decoded only from a frame: sixteen octets 0xff, a length that counts the whole frame (so it is
at least 19 and at most what is available), and the type of the message; OPEN and KEEPALIVE have at most 4096 octets.
The body parser is given exactly the octets of the body and leaves none; exactly the frame is consumed; and
whatever follows the frame, the outcome is the same. -/
theorem c05_framing (c : MsgCtx) (b : Bytes) (o : Nat) (g g' : Ignored) (m : Msg) (r' : Reader)
    (h : parseMsg c (⟨b, o⟩, g) = (.ok m, (r', g'))) :
    ∃ (l : UInt16) (body rest : Bytes), b = frameOf l m.type.code body ++ rest ∧
      l.toNat = 19 + body.length ∧ 19 ≤ l.toNat ∧ l.toNat ≤ b.length ∧
      m.type.code ∈ ([1, 2, 3, 4, 5] : List UInt8) ∧
      (m.type.code = 1 ∨ m.type.code = 4 → l.toNat ≤ 4096) ∧
      (∃ s, parseBody c m.type (⟨body, o + 19⟩, g) = (.ok m, (s, g')) ∧ s.buf = []) ∧
      r' = ⟨rest, o + l.toNat⟩ ∧
      ∀ rest', parseMsg c (⟨frameOf l m.type.code body ++ rest', o⟩, g) = (.ok m, (⟨rest', o + l.toNat⟩, g')) := by
  obtain ⟨l, t, v, rest, s, rfl, hl, hm, hp, hs, rfl⟩ := parseMsg_ok h
  have ht : m.type = t := body_type hp
  subst ht
  refine ⟨l, v, rest, by simp [frameOf, marker], hl, by omega, ?_, by cases m <;> simp [Msg.type, MsgType.code], ?_, ⟨s, hp, hs⟩, rfl, ?_⟩
  · simp [marker]; omega
  · intro hcode
    refine hm ?_
    revert hcode
    cases m <;> simp [Msg.type, MsgType.code]
  · intro rest'
    have := run_frame c (rest := rest') hl hm o g
    rw [hp] at this
    simpa [frameOf, marker, hs] using this

example : ∃ c b o g g' m r', parseMsg c (⟨b, o⟩, g) = (.ok m, (r', g')) ∧ r'.buf ≠ [] :=
  ⟨strictCtx, frameOf 23 5 [0, 1, 0, 1] ++ [1, 2, 3], 7, .none, .none, .routeRefresh ⟨.ipv4Unicast, .normal⟩,
    ⟨[1, 2, 3], 30⟩, by decide +kernel, by decide⟩

/-- **C05 (fixed bodies).** The bodies of the messages without optional parts are exactly the fields of the message. -/
theorem c05_bodies (c : MsgCtx) (b : Bytes) (o : Nat) (g g' : Ignored) (m : Msg) (r' : Reader)
    (h : parseMsg c (⟨b, o⟩, g) = (.ok m, (r', g'))) :
    (m = .keepAlive → b = frameOf 19 4 [] ++ r'.buf) ∧
    (∀ n, m = .notification n → ∃ l, b = frameOf l 3 (n.kind.code :: n.sub :: n.value) ++ r'.buf ∧
      l.toNat = 21 + n.value.length) ∧
    (∀ x, m = .routeRefresh x → b = frameOf 23 5 (u16be x.type.afi ++ [x.op.code, x.type.safi]) ++ r'.buf) := by
  obtain ⟨l, v, rest, rfl, hl, -, -, -, -, ⟨s, hp, hs⟩, rfl, -⟩ := c05_framing c b o g g' m r' h
  refine ⟨?_, ?_, ?_⟩
  · rintro rfl
    simp only [Msg.type, parseBody, CParser.pure_run, Prod.mk.injEq] at hp
    obtain ⟨_, rfl, _⟩ := hp
    simp only at hs
    subst hs
    have : l = 19 := by
      apply UInt16.toNat_inj.mp; rw [hl]; rfl
    subst this; rfl
  · rintro n rfl
    simp only [Msg.type, parseBody] at hp
    obtain ⟨n', s1, h1, h2⟩ := CParser.bind_eq_ok hp
    rw [CParser.pure_run] at h2
    simp only [Prod.mk.injEq, Res.ok.injEq, Msg.notification.injEq] at h2
    obtain ⟨rfl, h2⟩ := h2
    obtain ⟨h1, -⟩ := CParser.lift_eq_ok h1
    rw [h2, Parser.mapErr_eq_ok] at h1
    have hv : v = n'.kind.code :: n'.sub :: n'.value := notif_ok h1
    subst hv
    exact ⟨l, rfl, by rw [hl]; simp; omega⟩
  · rintro x rfl
    simp only [Msg.type, parseBody] at hp
    obtain ⟨n', s1, h1, h2⟩ := CParser.bind_eq_ok hp
    rw [CParser.pure_run] at h2
    simp only [Prod.mk.injEq, Res.ok.injEq, Msg.routeRefresh.injEq] at h2
    obtain ⟨rfl, h2⟩ := h2
    obtain ⟨h1, -⟩ := CParser.lift_eq_ok h1
    rw [h2, Parser.mapErr_eq_ok] at h1
    have hv : v = u16be n'.type.afi ++ [n'.op.code, n'.type.safi] := by
      have := refresh_ok h1
      rw [hs] at this; simpa using this
    subst hv
    have : l = 23 := by
      apply UInt16.toNat_inj.mp; rw [hl]; simp
    subst this; rfl

example : ∃ c b o g g' n r', parseMsg c (⟨b, o⟩, g) = (.ok (.notification n), (r', g')) ∧ n.value = [1, 2] ∧ r'.buf ≠ [] :=
  ⟨strictCtx, frameOf 23 3 [2, 3, 1, 2] ++ [9], 0, .none, .none, ⟨.openMsg, 3, [1, 2], rfl⟩, ⟨[9], 23⟩,
    by decide +kernel, rfl, by decide⟩

/-! ## Round trip -/

/-- **C06.** A message that fits its wire format is written, and decoding what was written under the same context gives
the same message, leaves whatever follows and records no error. -/
theorem c06_roundtrip (c : MsgCtx) (m : Msg) (h : m.WF c.attr) :
    ∃ b, m.write = .ok b ∧ ∀ rest o g,
      parseMsg c (⟨b ++ rest, o⟩, g) = (.ok m, (⟨rest, o + b.length⟩, g)) :=
  ⟨m.bytes, Msg.write_eq h, fun rest o g => (creads_msg c h).run rest o g⟩

/-- an OPEN with two parameters, an UPDATE with withdrawn routes, attributes and NLRI, a NOTIFICATION with data -/
example : Msg.WF plainCtx (.open ⟨23456, 180, 0xC0000201, [[.fourOctetAs 65536, .routeRefresh], [.mpe .ipv6Unicast]]⟩) ∧
    Msg.WF plainCtx (.update ⟨[⟨none, ⟨[10, 0, 0, 0], 8⟩⟩], [⟨false, true, false, false, .origin .igp⟩,
      ⟨false, true, false, false, .asPath (.as4 [⟨.sequence, [65536, 1]⟩])⟩, ⟨false, true, false, false, .nextHop 1⟩],
      [⟨none, ⟨[192, 0, 2, 0], 24⟩⟩, ⟨none, ⟨[198, 51, 100, 0], 22⟩⟩]⟩) ∧
    Msg.WF plainCtx (.notification ⟨.cease, 2, [5, 98, 121, 101], rfl⟩) := by
  refine ⟨⟨by decide, by decide, ?_, by decide⟩, ⟨⟨?_, ?_, ?_, by decide, by decide⟩, by decide⟩, ?_⟩
  · intro p hp x hx
    simp at hp
    rcases hp with rfl | rfl
    · simp at hx; rcases hx with rfl | rfl <;> trivial
    · simp at hx; subst hx; trivial
  · intro a ha; simp at ha; subst ha; exact ⟨⟨⟨by decide, by decide⟩, by decide⟩, by decide, rfl⟩
  · intro a ha; simp at ha
    rcases ha with rfl | rfl | rfl
    · exact ⟨trivial, by decide, rfl⟩
    · refine ⟨⟨rfl, ?_⟩, by decide, rfl⟩
      intro s hs; simp at hs; subst hs; exact ⟨by decide, by decide⟩
    · exact ⟨trivial, by decide, rfl⟩
  · intro a ha; simp at ha
    rcases ha with rfl | rfl <;> exact ⟨⟨⟨by decide, by decide⟩, by decide⟩, by decide, rfl⟩
  · show 19 + Notif.len _ ≤ 65535
    decide

/-! ## Length accounting -/

/-- **C07 (messages that fit).** `len()` is the number of octets written, and it is what the length field says. -/
theorem c07_len_partial (c : MsgCtx) (m : Msg) (h : m.WF c.attr) :
    ∃ body : Bytes, m.write = .ok (frameOf (UInt16.ofNat m.len) m.type.code body) ∧
      (frameOf (UInt16.ofNat m.len) m.type.code body).length = m.len ∧ (UInt16.ofNat m.len).toNat = m.len := by
  have hb : m.bytes = frameOf (UInt16.ofNat m.len) m.type.code m.bodyBytes := by
    unfold Msg.bytes frameOf; rw [marker_eq]; simp [marker]
  refine ⟨m.bodyBytes, ?_, ?_, UInt16.toNat_ofNat_le (Msg.len_le h).1⟩
  · rw [Msg.write_eq h, hb]
  · rw [← hb, Msg.length_bytes h]

/-- **C07 (refusal).** An OPEN of more than 4096 octets is refused with its length. -/
theorem c07_open_refused_partial (m : Open) (h : 4096 < 19 + m.len) :
    (Msg.open m).write = .err (.overflow (19 + m.len)) := by
  unfold Msg.write
  rw [if_pos ⟨.inl rfl, by simpa [Msg.len, minLen, maxLen, Msg.bodyLen] using h⟩]
  rfl

example : 4096 < 19 + Open.len ⟨1, 180, 1, List.replicate 5000 []⟩ := by
  decide +kernel

/-- **C07 is false above 65535 octets**: the message is written without an error, and its length field is not the number
of octets. -/
theorem c07_truncated_disproved (v : Bytes) (hv : 65514 < v.length) :
    ∃ n : Notif, n.value = v ∧ ∃ l body, (Msg.notification n).write = .ok (frameOf l 3 body) ∧
      l.toNat ≠ (frameOf l 3 body).length := by
  refine ⟨⟨.cease, 2, v, rfl⟩, rfl, UInt16.ofNat (21 + v.length), 6 :: 2 :: v, ?_, ?_⟩
  · show Msg.write _ = _
    unfold Msg.write
    rw [if_neg (by simp [Msg.type])]
    simp only [Msg.body, Notif.write, Res.cat, Msg.len, minLen, Msg.bodyLen, Notif.len, frameOf, marker_eq, marker, Msg.type,
      MsgType.code, NotifKind.code]
    rw [show 19 + (1 + (1 + v.length)) = 21 + v.length by omega]
    simp
  · simp [frameOf]; omega

/-- **C07 is false below 65536 octets too**: an OPEN with more than 255 octets of parameters is written without an error,
and decoding it does not give it back. -/
theorem c07_parameters_disproved : ∃ (m : Open) (b : Bytes), (Msg.open m).write = .ok b ∧ b.length = (Msg.open m).len ∧
    b.length ≤ 4096 ∧ ∀ s, parseMsg strictCtx (⟨b, 0⟩, .none) ≠ (.ok (.open m), s) := by
  refine ⟨⟨1, 180, 0x01010101, List.replicate 128 []⟩,
    frameOf 285 1 ([4, 0, 1, 0, 180, 1, 1, 1, 1, 0] ++ (List.replicate 128 [2, 0]).flatten), by decide +kernel,
    by decide +kernel, by decide +kernel, fun s h => ?_⟩
  have : (parseMsg strictCtx (⟨frameOf 285 1 ([4, 0, 1, 0, 180, 1, 1, 1, 1, 0] ++ (List.replicate 128 [2, 0]).flatten), 0⟩,
    .none)).1 = .err (.unparseable 29 285 256) := by decide +kernel
  rw [h] at this
  cases this

/-- **C07 is false for an OPEN with the multiple-labels capability** (C13): the length field counts an octet that is not
written. -/
theorem c07_labels_disproved : ∃ (m : Open) (b : Bytes), (Msg.open m).write = .ok b ∧ b.length + 1 = (Msg.open m).len ∧
    ∃ e s, parseMsg strictCtx (⟨b, 0⟩, .none) = (.err e, s) := by
  refine ⟨⟨1, 180, 0x01010101, [[.multipleLabels [⟨.ipv4NlriMplsLabels, 2⟩]]]⟩,
    frameOf 37 1 [4, 0, 1, 0, 180, 1, 1, 1, 1, 8, 2, 6, 8, 0, 1, 4, 2], by decide +kernel, by decide +kernel,
    .badLength 16 37, (⟨[1, 4, 0, 1, 0, 180, 1, 1, 1, 1, 8, 2, 6, 8, 0, 1, 4, 2], 18⟩, .none), by decide +kernel⟩

/-! ## No input crashes the decoder -/

/-- **C54.** Decoding a message neither panics nor loops, in any mode, whatever the input (for the numbers of labels of
C43), and a decoded message takes at least 19 octets. -/
theorem c54_no_fault_partial (c : MsgCtx) (hc : c.attr.LimOk) (r : Reader) (g : Ignored) :
    (parseMsg c (r, g)).1.isFault = false ∧
      ∀ m r' g', parseMsg c (r, g) = (.ok m, (r', g')) → r'.buf.length + 19 ≤ r.buf.length := by
  refine ⟨(csafe_parseMsg hc).noFault _, fun m r' g' h => ?_⟩
  have := (csafe_parseMsg hc).out r g
  rw [h] at this
  exact this.length

example : strictCtx.attr.LimOk ∧ lenientCtx.attr.LimOk := ⟨strictCtx_lim, lenientCtx_lim⟩

/-- **C54 is false for more than seven negotiated labels** (C43, C50): a labeled VPN route in an UPDATE panics. -/
theorem c54_disproved : ∃ (c : MsgCtx) (b : Bytes), c.attr.lim .ipv4MplsLabeledVpn = 8 ∧
    (parseMsg c (⟨b, 0⟩, .none)).1 = .fault .panic :=
  ⟨⟨⟨true, fun _ => some 8, fun _ => none⟩, false, false, false, false⟩,
    frameOf 286 2 ([0, 0, 1, 7] ++ [0x90, 15, 1, 3, 0, 1, 128] ++
      (255 :: ((List.replicate 7 [0, 1, 0]).flatten ++ [0, 1, 1] ++ List.replicate 231 0))),
    rfl, by decide +kernel⟩

/-! ## OPEN -/

/-- a BGP identifier that is a unicast address: not 0.0.0.0, not 255.255.255.255 and not in 224.0.0.0/4 -/
def unicastId (id : UInt32) : Prop :=
  id.toNat ≠ 0 ∧ id.toNat ≠ 4294967295 ∧ ¬ (224 ≤ id.toNat / 16777216 ∧ id.toNat / 16777216 ≤ 239)

theorem badBgpId_iff (id : UInt32) : badBgpId id = false ↔ unicastId id := by
  have hm : isMulticast4 (u32be id) = true ↔ 224 ≤ id.toNat / 16777216 ∧ id.toNat / 16777216 ≤ 239 := by
    have : ((u32be id).headD 0).toNat = id.toNat / 16777216 := by
      have := id.toNat_lt
      simp [u32be, beBytes]; omega
    unfold isMulticast4
    rw [Bool.and_eq_true, decide_eq_true_iff, decide_eq_true_iff, this]
  have hb : isBroadcast4 (u32be id) = true ↔ id.toNat = 4294967295 := by
    unfold isBroadcast4
    rw [beq_iff_eq, show ([255, 255, 255, 255] : Bytes) = u32be 4294967295 by decide +kernel]
    constructor
    · intro h; rw [u32be_inj h]; rfl
    · intro h; rw [UInt32.toNat_inj.mp (show id.toNat = (4294967295 : UInt32).toNat from h)]
  have hz : (id == 0) = true ↔ id.toNat = 0 := by
    rw [beq_iff_eq]
    constructor
    · rintro rfl; rfl
    · intro h; exact UInt32.toNat_inj.mp (by rw [h]; rfl)
  unfold unicastId badBgpId
  rw [Ne, Ne, ← hm, ← hb, ← hz]
  cases isBroadcast4 (u32be id) <;> cases isMulticast4 (u32be id) <;> cases (id == 0) <;> simp

/-- the capability parameters of an OPEN, read from the octets alone: at each place a parameter of type 2 with its length
and body; in strict mode every capability of every body decodes -/
def ParamsOk (c : MsgCtx) (o : Nat) (bodies : List Bytes) (runs : List (List (Except CapErr Cap))) : Prop :=
  (paramOctets bodies).length ≤ 255 ∧ ParamRuns o bodies runs ∧ (c.failCap = true → ∀ l ∈ runs, errs l = [])

/-- **C12 (acceptance).** The OPEN bodies that are accepted are exactly those with version 4, a hold time of 0 or at least
3, a unicast BGP identifier and well-formed parameters; the message has the fields of the body and the capabilities
decoded from its parameters, and exactly the fixed part and the parameters are consumed. -/
theorem c12_accepts_iff (c : MsgCtx) (b : Bytes) (o : Nat) (g : Ignored) (m : Open) (r' : Reader) (g' : Ignored) :
    parseOpen c (⟨b, o⟩, g) = (.ok m, (r', g')) ↔
      ∃ (bodies : List Bytes) (runs : List (List (Except CapErr Cap))),
        b = (4 :: (u16be m.myAs ++ (u16be m.hold ++ (u32be m.bgpId ++
          (UInt8.ofNat (paramOctets bodies).length :: paramOctets bodies))))) ++ r'.buf ∧
        (m.hold.toNat = 0 ∨ 3 ≤ m.hold.toNat) ∧ unicastId m.bgpId ∧ ParamsOk c (o + 10) bodies runs ∧
        m.params = runs.map oks ∧ r'.offset = o + 10 + (paramOctets bodies).length ∧
        g' = { g with caps := g.caps ++ (runs.map errs).flatten } := by
  have hhold : ∀ x : UInt16, (x.toNat = 0 ∨ 3 ≤ x.toNat) ↔ ¬ (x = 1 ∨ x = 2) := by
    intro x
    rw [← UInt16.toNat_inj, ← UInt16.toNat_inj]
    show _ ↔ ¬ (x.toNat = 1 ∨ x.toNat = 2)
    omega
  constructor
  · intro h
    obtain ⟨as, hold, id, bs, ls, rest, rfl, h1, h2, h3, h4, h5⟩ := open_ok h
    rw [run_open h1 h2 h3 h4 h5] at h
    simp only [Prod.mk.injEq, Res.ok.injEq] at h
    obtain ⟨rfl, rfl, rfl⟩ := h
    refine ⟨bs, ls, rfl, (hhold _).mpr h1, (badBgpId_iff _).mp h2, ⟨h3, h4, fun hc => ?_⟩, rfl, ?_, rfl⟩
    · rcases h5 with h5 | h5
      · rw [hc] at h5; simp at h5
      · exact h5
    · rw [length_openOctets]; simp [Nat.add_assoc]
  · rintro ⟨bs, ls, rfl, h1, h2, ⟨h3, h4, h5⟩, h6, h7, rfl⟩
    have := run_open (c := c) (as := m.myAs) ((hhold _).mp h1) ((badBgpId_iff _).mpr h2) h3 h4
      (by cases hf : c.failCap with | false => exact .inl rfl | true => exact .inr (h5 hf)) r'.buf g
    rw [← h6, length_openOctets] at this
    obtain ⟨rb, ro⟩ := r'
    simp only at h7
    rw [h7, Nat.add_assoc]
    exact this

/-- with hold time 0 and two parameters, one of them malformed, in lenient mode -/
example : ∃ m r' g', parseOpen lenientCtx (⟨[4, 0, 1, 0, 0, 10, 0, 0, 1, 8, 2, 2, 2, 0, 2, 2, 65, 4, 99], 0⟩, .none) =
    (.ok m, (r', g')) ∧ g'.caps ≠ [] ∧ m.caps = [.routeRefresh] :=
  ⟨⟨1, 0, 0x0a000001, [[.routeRefresh], []]⟩, ⟨[99], 18⟩, ⟨[], [], [.fourOctetAsParse (.eof 18 4 0)], []⟩, by decide +kernel,
    by decide, by decide⟩

/-- **C12 (rejections).** A rejected OPEN other than one that is cut short or has a malformed capability carries the
offending value: a version that is not 4, a hold time of 1 or 2, an identifier that is not unicast, a parameter type
other than 2; and, except for the hold time, its place in the input. -/
theorem c12_rejects_partial (c : MsgCtx) (b : Bytes) (o : Nat) (g : Ignored) (e : OpenErr) (s : Reader × Ignored)
    (h : parseOpen c (⟨b, o⟩, g) = (.err e, s)) :
    (∃ p, e = .parse p ∨ e = .param (.parse p)) ∨ (∃ x, e = .param (.capability x)) ∨
    (∃ v, e = .version o v ∧ b[0]? = some v ∧ v ≠ 4) ∨
    (∃ off t, e = .holdTime off t ∧ (b.drop 3).take 2 = u16be t ∧ (t = 1 ∨ t = 2)) ∨
    (∃ id, e = .bgpId (o + 5) id ∧ (b.drop 5).take 4 = u32be id ∧ ¬ unicastId id) ∨
    (∃ n t, e = .param (.undefinedType (o + n) t) ∧ 10 ≤ n ∧ b[n]? = some t ∧ t ≠ 2) := by
  rcases open_err h with ⟨p, rfl⟩ | ⟨v, t, rfl, rfl, hv⟩ | ⟨as, hold, t, rfl, rfl, hh⟩ | ⟨as, hold, id, t, rfl, rfl, _, hid⟩ |
    ⟨p, rfl⟩ | ⟨x, rfl⟩ | ⟨n, code, rfl, h1, h2, h3⟩
  · exact .inl ⟨p, .inl rfl⟩
  · exact .inr (.inr (.inl ⟨v, rfl, rfl, hv⟩))
  · refine .inr (.inr (.inr (.inl ⟨_, hold, rfl, ?_, hh⟩)))
    rw [List.drop_succ_cons, show 2 = (u16be as).length by simp, List.drop_left,
      show (u16be as).length = (u16be hold).length by simp, List.take_left]
  · refine .inr (.inr (.inr (.inr (.inl ⟨id, rfl, ?_, fun hu => ?_⟩))))
    · rw [← List.append_assoc, List.drop_succ_cons, show 4 = (u16be as ++ u16be hold).length by simp, List.drop_left]
      rw [show (u16be as ++ u16be hold).length = (u32be id).length by simp, List.take_left]
    · rw [(badBgpId_iff id).mpr hu] at hid; simp at hid
  · exact .inl ⟨p, .inr rfl⟩
  · exact .inr (.inl ⟨x, rfl⟩)
  · exact .inr (.inr (.inr (.inr (.inr ⟨n, code, rfl, h1, h2, h3⟩))))

example : ∃ c b o g e s, parseOpen c (⟨b, o⟩, g) = (.err e, s) ∧ e = .bgpId 5 0xe0000001 :=
  ⟨strictCtx, [4, 0, 1, 0, 180, 224, 0, 0, 1, 0], 0, .none, _, (⟨[224, 0, 0, 1, 0], 5⟩, .none), by decide +kernel, rfl⟩

/-- **C12 is false for the place of the hold time**: the error points at the AS number, two octets before it. -/
theorem c12_hold_offset_disproved : ∃ b e s, parseOpen strictCtx (⟨b, 0⟩, .none) = (.err e, s) ∧
    e = .holdTime 1 2 ∧ (b.drop 1).take 2 ≠ u16be 2 ∧ (b.drop 3).take 2 = u16be 2 :=
  ⟨[4, 0, 7, 0, 2, 10, 0, 0, 1, 0], _, (⟨[0, 2, 10, 0, 0, 1, 0], 3⟩, .none), by decide +kernel, rfl, by decide +kernel,
    by decide +kernel⟩

/-! ## Capabilities -/

/-- **C14 (lenient).** With strict checking off, the capabilities of every body decode to their end without an error: there
is exactly one list of outcomes of reading capabilities one after the other, those that decoded are kept in order, and
one error is recorded for each of the others. -/
theorem c14_lenient (c : MsgCtx) (hc : c.failCap = false) (body : Bytes) (o : Nat) (g : Ignored) :
    ∃ l, CapRun ⟨body, o⟩ l ∧ (∀ l', CapRun ⟨body, o⟩ l' → l' = l) ∧
      CParser.cmany (capStep c) (⟨body, o⟩, g) =
        (.ok (oks l), (⟨[], o + body.length⟩, { g with caps := g.caps ++ errs l })) := by
  obtain ⟨l, hl⟩ := capRun_exists ⟨body, o⟩
  exact ⟨l, hl, fun l' h => capRun_unique h hl, caps_lenient hc hl g⟩

/-- **C14 (a whole OPEN).** With strict checking off, whatever the bodies of the capability parameters are, they never make
the OPEN fail. -/
theorem c14_open (c : MsgCtx) (hc : c.failCap = false) (as hold : UInt16) (id : UInt32) (bodies : List Bytes)
    (hh : hold.toNat = 0 ∨ 3 ≤ hold.toNat) (hid : unicastId id) (hl : (paramOctets bodies).length ≤ 255) (rest : Bytes)
    (o : Nat) (g : Ignored) :
    ∃ runs, ParamRuns (o + 10) bodies runs ∧
      parseOpen c (⟨openOctets as hold id bodies ++ rest, o⟩, g) =
        (.ok ⟨as, hold, id, runs.map oks⟩, (⟨rest, o + 10 + (paramOctets bodies).length⟩,
          { g with caps := g.caps ++ (runs.map errs).flatten })) := by
  obtain ⟨runs, hr⟩ := paramRuns_exists (o + 10) bodies
  refine ⟨runs, hr, ?_⟩
  rw [c12_accepts_iff]
  exact ⟨bodies, runs, rfl, hh, hid, ⟨hl, hr, by rw [hc]; simp⟩, rfl, rfl, rfl⟩

example : lenientCtx.failCap = false ∧ ((180 : UInt16).toNat = 0 ∨ 3 ≤ (180 : UInt16).toNat) ∧ unicastId 0x0a000001 ∧
    (paramOctets [[1, 99], [65, 4, 0, 0, 0, 1]]).length ≤ 255 :=
  ⟨rfl, by decide, ⟨by decide, by decide, by decide⟩, by decide⟩

/-- **C14 (strict).** With strict checking on, the first malformed capability makes the OPEN fail, and nothing is recorded;
without one the capabilities are all returned. -/
theorem c14_strict (c : MsgCtx) (hc : c.failCap = true) (body : Bytes) (o : Nat) (g : Ignored)
    (l : List (Except CapErr Cap)) (h : CapRun ⟨body, o⟩ l) :
    (∀ e es, errs l = e :: es → ∃ r', CParser.cmany (capStep c) (⟨body, o⟩, g) = (.err (.capability e), (r', g))) ∧
    (errs l = [] → CParser.cmany (capStep c) (⟨body, o⟩, g) = (.ok (oks l), (⟨[], o + body.length⟩, g))) :=
  ⟨fun _ _ he => caps_strict hc h he g, fun he => caps_all_ok c h he g⟩

example : ∃ l, CapRun ⟨[2, 0, 69, 4, 0, 1, 1, 9, 2, 0], 0⟩ l ∧ (errs l).length = 1 ∧ (oks l).length = 2 :=
  ⟨[.ok .routeRefresh, .error (.addPathSendReceive 7 9), .ok .routeRefresh],
    .ok (by simp) (r' := ⟨[69, 4, 0, 1, 1, 9, 2, 0], 2⟩) (by decide +kernel)
      (.err (by simp) (r' := ⟨[2, 0], 8⟩) (by decide +kernel)
        (.ok (by simp) (r' := ⟨[], 10⟩) (by decide +kernel) (.done _))), rfl, rfl⟩

/-! ## Errors as NOTIFICATIONs -/

/-- `Answers c b w`: wherever it is read, decoding `b` fails, and the NOTIFICATION for the error has the body `w`: error
code, subcode and data -/
def Answers (c : MsgCtx) (b w : Bytes) : Prop :=
  ∀ o g, ∃ e s, parseMsg c (⟨b, o⟩, g) = (.err e, s) ∧ e.notif.write = w

/-- **C15 (header).** Faults of the header answer with code 1: a marker that is not all ones with subcode 1 and the marker
that was found, a length that is less than 19, is more than is available, or is more than 4096 for OPEN and KEEPALIVE
with subcode 2 and the length, an unknown type with subcode 3 and the type, and a header that is cut short with the
unspecific subcode. Anything else is a frame. -/
theorem c15_header (c : MsgCtx) (b : Bytes) :
    (b.length < 18 ∧ (b.length < 16 ∨ b.take 16 = List.replicate 16 0xff) ∧ Answers c b [1, 0]) ∨
    (16 ≤ b.length ∧ b.take 16 ≠ List.replicate 16 0xff ∧ Answers c b ([1, 1] ++ b.take 16)) ∨
    (∃ l rest, b = List.replicate 16 0xff ++ (u16be l ++ rest) ∧
      (l.toNat < 19 ∨ b.length < l.toNat ∨ (4096 < l.toNat ∧ (rest.head? = some 1 ∨ rest.head? = some 4))) ∧
      Answers c b ([1, 2] ++ u16be l)) ∨
    (∃ l t body rest, b = frameOf l t body ++ rest ∧ t ∉ ([1, 2, 3, 4, 5] : List UInt8) ∧ l.toNat = 19 + body.length ∧
      Answers c b [1, 3, t]) ∨
    (∃ l t body rest, b = frameOf l t body ++ rest ∧ t ∈ ([1, 2, 3, 4, 5] : List UInt8) ∧ l.toNat = 19 + body.length ∧
      (t = 1 ∨ t = 4 → l.toNat ≤ 4096)) := by
  have hfr : ∀ (l : UInt16) (t : UInt8) (v rest : Bytes), marker ++ (u16be l ++ (t :: v ++ rest)) = frameOf l t v ++ rest := by
    intros; simp [frameOf, marker]
  rcases view b with h | ⟨w, rest, rfl, hw, hne⟩ | ⟨rest, rfl, h⟩ | ⟨l, rest, rfl, h⟩ | ⟨l, t, v, rest, rfl, hl, ht⟩ |
    ⟨l, t, v, rest, rfl, hl, ht, h⟩ | ⟨l, t, v, rest, rfl, hl, h⟩
  · refine .inl ⟨by omega, .inl h, fun o g => ?_⟩
    obtain ⟨e, s, he, -⟩ := run_short c h o g
    exact ⟨_, s, he, rfl⟩
  · refine .inr (.inl ⟨by simp [hw], ?_, fun o g => ?_⟩)
    · have := List.take_left (l₁ := w) (l₂ := rest)
      rw [hw] at this
      rw [this]; exact hne
    · obtain ⟨e, s, he, hu, -⟩ := run_unsync c hw hne (rest := rest) o g
      refine ⟨_, s, he, ?_⟩
      show [1, 1] ++ u128be e = _
      have := List.take_left (l₁ := w) (l₂ := rest)
      rw [hw] at this
      rw [hu, this]
  · refine .inl ⟨by simp [marker]; omega, .inr ?_, fun o g => ?_⟩
    · rw [show (16 : Nat) = marker.length from rfl, List.take_left]; rfl
    · obtain ⟨e, s, he, -⟩ := run_noLength c h o g
      exact ⟨_, s, he, rfl⟩
  · refine .inr (.inr (.inl ⟨l, rest, rfl, ?_, fun o g => ?_⟩))
    · rcases h with h | h
      · exact .inl h
      · refine .inr (.inl ?_); simp [marker]; omega
    · obtain ⟨s, he, -⟩ := run_badLength c h o g
      exact ⟨_, s, he, rfl⟩
  · refine .inr (.inr (.inr (.inl ⟨l, t, v, rest, hfr .., ht, hl, fun o g => ?_⟩)))
    obtain ⟨s, he, -⟩ := run_badType c hl ht (rest := rest) o g
    exact ⟨_, s, he, rfl⟩
  · refine .inr (.inr (.inl ⟨l, _, rfl, .inr (.inr ⟨h, ?_⟩), fun o g => ?_⟩))
    · simpa using ht
    · obtain ⟨s, he, -⟩ := run_tooLong c hl ht h (rest := rest) o g
      exact ⟨_, s, he, rfl⟩
  · refine .inr (.inr (.inr (.inr ⟨l, t.code, v, rest, hfr .., by cases t <;> decide, hl, fun ht => h ?_⟩)))
    revert ht
    cases t <;> simp [MsgType.code]

/-- the error code of the layer that decodes the body of a type of message; for NOTIFICATION, which must not be answered
with one, the code sends it to the state machine -/
def layerCode (t : UInt8) : UInt8 := if t = 1 then 2 else if t = 2 then 3 else if t = 5 then 7 else 5

/-- **C15 (layer).** A frame that fails is answered with the code of the layer of its type, or, when octets are left over
after a good body, with the message length error of the header and the length. A KEEPALIVE fails only for its length. -/
theorem c15_layer (c : MsgCtx) (l : UInt16) (t : UInt8) (body rest : Bytes) (ht : t ∈ ([1, 2, 3, 4, 5] : List UInt8))
    (hl : l.toNat = 19 + body.length) (hm : t = 1 ∨ t = 4 → l.toNat ≤ 4096) (o : Nat) (g : Ignored) (e : MsgErr)
    (s : Reader × Ignored) (h : parseMsg c (⟨frameOf l t body ++ rest, o⟩, g) = (.err e, s)) :
    (t ≠ 4 ∧ ∃ sub data, e.notif.write = layerCode t :: sub :: data) ∨ e.notif.write = [1, 2] ++ u16be l := by
  obtain ⟨ty, rfl⟩ : ∃ ty : MsgType, t = ty.code := by
    rcases MsgType.ofCode_eq t with ⟨ty, _, h⟩ | ⟨_, h⟩
    · exact ⟨ty, h⟩
    · exact absurd ht h
  have hr := run_frame c (t := ty) (rest := rest) hl (fun h => hm (by rcases h with rfl | rfl <;> simp [MsgType.code])) o g
  rw [show marker ++ (u16be l ++ (ty.code :: body ++ rest)) = frameOf l ty.code body ++ rest by simp [frameOf, marker], h] at hr
  rcases hb : parseBody c ty (⟨body, o + 19⟩, g) with ⟨x | e' | x, s', g'⟩ <;> rw [hb] at hr <;> simp only at hr
  · split at hr
    · simp only [Prod.mk.injEq, Res.err.injEq] at hr
      rw [hr.1]; exact .inr rfl
    · simp at hr
  · simp only [Prod.mk.injEq, Res.err.injEq] at hr
    obtain ⟨rfl, -⟩ := hr
    left
    cases ty with
    | «open» =>
      simp only [parseBody] at hb
      rcases CParser.bind_eq_err hb with hb | ⟨_, _, _, hb⟩
      · obtain ⟨e, _, rfl⟩ := CParser.mapErr_eq_err hb
        refine ⟨by decide, ?_⟩
        rcases e with _ | _ | _ | _ | (_ | _ | _) <;> exact ⟨_, _, rfl⟩
      · simp at hb
    | update =>
      simp only [parseBody] at hb
      rcases CParser.bind_eq_err hb with hb | ⟨_, _, _, hb⟩
      · obtain ⟨e, _, rfl⟩ := CParser.mapErr_eq_err hb
        refine ⟨by decide, ?_⟩
        rcases e with e | e | e | _
        · cases e <;> exact ⟨_, _, rfl⟩
        · cases e <;> exact ⟨_, _, rfl⟩
        · cases e <;> exact ⟨_, _, rfl⟩
        · exact ⟨_, _, rfl⟩
      · simp at hb
    | notification =>
      simp only [parseBody] at hb
      rcases CParser.bind_eq_err hb with hb | ⟨_, _, _, hb⟩
      · obtain ⟨e, _, rfl⟩ := Parser.mapErr_eq_err.mp (CParser.lift_eq_err hb).1
        exact ⟨by decide, _, _, rfl⟩
      · simp at hb
    | keepAlive => simp [parseBody] at hb
    | routeRefresh =>
      simp only [parseBody] at hb
      rcases CParser.bind_eq_err hb with hb | ⟨_, _, _, hb⟩
      · obtain ⟨e, _, rfl⟩ := Parser.mapErr_eq_err.mp (CParser.lift_eq_err hb).1
        exact ⟨by decide, _, _, rfl⟩
      · simp at hb
  · simp at hr

/-- a ROUTE-REFRESH with two octets too many, and one with an unknown AFI -/
example : Answers strictCtx (frameOf 25 5 [0, 1, 0, 1, 9, 9]) [1, 2, 0, 25] ∧
    Answers strictCtx (frameOf 23 5 [0, 99, 0, 1]) [7, 1] := by
  constructor <;> intro o g
  · have hr := run_frame strictCtx (l := 25) (t := .routeRefresh) (v := [0, 1, 0, 1, 9, 9]) (rest := []) rfl (by simp) o g
    have : parseBody strictCtx .routeRefresh (⟨[0, 1, 0, 1, 9, 9], o + 19⟩, g) =
        (.ok (.routeRefresh ⟨.ipv4Unicast, .normal⟩), (⟨[9, 9], o + 23⟩, g)) := rfl
    rw [this] at hr
    exact ⟨_, _, hr, rfl⟩
  · have hr := run_frame strictCtx (l := 23) (t := .routeRefresh) (v := [0, 99, 0, 1]) (rest := []) rfl (by simp) o g
    exact ⟨_, _, hr, rfl⟩

/-- **C15 (OPEN).** A failing OPEN is answered with the subcode and the data RFC 4271 section 6.2 asks for: the version we
support for any version but 4, the hold time for 1 and 2, the identifier if it is not unicast, the type for an
optional parameter that is not known; a body that is cut short, and a malformed capability in strict mode, with the
unspecific subcode. -/
theorem c15_open (c : MsgCtx) (l : UInt16) (body rest : Bytes) (hl : l.toNat = 19 + body.length) (hm : l.toNat ≤ 4096)
    (o : Nat) (g : Ignored) (e : MsgErr) (s : Reader × Ignored)
    (h : parseMsg c (⟨frameOf l 1 body ++ rest, o⟩, g) = (.err e, s)) :
    (∃ v, body.head? = some v ∧ v ≠ 4 ∧ e.notif.write = [2, 1, 0, 4]) ∨
    (∃ t, (body.drop 3).take 2 = u16be t ∧ (t = 1 ∨ t = 2) ∧ e.notif.write = [2, 6] ++ u16be t) ∨
    (∃ id, (body.drop 5).take 4 = u32be id ∧ ¬ unicastId id ∧ e.notif.write = [2, 3] ++ u32be id) ∨
    (∃ n t, 10 ≤ n ∧ body[n]? = some t ∧ t ≠ 2 ∧ e.notif.write = [2, 4, t]) ∨
    e.notif.write = [2, 0] ∨ e.notif.write = [1, 2] ++ u16be l := by
  have hr := run_frame c (t := .open) (rest := rest) hl (fun _ => hm) o g
  rw [show marker ++ (u16be l ++ (MsgType.open.code :: body ++ rest)) = frameOf l 1 body ++ rest by
    simp [frameOf, marker, MsgType.code], h] at hr
  rcases hb : parseBody c .open (⟨body, o + 19⟩, g) with ⟨x | e' | x, s', g'⟩ <;> rw [hb] at hr <;> simp only at hr
  · split at hr
    · simp only [Prod.mk.injEq, Res.err.injEq] at hr
      rw [hr.1]
      exact .inr (.inr (.inr (.inr (.inr rfl))))
    · simp at hr
  · simp only [Prod.mk.injEq, Res.err.injEq] at hr
    obtain ⟨rfl, -⟩ := hr
    simp only [parseBody] at hb
    rcases CParser.bind_eq_err hb with hb | ⟨_, _, _, hb⟩
    · obtain ⟨e, hp, rfl⟩ := CParser.mapErr_eq_err hb
      rcases c12_rejects_partial _ _ _ _ _ _ hp with ⟨p, rfl | rfl⟩ | ⟨x, rfl⟩ | ⟨v, rfl, h1, h2⟩ | ⟨_, t, rfl, h1, h2⟩ |
        ⟨id, rfl, h1, h2⟩ | ⟨n, t, rfl, h1, h2, h3⟩
      · exact .inr (.inr (.inr (.inr (.inl rfl))))
      · exact .inr (.inr (.inr (.inr (.inl rfl))))
      · exact .inr (.inr (.inr (.inr (.inl rfl))))
      · exact .inl ⟨v, by rw [List.head?_eq_getElem?]; exact h1, h2, rfl⟩
      · exact .inr (.inl ⟨t, h1, h2, rfl⟩)
      · exact .inr (.inr (.inl ⟨id, h1, h2, rfl⟩))
      · exact .inr (.inr (.inr (.inl ⟨n, t, h1, h2, h3, rfl⟩)))
    · simp at hb
  · simp at hr

example : Answers strictCtx (frameOf 29 1 [4, 0, 1, 0, 2, 10, 0, 0, 1, 0]) [2, 6, 0, 2] := by
  intro o g
  exact ⟨.open (.holdTime (o + 20) 2), _, run_frame strictCtx (l := 29) (t := .open) (v := [4, 0, 1, 0, 2, 10, 0, 0, 1, 0]) (rest := []) rfl
    (by decide) o g, rfl⟩

theorem Answers.ne {c : MsgCtx} {b w w' : Bytes} (h : Answers c b w) (hw : w ≠ w') : ¬ Answers c b w' := fun h' => by
  obtain ⟨e, s, he, hn⟩ := h 0 .none
  obtain ⟨e', s', he', hn'⟩ := h' 0 .none
  rw [he] at he'
  simp only [Prod.mk.injEq, Res.err.injEq] at he'
  rw [he'.1, hn'] at hn
  exact hw hn.symm

/-- **C15 is false for UPDATE.** A LOCAL_PREF of three octets should be an attribute length error (subcode 5) with the
attribute as data; it is answered as an optional attribute error without data. -/
theorem c15_length_disproved :
    Answers strictCtx (frameOf 29 2 [0, 0, 0, 6, 0x40, 5, 3, 0, 0, 1]) [3, 9] ∧
    ¬ Answers strictCtx (frameOf 29 2 [0, 0, 0, 6, 0x40, 5, 3, 0, 0, 1]) [3, 5, 0x40, 5, 3, 0, 0, 1] := by
  suffices Answers strictCtx (frameOf 29 2 [0, 0, 0, 6, 0x40, 5, 3, 0, 0, 1]) [3, 9] from ⟨this, this.ne (by decide)⟩
  intro o g
  exact ⟨_, _, run_frame strictCtx (l := 29) (t := .update) (v := [0, 0, 0, 6, 0x40, 5, 3, 0, 0, 1]) (rest := []) rfl
    (by decide) o g, rfl⟩

/-- **C15 is false for UPDATE.** An ORIGIN flagged optional is answered with the right subcode (4), but without the
attribute that RFC 4271 section 6.3 asks for. -/
theorem c15_flags_disproved :
    Answers strictCtx (frameOf 27 2 [0, 0, 0, 4, 0x80, 1, 1, 0]) [3, 4] ∧
    ¬ Answers strictCtx (frameOf 27 2 [0, 0, 0, 4, 0x80, 1, 1, 0]) [3, 4, 0x80, 1, 1, 0] := by
  suffices Answers strictCtx (frameOf 27 2 [0, 0, 0, 4, 0x80, 1, 1, 0]) [3, 4] from ⟨this, this.ne (by decide)⟩
  intro o g
  exact ⟨_, _, run_frame strictCtx (l := 27) (t := .update) (v := [0, 0, 0, 4, 0x80, 1, 1, 0]) (rest := []) rfl
    (by decide) o g, rfl⟩

end Verif.Props
