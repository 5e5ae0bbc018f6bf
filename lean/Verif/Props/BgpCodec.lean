import Verif.Bgp.CodecLemmas
import Verif.Props.BgpMsg
/-!
# C06, C08–C11: the BGP stream codec
-/
namespace Verif.Props
open Verif Verif.Bgp

/-! ## Chunks -/

/-- **C08.** Whatever chunks a stream arrives in, the messages and errors decoded, the octets left in the buffer and the
state of the codec are those of the whole stream at once. -/
theorem c08_chunks (s s' : Codec) (chunks : List Bytes) (os : List (Res MsgErr (Msg × Ignored))) (b' : Bytes) :
    Feeds Codec.decode s [] chunks os s' b' ↔ Drains Codec.decode s chunks.flatten os s' b' := by
  have := feeds_iff codec_local (s := s) (s' := s') (b' := b') (cs := chunks) (os := os) (decode_short s (b := []) (.inl (by decide)))
  simpa using this

/-- **C08 (two ways of cutting).** -/
theorem c08_two (s s1 s2 : Codec) (cs1 cs2 : List Bytes) (h : cs1.flatten = cs2.flatten)
    (os1 os2 : List (Res MsgErr (Msg × Ignored))) (b1 b2 : Bytes)
    (h1 : Feeds Codec.decode s [] cs1 os1 s1 b1) (h2 : Feeds Codec.decode s [] cs2 os2 s2 b2) :
    os1 = os2 ∧ s1 = s2 ∧ b1 = b2 := by
  rw [c08_chunks] at h1 h2
  rw [h] at h1
  exact h1.unique h2

/-- a KEEPALIVE and a frame of unknown type cut inside the marker and the length, with one octet left over -/
example : ∃ os s' b', Feeds Codec.decode (Codec.new true) []
    [List.replicate 7 255, List.replicate 9 255 ++ [0], [19, 4], frameOf 19 9 [] ++ [1]] os s' b' ∧
    os = [.ok (.keepAlive, .none), .err (.undefinedType 18 9)] ∧ b' = [1] := by
  refine ⟨_, { Codec.new true with ctx := codecCtx.setAsn4 true }, [1], (c08_chunks _ _ _ _ _).mpr (.item (s1 := { Codec.new true with ctx := codecCtx.setAsn4 true }) (b1 := frameOf 19 9 [] ++ [1]) ?_ rfl
    (.item (s1 := { Codec.new true with ctx := codecCtx.setAsn4 true }) (b1 := [1]) ?_ rfl (.wait ?_))), rfl, rfl⟩
  · rfl
  · rfl
  · exact decode_short _ (.inl (by decide))

/-! ## Progress -/

/-- the length in the header of the frame at the start of the buffer -/
def headerLength (b : Bytes) : Nat := 256 * (b[16]?.getD 0).toNat + (b[17]?.getD 0).toNat

theorem declared_eq {b : Bytes} (h : 19 ≤ b.length) : declared b = headerLength b := by
  obtain ⟨x, hx⟩ : ∃ x, b[16]? = some x := ⟨b[16], by simp⟩
  obtain ⟨y, hy⟩ : ∃ y, b[17]? = some y := ⟨b[17], by simp⟩
  have hb : (b.drop 16).take 2 = [x, y] := by
    rw [List.getElem?_eq_some_iff] at hx hy
    obtain ⟨_, hx⟩ := hx
    obtain ⟨_, hy⟩ := hy
    rw [List.drop_eq_getElem_cons (by omega), List.drop_eq_getElem_cons (by omega), hx, hy]
    rfl
  unfold declared headerLength
  rw [hb, hx, hy, u16of_toNat rfl]
  simp [beVal]; omega

/-- **C09 (waiting).** When the codec asks for more, it has changed nothing and no frame is complete: the header is not
there yet, or its length is more than what is there. -/
theorem c09_wait (s s' : Codec) (b b' : Bytes) (h : s.decode b = (.wait, s', b')) :
    s' = s ∧ b' = b ∧ (b.length < 19 ∨ b.length < headerLength b) := by
  obtain ⟨h1, h2, h3⟩ := decode_wait h
  refine ⟨h1, h2, ?_⟩
  by_cases h19 : 19 ≤ b.length
  · rw [← declared_eq h19]; exact h3
  · left; omega

/-- **C09 (progress, but for length 0).** A message or an error takes exactly the octets of the frame off the buffer; so
the buffer gets shorter unless the length in the header is 0. -/
theorem c09_progress_partial (s s' : Codec) (b b' : Bytes) (x : Res MsgErr (Msg × Ignored)) (h : s.decode b = (.out x, s', b')) :
    19 ≤ b.length ∧ headerLength b ≤ b.length ∧ b' = b.drop (headerLength b) ∧
    (headerLength b ≠ 0 → b'.length < b.length) := by
  obtain ⟨h1, h2, h3, _⟩ := decode_out h
  rw [declared_eq h1] at h2 h3
  refine ⟨h1, h2, h3, fun hn => ?_⟩
  rw [h3, List.length_drop]; omega

/-- **C09 is false for length 0.** A header with length 0 is an error that takes nothing off the buffer, so calling
`decode` until it asks for more never ends, whatever else is in the buffer. -/
theorem c09_disproved (b : Bytes) (h : 19 ≤ b.length) (h0 : headerLength b = 0) (s : Codec) :
    (∃ s', s.decode b = (.out (.err (.parse (.eof 0 16 0))), s', b)) ∧
    ¬ ∃ os s' b', Drains Codec.decode s b os s' b' := by
  have hd : ∀ s : Codec, ∃ s', s.decode b = (.out (.err (.parse (.eof 0 16 0))), s', b) := by
    intro s
    have h1 : declared b = 0 := by rw [declared_eq h, h0]
    have hp : parseMsg (s.ctx.setAsn4 s.asn4) (⟨[], 0⟩, s.ignored) = (.err (.parse (.eof 0 16 0)), (⟨[], 0⟩, s.ignored)) := rfl
    refine ⟨{ s with ctx := s.ctx.setAsn4 s.asn4, ignored := s.ignored }, ?_⟩
    unfold Codec.decode
    rw [if_pos h]
    simp only [h1]
    rw [if_neg (by omega)]
    rw [show List.take 0 b = [] from rfl, hp]
    rfl
  have hn : ∀ os s s' b0 b', Drains Codec.decode s b0 os s' b' → b0 ≠ b := by
    intro os s s' b0 b' hr
    induction hr with
    | @wait s _ _ _ hw =>
      rintro rfl
      obtain ⟨s1, h1⟩ := hd s
      rw [hw] at h1; simp at h1
    | @item s _ _ _ _ _ _ _ hi _ _ ih =>
      rintro rfl
      obtain ⟨s1, h1⟩ := hd s
      rw [hi] at h1
      simp only [Prod.mk.injEq] at h1
      exact ih h1.2.2
  exact ⟨hd s, fun ⟨os, s', b', hr⟩ => hn os s s' b b' hr rfl⟩

example : 19 ≤ (frameOf 0 4 []).length ∧ headerLength (frameOf 0 4 []) = 0 := by decide

/-- a buffer in which the header of no complete frame has length 0 -/
inductive NoZeroLength : Bytes → Prop where
  | wait {b} (h : b.length < 19 ∨ b.length < headerLength b) : NoZeroLength b
  | frame {b} (h0 : headerLength b ≠ 0) (t : NoZeroLength (b.drop (headerLength b))) : NoZeroLength b

/-- **C09 (termination, but for length 0).** -/
theorem c09_terminates_partial (s : Codec) (hs : s.ctx.attr.LimOk) (b : Bytes) (h : NoZeroLength b) :
    ∃ os s' b', Drains Codec.decode s b os s' b' := by
  induction h generalizing s with
  | @wait b h =>
    refine ⟨_, _, _, .wait (decode_short s ?_)⟩
    by_cases h19 : 19 ≤ b.length
    · rw [declared_eq h19]; exact h
    · left; omega
  | @frame b h0 _ ih =>
    rcases hd : s.decode b with ⟨_ | x, s1, b1⟩
    · exact ⟨_, _, _, .wait hd⟩
    · obtain ⟨h19, _, rfl, hc, _, hm⟩ := decode_out hd
      rw [declared_eq h19] at hd
      obtain ⟨os, s', b', ht⟩ := ih s1 (by rw [hc]; exact hs)
      refine ⟨_, _, _, .item hd ?_ ht⟩
      have hf := (csafe_parseMsg (c := s.ctx.setAsn4 s.asn4) hs).noFault (⟨b.take (declared b), 0⟩, .none)
      rcases hp : parseMsg (s.ctx.setAsn4 s.asn4) (⟨b.take (declared b), 0⟩, .none) with ⟨m | e | f, ⟨r, d⟩⟩ <;>
        rw [hp] at hm hf
      · rw [hm.1]; rfl
      · rw [hm.1]; rfl
      · simp at hf

example : NoZeroLength (frameOf 19 4 [] ++ frameOf 19 9 [] ++ [255]) := by
  refine .frame (by decide) (.frame (by decide) (.wait (.inl (by decide))))

/-! ## Four-octet AS numbers -/

/-- what happened on a codec: a message was encoded, or `decode` was called on a buffer with some outcome -/
inductive Act where
  | encoded (m : Msg)
  | decoded (b : Bytes) (x : Dec MsgErr (Msg × Ignored))

/-- the calls made on a codec, in order -/
inductive History : Codec → List Act → Codec → Prop where
  | nil {s} : History s [] s
  | encode {s m l s'} (t : History (s.encode m).2 l s') : History s (.encoded m :: l) s'
  | decode {s b x s1 b1 l s'} (h : s.decode b = (x, s1, b1)) (t : History s1 l s') : History s (.decoded b x :: l) s'

/-- the OPEN carries the four-octet AS number capability -/
def CarriesAsn4 (m : Open) : Prop := ∃ p ∈ m.params, ∃ a, Cap.fourOctetAs a ∈ p

/-- the OPENs that were encoded -/
def sentOpens : List Act → List Open
  | [] => []
  | .encoded (.open m) :: l => m :: sentOpens l
  | _ :: l => sentOpens l
/-- the OPENs that were decoded -/
def receivedOpens : List Act → List Open
  | [] => []
  | .decoded _ (.out (.ok (.open m, _))) :: l => m :: receivedOpens l
  | _ :: l => receivedOpens l

/-- the last OPEN of a side carries the capability; before there is one, the value given to the constructor counts -/
def SideAsn4 (init : Option Bool) (l : List Open) : Prop :=
  match l.getLast? with
  | some m => CarriesAsn4 m
  | none => init = some true

theorem hasAsn4_iff (m : Open) : m.hasAsn4 = true ↔ CarriesAsn4 m := by
  unfold Open.hasAsn4 CarriesAsn4 Open.caps
  simp only [List.any_eq_true, List.mem_flatten]
  constructor
  · rintro ⟨x, ⟨p, hp, hx⟩, h⟩
    cases x <;> simp [Cap.isAsn4] at h
    exact ⟨p, hp, _, hx⟩
  · rintro ⟨p, hp, a, ha⟩
    exact ⟨_, ⟨p, hp, ha⟩, rfl⟩

theorem getLast_cons {α β : Type} (f : α → β) (a : α) (l : List α) (x : β) :
    ((a :: l).getLast?.map f).getD x = (l.getLast?.map f).getD (f a) := by
  rw [List.getLast?_cons]
  cases l.getLast? <;> rfl

theorem history_flags {s s' : Codec} {l : List Act} (h : History s l s') :
    s'.sent = ((sentOpens l).getLast?.map fun m => some m.hasAsn4).getD s.sent ∧
    s'.recv = ((receivedOpens l).getLast?.map fun m => some m.hasAsn4).getD s.recv ∧
    s'.ctx.attr.labels = s.ctx.attr.labels ∧ s'.ctx.attr.addPath = s.ctx.attr.addPath := by
  induction h with
  | nil => exact ⟨rfl, rfl, rfl, rfl⟩
  | @encode s m l s' _ ih =>
    cases m with
    | «open» m =>
      refine ⟨?_, ih.2.1, ih.2.2⟩
      rw [ih.1, show sentOpens (.encoded (.open m) :: l) = m :: sentOpens l from rfl, getLast_cons]
      rfl
    | _ => exact ih
  | @decode s b x s1 b1 l s' hd _ ih =>
    cases x with
    | wait =>
      obtain ⟨rfl, _⟩ := decode_wait hd
      exact ih
    | out x =>
      obtain ⟨_, _, _, hc, hsent, hm⟩ := decode_out hd
      rw [hsent, hc] at ih
      refine ⟨ih.1, ?_, ih.2.2⟩
      rcases hp : parseMsg (s.ctx.setAsn4 s.asn4) (⟨b.take (declared b), 0⟩, .none) with ⟨m | e | f, ⟨r, d⟩⟩ <;>
        rw [hp] at hm
      · obtain ⟨rfl, -, hr⟩ := hm
        rw [ih.2.1, hr]
        cases m with
        | «open» m =>
          rw [show ∀ g, receivedOpens (.decoded b (.out (.ok (.open m, g))) :: l) = m :: receivedOpens l from fun _ => rfl,
            getLast_cons]
          rfl
        | _ => rfl
      · obtain ⟨rfl, -, hr⟩ := hm
        rw [ih.2.1, hr]; rfl
      · obtain ⟨rfl, -, hr⟩ := hm
        rw [ih.2.1, hr]; rfl

theorem sideAsn4_iff (init : Option Bool) (l : List Open) :
    ((l.getLast?.map fun m => some m.hasAsn4).getD init).getD false = true ↔ SideAsn4 init l := by
  unfold SideAsn4
  cases l.getLast? with
  | none => cases init <;> simp
  | some m => simp [hasAsn4_iff]

theorem update_asn4 {c : MsgCtx} {r : Reader} {g : Ignored} {u : Update} {s' : Reader × Ignored}
    (h : parseMsg c (r, g) = (.ok (.update u), s')) : ∀ a ∈ u.attrs, AsPathOk c.attr.asn4 a.value := by
  obtain ⟨b, o⟩ := r
  obtain ⟨r', g'⟩ := s'
  obtain ⟨l, t, v, rest, s, rfl, hl, hm, hp, hs, rfl⟩ := parseMsg_ok h
  have ht := body_type hp
  subst ht
  simp only [Msg.type, parseBody] at hp
  obtain ⟨u', s1, h1, hp⟩ := CParser.bind_eq_ok hp
  simp only [CParser.pure_run, Prod.mk.injEq, Res.ok.injEq, Msg.update.injEq] at hp
  obtain ⟨rfl, -⟩ := hp
  have h1 := CParser.mapErr_eq_ok h1
  unfold parseUpdate at h1
  simp only at h1
  obtain ⟨_, _, _, h1⟩ := CParser.bind_eq_ok h1
  obtain ⟨_, _, _, h1⟩ := CParser.bind_eq_ok h1
  obtain ⟨_, _, _, h1⟩ := CParser.bind_eq_ok h1
  obtain ⟨_, _, _, h1⟩ := CParser.bind_eq_ok h1
  obtain ⟨_, _, _, h1⟩ := CParser.bind_eq_ok h1
  obtain ⟨⟨as, _⟩, _, ha, h1⟩ := CParser.bind_eq_ok h1
  obtain ⟨_, _, _, h1⟩ := CParser.bind_eq_ok h1
  simp only [CParser.pure_run, Prod.mk.injEq, Res.ok.injEq] at h1
  obtain ⟨rfl, -⟩ := h1
  have ha := (CParser.onSub_eq_ok ha).1
  refine CParser.cmany_ok_induction (Q := fun _ as _ => ∀ a ∈ as, AsPathOk c.attr.asn4 a.value) (fun _ _ => by simp) ?_ ha
  intro s a s1 as s2 _ hp _ _ ih x hx
  rcases List.mem_append.mp hx with hx | hx
  · rw [Option.mem_toList] at hx
    subst hx
    unfold attrStep at hp
    obtain ⟨y, s3, hy, hp⟩ := CParser.bind_eq_ok hp
    unfold CParser.attempt at hy
    rcases hq : parseAttr c.attr s.1 with ⟨z | e | f, r⟩ <;> rw [hq] at hy <;> simp only [Prod.mk.injEq, Res.ok.injEq] at hy
    · obtain ⟨rfl, -⟩ := hy
      simp only [CParser.pure_run, Prod.mk.injEq, Res.ok.injEq, Option.some.injEq] at hp
      rw [← hp.1]
      exact c53_as_width _ _ _ _ hq
    · obtain ⟨rfl, -⟩ := hy
      exfalso
      have hrec : ∀ e : AttrErr, (if c.failAttr then CParser.fail (.attr e)
          else do
            CParser.lift (Parser.mapErr .parse (recovery c.attr.asn4 e).run)
            CParser.modify fun g => { g with attrs := g.attrs ++ [e] }
            pure none : MParser UpdateErr (Option PathAttr)) s3 ≠ (.ok (some x), s1) := by
        intro e hp
        split at hp
        · simp at hp
        · obtain ⟨_, _, _, hp⟩ := CParser.bind_eq_ok hp
          obtain ⟨_, _, _, hp⟩ := CParser.bind_eq_ok hp
          simp at hp
      cases e with
      | parse e => simp at hp
      | _ => exact hrec _ hp
    · simp at hy
  · exact ih x hx

/-- **C10.** Whatever was encoded and decoded before, an AS_PATH and an AGGREGATOR in a decoded UPDATE are read with
four-octet AS numbers exactly if the last OPEN encoded and the last OPEN decoded both carry the capability, where
before there is such an OPEN the value given to the constructor stands in. -/
theorem c10_as_width (s s' s2 : Codec) (l : List Act) (hl : History s l s') (b b' : Bytes) (u : Update) (g : Ignored)
    (h : s'.decode b = (.out (.ok (.update u, g)), s2, b')) :
    ∀ a ∈ u.attrs,
      (∀ p, a.value = .asPath p →
        ((∃ x, p = .as4 x) ↔ SideAsn4 s.sent (sentOpens l) ∧ SideAsn4 s.recv (receivedOpens l))) ∧
      (∀ p, a.value = .aggregator p →
        ((∃ x y, p = .as4 x y) ↔ SideAsn4 s.sent (sentOpens l) ∧ SideAsn4 s.recv (receivedOpens l))) := by
  intro a ha
  obtain ⟨hf1, hf2, -⟩ := history_flags hl
  have hw : s'.asn4 = true ↔ SideAsn4 s.sent (sentOpens l) ∧ SideAsn4 s.recv (receivedOpens l) := by
    unfold Codec.asn4
    rw [Bool.and_eq_true, hf1, hf2, sideAsn4_iff, sideAsn4_iff, and_comm]
  obtain ⟨_, _, _, _, _, hm⟩ := decode_out h
  rcases hp : parseMsg (s'.ctx.setAsn4 s'.asn4) (⟨b.take (declared b), 0⟩, .none) with ⟨m | e | f, ⟨r, d⟩⟩ <;> rw [hp] at hm
  · simp only [Res.ok.injEq, Prod.mk.injEq] at hm
    obtain ⟨⟨rfl, -⟩, -⟩ := hm
    have := update_asn4 hp a ha
    rw [show (s'.ctx.setAsn4 s'.asn4).attr.asn4 = s'.asn4 from rfl] at this
    constructor
    · intro p hv
      rw [hv] at this
      cases p with
      | as2 l => simp [← hw, this.1]
      | as4 l => simp [← hw, this.1]
    · intro p hv
      rw [hv] at this
      cases p with
      | as2 x y => simp [← hw, show s'.asn4 = false from this]
      | as4 x y => simp [← hw, show s'.asn4 = true from this]
  · simp at hm
  · simp at hm

/-! ## Ignored errors -/

/-- the errors that are recorded when the frame is decoded on its own -/
def ownErrors (c : MsgCtx) (frame : Bytes) : Ignored := (parseMsg c (⟨frame, 0⟩, .none)).2.2

/-- **C11 is false.** A frame that fails leaves the errors it recorded behind, and the next message, here a KEEPALIVE in
which nothing can be ignored, is returned with them. -/
theorem c11_disproved : ∃ (s : Codec) (f1 f2 : Bytes) (e : MsgErr) (g : Ignored) (s' : Codec),
    s = Codec.new true ∧
    Drains Codec.decode s (f1 ++ f2) [.err e, .ok (.keepAlive, g)] s' [] ∧
    ownErrors s.ctx f2 = .none ∧ g ≠ .none := by
  refine ⟨Codec.new true, frameOf 24 2 [0, 2, 4, 224, 0], frameOf 19 4 [], .update (.parse (.eof 23 2 1)),
    ⟨[⟨[224, 0, 0, 0], 4⟩], [], [], []⟩, { Codec.new true with ctx := codecCtx.setAsn4 true }, rfl,
    .item (s1 := { Codec.new true with ctx := codecCtx.setAsn4 true, ignored := ⟨[⟨[224, 0, 0, 0], 4⟩], [], [], []⟩ }) (b1 := frameOf 19 4 []) ?_ rfl
      (.item (s1 := { Codec.new true with ctx := codecCtx.setAsn4 true }) (b1 := []) ?_ rfl (.wait ?_)), ?_, ?_⟩
  · rfl
  · rfl
  · rfl
  · decide +kernel
  · decide

/-- **C11 (what is returned).** The errors returned with a message are the errors left behind by the frames that failed
since the last message, followed by those of the message itself; so they are its own when the previous call of `decode` on the codec
returned a message, or none was made. -/
theorem c11_partial (s s' : Codec) (b b' : Bytes) (x : Res MsgErr (Msg × Ignored)) (h : s.decode b = (.out x, s', b')) :
    (∀ m g, x = .ok (m, g) →
      g = s.ignored.app (ownErrors (s.ctx.setAsn4 s.asn4) (b.take (headerLength b))) ∧ s'.ignored = .none) ∧
    (∀ e, x = .err e →
      s'.ignored = s.ignored.app (ownErrors (s.ctx.setAsn4 s.asn4) (b.take (headerLength b)))) ∧
    (s.ignored = .none → ∀ m g, x = .ok (m, g) →
      g = ownErrors (s.ctx.setAsn4 s.asn4) (b.take (headerLength b))) := by
  obtain ⟨h19, _, _, _, _, hm⟩ := decode_out h
  rw [declared_eq h19] at hm
  unfold ownErrors
  rcases hp : parseMsg (s.ctx.setAsn4 s.asn4) (⟨b.take (headerLength b), 0⟩, .none) with ⟨m | e | f, ⟨r, d⟩⟩ <;> rw [hp] at hm
  · obtain ⟨rfl, h2, -⟩ := hm
    refine ⟨fun m' g hx => ?_, fun e hx => by simp at hx, fun hi m' g hx => ?_⟩
    · simp only [Res.ok.injEq, Prod.mk.injEq] at hx
      exact ⟨hx.2.symm, h2⟩
    · simp only [Res.ok.injEq, Prod.mk.injEq] at hx
      rw [← hx.2, hi]
      exact Log.nil_app d
  · obtain ⟨rfl, h2, -⟩ := hm
    exact ⟨fun m' g hx => by simp at hx, fun e hx => h2, fun hi m' g hx => by simp at hx⟩
  · obtain ⟨rfl, h2, -⟩ := hm
    exact ⟨fun m' g hx => by simp at hx, fun e hx => by simp at hx, fun hi m' g hx => by simp at hx⟩

/-- two UPDATEs with a non-unicast withdrawal in one buffer, after a message was returned -/
example : ∃ s s' b b' m g, Codec.decode s b = (.out (.ok (m, g)), s', b') ∧ s.ignored = .none ∧ g ≠ .none := by
  refine ⟨Codec.new true, { Codec.new true with ctx := codecCtx.setAsn4 true }, frameOf 25 2 [0, 2, 4, 224, 0, 0] ++ [1], [1],
    .update ⟨[], [], []⟩, ⟨[⟨[224, 0, 0, 0], 4⟩], [], [], []⟩, rfl, rfl, by decide⟩

/-- an OPEN with the capability is sent and one is received, and then an UPDATE with an AS_PATH -/
example : ∃ l s' b u g s2 b', History Codec.default l s' ∧ s'.decode b = (.out (.ok (.update u, g)), s2, b') ∧
    u.attrs = [⟨false, true, false, false, .asPath (.as4 [⟨.sequence, [65536]⟩])⟩] := by
  refine ⟨[.encoded (.open ⟨1, 180, 0x0a000001, [[.fourOctetAs 1]]⟩),
      .decoded (frameOf 37 1 [4, 0, 2, 0, 180, 10, 0, 0, 2, 8, 2, 6, 65, 4, 0, 0, 0, 2])
        (.out (.ok (.open ⟨2, 180, 0x0a000002, [[.fourOctetAs 2]]⟩, .none)))],
    ⟨some true, some true, defaultCtx.setAsn4 false, .none⟩, frameOf 32 2 [0, 0, 0, 9, 0x40, 2, 6, 2, 1, 0, 1, 0, 0],
    ⟨[], [⟨false, true, false, false, .asPath (.as4 [⟨.sequence, [65536]⟩])⟩], []⟩, .none,
    ⟨some true, some true, defaultCtx.setAsn4 true, .none⟩, [], .encode (.decode (b1 := []) (s1 := ⟨some true, some true, defaultCtx.setAsn4 false, .none⟩) ?_ .nil), ?_, rfl⟩
  · rfl
  · rfl

/-! ## Streams of messages -/

/-- every message is one the codec can represent with the AS number width in force when it arrives -/
def WellFormed : Codec → List Msg → Prop
  | _, [] => True
  | s, m :: l => m.WF (s.ctx.setAsn4 s.asn4).attr ∧
      WellFormed { s with recv := s.received m, ctx := s.ctx.setAsn4 s.asn4 } l

/-- **C06 (streams).** Writing well-formed messages one after the other and decoding the octets returns the same messages
in the same order with nothing ignored, and nothing is left over. -/
theorem c06_stream (s : Codec) (hi : s.ignored = .none) (ms : List Msg) (h : WellFormed s ms) :
    ∃ b s', Res.catAll (ms.map Msg.write) = .ok b ∧
      Drains Codec.decode s b (ms.map fun m => .ok (m, .none)) s' [] := by
  suffices ∃ s', (∀ m ∈ ms, m.write = .ok m.bytes) ∧
      Drains Codec.decode s (ms.map Msg.bytes).flatten (ms.map fun m => .ok (m, .none)) s' [] by
    obtain ⟨s', h1, h2⟩ := this
    exact ⟨_, s', Res.catAll_ok h1, h2⟩
  induction ms generalizing s with
  | nil => exact ⟨s, by simp, .wait (decode_short s (.inl (by simp)))⟩
  | cons m ms ih =>
    obtain ⟨hm, ht⟩ := h
    obtain ⟨s', h1, h2⟩ := ih { s with recv := s.received m, ctx := s.ctx.setAsn4 s.asn4 } hi ht
    refine ⟨s', ?_, .item (s1 := { s with recv := s.received m, ctx := s.ctx.setAsn4 s.asn4, ignored := .none })
      (b1 := (ms.map Msg.bytes).flatten) ?_ rfl (by rw [hi] at h2; exact h2)⟩
    · intro x hx
      rcases List.mem_cons.mp hx with rfl | hx
      · exact Msg.write_eq hm
      · exact h1 x hx
    · have hlen := Msg.length_bytes hm
      have hle := (Msg.len_le hm).1
      have h19 : 19 ≤ m.bytes.length := by rw [hlen]; unfold Msg.len minLen; omega
      have hd : declared m.bytes = m.bytes.length := by
        unfold declared Msg.bytes
        rw [← length_u128be (BitVec.allOnes 128), List.drop_left]
        rw [← length_u16be (UInt16.ofNat m.len), List.take_left, u16of_u16be, UInt16.toNat_ofNat_le hle]
        exact hlen.symm
      have hr : parseMsg (s.ctx.setAsn4 s.asn4) (⟨m.bytes, 0⟩, s.ignored) = (.ok m, (⟨[], m.bytes.length⟩, .none)) := by
        have := (creads_msg (s.ctx.setAsn4 s.asn4) hm).run [] 0 s.ignored
        rw [List.append_nil, Nat.zero_add, hi] at this
        rw [hi]; exact this
      have hw : Codec.decode s m.bytes =
          (.out (.ok (m, .none)), { s with recv := s.received m, ctx := s.ctx.setAsn4 s.asn4, ignored := .none }, []) := by
        unfold Codec.decode
        rw [if_pos h19]
        simp only [hd]
        rw [if_neg (by omega), List.take_length, List.drop_length, hr]
      have := codec_local.out hw (ms.map Msg.bytes).flatten
      simpa using this

example : WellFormed (Codec.new true) [.keepAlive, .routeRefresh ⟨.ipv4Unicast, .normal⟩, .keepAlive] :=
  ⟨trivial, trivial, trivial, trivial⟩

end Verif.Props
