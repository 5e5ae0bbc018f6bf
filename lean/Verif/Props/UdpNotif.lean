import Verif.UdpNotif.Lemmas3
/-!
# Properties C16–C19: UDP-notif
-/
namespace Verif.Props
open Verif Verif.UdpNotif

/-! ## C16: round trip, exact lengths, refusal -/

/-- **C16** Whatever order the options are emitted in, a well-formed packet that the serializer accepts
decodes from its encoding to the same packet, with both decoders. -/
theorem c16_roundtrip (p : Packet) (hw : p.WF) (order : List (OptCode × Opt))
    (ho : HMap.Enum order p.options) (b : Bytes) (h : p.write order = .ok b) :
    fromBytes b = .ok p ∧
    ∀ rest off, parsePacket ⟨b ++ rest, off⟩ = (.ok p, ⟨rest, off + b.length⟩) := by
  refine ⟨fromBytes_write p hw order ho b h, fun rest off => ?_⟩
  have hp := parseHeader_write p hw order ho b h rest off
  have hlen := length_write p order b h
  unfold Packet.len at hlen
  unfold parsePacket
  rw [Parser.bind_ok hp]
  rw [Parser.bind_ok (Parser.mapErr_ok (readBytes_append rfl) _)]
  rw [Parser.pure_run, hlen, Nat.add_assoc]

/-- **C16** The serializer refuses exactly the packets that do not fit, and says why. -/
theorem c16_accepts_iff (p : Packet) (order : List (OptCode × Opt)) :
    let header := 12 + (order.map (fun x => x.2.len)).sum
    (p.write order).isFault = false ∧
    ((p.write order).isOk = true ↔ header ≤ 255 ∧ header + p.payload.length ≤ 65535) ∧
    (255 < header → p.write order = .err (.invalidHeaderLength header)) ∧
    (header ≤ 255 → 65535 < header + p.payload.length →
      p.write order = .err (.invalidMessageLength (header + p.payload.length))) := by
  simp only
  have hh : (order.map (fun x => x.2.len)).sum = optsLen order := rfl
  rw [hh]
  unfold Packet.write
  by_cases h1 : 12 + optsLen order > 255
  · rw [if_pos h1]; refine ⟨rfl, ?_, fun _ => rfl, fun h => by omega⟩
    simp; intro; omega
  · rw [if_neg h1]
    by_cases h2 : 12 + optsLen order + p.payload.length > 65535
    · rw [if_pos h2]; refine ⟨rfl, ?_, fun h => by omega, fun _ _ => rfl⟩
      simp; intro; omega
    · rw [if_neg h2]; refine ⟨rfl, ?_, fun h => by omega, fun _ h => by omega⟩
      simp; omega

/-- **C16** `len()` is the number of bytes written, and the two length fields on the wire (octet 1, octets
2–3) are the exact header and message lengths: the message ends with the payload, the header is what is
before it. -/
theorem c16_lengths (p : Packet) (order : List (OptCode × Opt)) (b : Bytes) (h : p.write order = .ok b) :
    b.length = p.len order ∧
    beVal ((b.drop 2).take 2) = b.length ∧
    ∃ hd, b = hd ++ p.payload ∧ (b[1]?.map UInt8.toNat) = some hd.length := by
  have hlen := length_write p order b h
  obtain ⟨h1, h2, hb⟩ := write_ok h
  refine ⟨hlen, ?_, _, hb, ?_⟩
  · unfold Packet.len at hlen
    rw [hlen, hb]
    simp only [List.append_assoc, List.cons_append, List.nil_append, List.drop_succ_cons, List.drop_zero]
    rw [List.take_left' (by simp), u16be, beVal_beBytes_of_lt]
    · simp [UInt16.toNat_ofNat']; omega
    · exact UInt16.toNat_lt _
  · have : b[1]? = some (UInt8.ofNat (12 + optsLen order)) := by rw [hb]; simp
    rw [this]
    simp only [Option.map_some, Option.some.injEq, List.length_append, length_optsWrite, length_u16be,
      length_u32be, List.length_cons, List.length_nil]
    simp [UInt8.toNat_ofNat']; omega

/-- **C16** What the decoder accepts is always a well-formed packet, so the round trip applies to it. -/
theorem c16_decoded_wf (b : Bytes) (p : Packet) (h : fromBytes b = .ok p) : p.WF := by
  unfold fromBytes at h
  rcases he : parseHeader (Reader.new b) with ⟨hd | e | f, r⟩
  · obtain ⟨fb, hl, ml, t, hbuf, h1, h2, h3, h4, h5, -, h6, h7⟩ := parseHeader_inv he
    rw [he] at h
    simp only at h
    split at h
    · simp only [Res.ok.injEq] at h
      rw [← h]
      exact ⟨h6, fun k o hk => (h7 k o hk).1, fun k o hk => (h7 k o hk).2⟩
    · simp at h
  · rw [he] at h; simp at h
  · rw [he] at h; simp at h

/-! A segment with two more options satisfies the hypotheses, and its two encodings differ. -/
section example_c16
def exOrder : List (OptCode × Opt) :=
  [(.segment, .segment 300 true), (.privateEncoding, .privateEncoding [7, 8]), (.unknown 9, .unknown 9 [])]
def exPkt : Packet := ⟨.priv 5, 0x01020304, 9, HMap.ofList exOrder, [1, 2, 3]⟩

theorem exPkt_wf : exPkt.WF := by
  have he : HMap.Enum exOrder exPkt.options := HMap.ofList_isEnum _ (by decide)
  refine ⟨⟨fun _ e => by simp [exPkt] at e, fun v e => by simp [exPkt] at e; rw [← e]; decide⟩, ?_, ?_⟩
  · intro k o h
    have := (he.mem k o).mpr h
    simp [exOrder] at this
    rcases this with ⟨rfl, rfl⟩ | ⟨rfl, rfl⟩ | ⟨rfl, rfl⟩ <;> rfl
  · intro k o h
    have := (he.mem k o).mpr h
    simp [exOrder] at this
    rcases this with ⟨rfl, rfl⟩ | ⟨rfl, rfl⟩ | ⟨rfl, rfl⟩ <;>
      refine ⟨fun n l e => ?_, fun t v e => ?_⟩ <;> simp at e
    · rw [← e.1]; decide
    · rw [← e.1]; decide

example : HMap.Enum exOrder exPkt.options := HMap.ofList_isEnum _ (by decide)
example : exPkt.write exOrder = .ok [0x35, 22, 0, 25, 1, 2, 3, 4, 0, 0, 0, 9, 1, 4, 2, 89, 2, 4, 7, 8, 9, 2,
    1, 2, 3] := by decide
end example_c16

/-! ## C18: no panic -/

/-- **C18 (exact condition)** The decoder aborts exactly when an earlier datagram left it waiting for more
data and the next datagram has fewer than two octets. -/
theorem c18_fault_iff (c : Codec) (now : Nat) (d : Bytes) :
    (decode c now d).1.isFault = true ↔ c.inMessage = true ∧ d.length < 2 := by
  rcases decode_cases c now d with ⟨e, h1, h2⟩ | ⟨e, h1, h2⟩ | ⟨h, ⟨_, _, _, e⟩ | e | ⟨p, hp, hw, -, e⟩⟩
  · rw [e]; simp [h1]
  · rw [e]; simp [h1, h2]
  · rw [e]; simp; omega
  · rw [e]; simp; omega
  · rw [e]; simp only [tryReassemble_noFault _ _ _ hw]; simp; omega

theorem actorStep_fault {c : Codec} {now : Nat} {d : Bytes} :
    (actorStep c now d).1.isFault = (decode c now d).1.isFault := by
  unfold actorStep
  rcases decode c now d with ⟨_ | _ | _, _, _⟩ <;> rfl

theorem actorStep_ok {c c' : Codec} {now : Nat} {d b : Bytes} {o : Option Packet}
    (h : decode c now d = (.ok o, c', b)) : actorStep c now d = (.ok o, c') := by
  unfold actorStep; rw [h]

/-- **C18 (partial)** Missing from the full property: datagrams of zero or one octet, for which it is false
(`c18_disproved`). Any history of datagrams of at least two octets each, from any codec state and at any
arrival times, is processed without a panic. -/
theorem c18_no_panic_partial (c : Codec) (ds : List (Nat × Bytes)) (h : ∀ x ∈ ds, 2 ≤ x.2.length) :
    ∃ os c', feed c ds = (.ok os, c') ∧ os.length = ds.length := by
  induction ds generalizing c with
  | nil => exact ⟨[], c, rfl, rfl⟩
  | cons x ds ih =>
    obtain ⟨now, d⟩ := x
    have hd := h (now, d) (by simp)
    have hf : (actorStep c now d).1.isFault = false := by
      rw [actorStep_fault, Bool.eq_false_iff, ne_eq, c18_fault_iff]
      simp only at hd; omega
    unfold feed
    rcases ha : actorStep c now d with ⟨o | e | f, c'⟩
    · obtain ⟨os, c'', hos, hl⟩ := ih c' (fun y hy => h y (by simp [hy]))
      simp only [hos]
      exact ⟨_, _, rfl, by simp [hl]⟩
    · nomatch e
    · rw [ha] at hf; simp at hf

/-- **C18 (partial)** In every history, a panic is preceded by a datagram that announced more octets than
it had; a source that never truncates (every datagram shorter than 12 octets or at least as long as both its
announced lengths) never panics the collector, whatever else the datagrams contain. -/
theorem c18_untruncated_partial (ds : List (Nat × Bytes))
    (h : ∀ x ∈ ds, x.2.length < 12 ∨
      ((x.2[1]?.map UInt8.toNat).getD 0 ≤ x.2.length ∧ beVal ((x.2.drop 2).take 2) ≤ x.2.length)) :
    ∃ os c', feed Codec.new ds = (.ok os, c') ∧ os.length = ds.length := by
  suffices ∀ c : Codec, c.inMessage = false → ∃ os c', feed c ds = (.ok os, c') ∧ os.length = ds.length from
    this _ rfl
  induction ds with
  | nil => intro c _; exact ⟨[], c, rfl, rfl⟩
  | cons x ds ih =>
    intro c hc
    obtain ⟨now, d⟩ := x
    have hf : (actorStep c now d).1.isFault = false := by
      rw [actorStep_fault, Bool.eq_false_iff, ne_eq, c18_fault_iff]
      simp [hc]
    have hm : (actorStep c now d).2.inMessage = false := by
      have : (actorStep c now d).2 = (decode c now d).2.1 := by
        unfold actorStep; rcases decode c now d with ⟨_ | _ | _, _, _⟩ <;> rfl
      rw [this]
      have hd := h (now, d) (by simp)
      simp only at hd
      have hcl : (checkLen c d).2.inMessage = false := by
        rcases hd with hd | ⟨hd1, hd2⟩
        · unfold checkLen
          rw [if_pos (by simp [hc, hd])]; exact hc
        · unfold checkLen
          split
          · exact hc
          · cases h1 : d[1]? with
            | none => exact hc
            | some hl =>
              rw [h1] at hd1
              simp only [Option.map_some, Option.getD_some] at hd1
              simp only
              split
              · exact hc
              · rw [if_neg (by omega)]
                split
                · exact hc
                · split
                  · exact hc
                  · rw [if_neg ?_]
                    · exact hc
                    · rw [u16of_toNat (by simp; omega)]; omega
      unfold decode
      rcases hce : checkLen c d with ⟨r, c'⟩
      rw [hce] at hcl
      simp only at hcl
      cases r with
      | err e => exact hcl
      | fault f => exact hcl
      | ok o =>
        cases o with
        | none => exact hcl
        | some y =>
          obtain ⟨a, b⟩ := y
          simp only
          split
          · rfl
          · cases fromBytes d with
            | err e => rfl
            | fault f => exact hcl
            | ok p => exact tryReassemble_inMessage _ _ _
    unfold feed
    rcases ha : actorStep c now d with ⟨o | e | f, c'⟩
    · rw [ha] at hm
      obtain ⟨os, c'', hos, hl⟩ := ih (fun y hy => h y (by simp [hy])) c' hm
      simp only [hos]
      exact ⟨_, _, rfl, by simp [hl]⟩
    · nomatch e
    · rw [ha] at hf; simp at hf

/-- **C18 disproved** A 12-octet datagram announcing 13 octets followed by an empty one panics the
collector. -/
theorem c18_disproved :
    ¬ ∀ ds : List (Nat × Bytes), (feed Codec.new ds).1.isFault = false := by
  intro h
  have := h [(0, [0x21, 12, 0, 13, 0, 0, 0, 1, 0, 0, 0, 1]), (1, [])]
  revert this
  decide

/-- **C18** The same datagram handed directly to the public `from_bytes` panics at once; a buffer that holds
at least the announced number of octets never does. -/
theorem c18_from_bytes :
    fromBytes [0x21, 12, 0, 13, 0, 0, 0, 1, 0, 0, 0, 1] = .fault .panic ∧
    ∀ b : Bytes, beVal ((b.drop 2).take 2) ≤ b.length → (fromBytes b).isFault = false := by
  refine ⟨?_, fun b hb => ?_⟩
  · have : (fromBytes [0x21, 12, 0, 13, 0, 0, 0, 1, 0, 0, 0, 1]).isFault = true := by decide
    revert this
    rcases hf : fromBytes [0x21, 12, 0, 13, 0, 0, 0, 1, 0, 0, 0, 1] with _ | _ | f
    · simp
    · simp
    · intro _
      have : (match fromBytes [0x21, 12, 0, 13, 0, 0, 0, 1, 0, 0, 0, 1] with
        | .fault .panic => true | _ => false) = true := by decide
      rw [hf] at this
      cases f
      · rfl
      · simp at this
  · have h := fromBytes_spec b (by
      refine Nat.le_trans ?_ hb
      simp only [u16of, UInt16.toNat_ofNat']
      exact Nat.mod_le _ _)
    rcases hf : fromBytes b with _ | _ | f
    · rfl
    · rfl
    · rw [hf] at h; exact h.elim

/-! The hypotheses of the two partial theorems are met by ordinary traffic, including malformed packets. -/
example : ∀ x ∈ ([(0, [0x21, 12, 0, 13, 0, 0, 0, 1, 0, 0, 0, 1]), (1, [1, 2, 3])] : List (Nat × Bytes)),
    2 ≤ x.2.length := by decide
example : ∀ x ∈ ([(0, []), (0, [0x21, 12, 0, 12, 0, 0, 0, 1, 0, 0, 0, 1])] : List (Nat × Bytes)),
    x.2.length < 12 ∨
      ((x.2[1]?.map UInt8.toNat).getD 0 ≤ x.2.length ∧ beVal ((x.2.drop 2).take 2) ≤ x.2.length) := by
  decide

/-! ## C17: reassembly -/

/-- An arrival is as it claims: a segment of message `key` in one of its encodings, or a datagram that does
not parse as a packet of `key` (and is not one of the degenerate ones of C18). -/
def Arrival.Ok (key : Key) (n : Nat) : Arrival → Prop
  | .seg _ i p order d => IsSegment key n i p ∧ p.WF ∧ HMap.Enum order p.options ∧ p.write order = .ok d
  | .other _ d => 2 ≤ d.length ∧ ∀ p, fromBytes d = .ok p → p.key ≠ key

theorem actorStep_other {c : Codec} {key : Key} (hk : KeyInv c) (now : Nat) (d : Bytes) (h2 : 2 ≤ d.length)
    (h : ∀ p, fromBytes d = .ok p → p.key ≠ key) :
    ∃ o c', actorStep c now d = (.ok o, c') ∧ (∀ q, o = some q → q.key ≠ key) ∧
      c'.incomplete key = c.incomplete key ∧ KeyInv c' := by
  have hf : (decode c now d).1.isFault = false := by
    rw [Bool.eq_false_iff, ne_eq, c18_fault_iff]; omega
  have hk' := decode_keyInv hk now d
  have hoth := decode_other c now d key h
  unfold actorStep
  rcases hd : decode c now d with ⟨o | e | f, c', b⟩
  · rw [hd] at hk' hoth
    refine ⟨o, c', rfl, ?_, hoth, hk'⟩
    rintro q rfl
    rcases decode_cases c now d with ⟨e, -⟩ | ⟨e, -⟩ | ⟨-, ⟨_, _, _, e⟩ | e | ⟨p, hp, -, -, e⟩⟩
    · rw [e] at hd; simp at hd
    · rw [e] at hd; simp at hd
    · rw [e] at hd; simp at hd
    · rw [e] at hd; simp at hd
    · rw [e] at hd
      have := (tryReassemble_keyInv (c := { c with inMessage := false }) hk now p).2 q
        (by simp only [Prod.mk.injEq] at hd; exact hd.1)
      rw [this]; exact h p hp
  · rw [hd] at hk' hoth
    exact ⟨none, c', rfl, by simp, hoth, hk'⟩
  · rw [hd] at hf; simp at hf

theorem segsIn_append (a b : List Arrival) : segsIn (a ++ b) = segsIn a ++ segsIn b := by
  simp [segsIn]

/-- the state of message `key` after arrivals that do not complete it -/
theorem feed_incomplete (key : Key) (n : Nat) (h1 : 1 ≤ n) (hn : n < 2 ^ 15) (c : Codec) (hk : KeyInv c)
    (pre : List (Nat × Packet)) (hpre : ∀ x ∈ pre, x.1 ≤ n)
    (hc : ∀ now, BufInv n pre (c.entry key now))
    (as : List Arrival) (has : ∀ a ∈ as, Arrival.Ok key n a)
    (hmiss : ¬ ∀ i ≤ n, i ∈ (pre ++ segsIn as).map Prod.fst) :
    ∃ os c', feed c (as.map Arrival.datagram) = (.ok os, c') ∧ deliveriesOf key os = [] ∧ KeyInv c' ∧
      ∀ now, BufInv n (pre ++ segsIn as) (c'.entry key now) := by
  induction as generalizing c pre with
  | nil =>
    refine ⟨[], c, rfl, rfl, hk, fun now => ?_⟩
    have := hc now
    simpa [segsIn] using this
  | cons a as ih =>
    have ha := has a (by simp)
    cases a with
    | other now d =>
      obtain ⟨o, c1, e1, ho, hinc, hk1⟩ := actorStep_other hk now d ha.1 ha.2
      have hent : ∀ now, c1.entry key now = c.entry key now := by
        intro now; unfold Codec.entry; rw [hinc]
      obtain ⟨os, c', e2, hdel, hk2, hb⟩ := ih c1 hk1 pre hpre (fun now => by rw [hent]; exact hc now)
        (fun a h => has a (by simp [h])) hmiss
      refine ⟨o :: os, c', ?_, ?_, hk2, hb⟩
      · simp only [List.map_cons, Arrival.datagram, feed, e1, e2]
      · cases o with
        | none => simpa [deliveriesOf] using hdel
        | some q =>
          have := ho q rfl
          simp [deliveriesOf, this]
          simpa [deliveriesOf] using hdel
    | seg now i p order d =>
      obtain ⟨hs, hw, ho, hwr⟩ := ha
      have hsplit : pre ++ segsIn (Arrival.seg now i p order d :: as) = (pre ++ [(i, p)]) ++ segsIn as := by
        simp [segsIn]
      rw [hsplit] at hmiss ⊢
      have hd := decode_write c now p hw order ho d hwr
      have hnot : ¬ ∀ j ≤ n, j ∈ (pre ++ [(i, p)]).map Prod.fst := by
        intro hall; apply hmiss; intro j hj
        rw [List.map_append, List.mem_append]; exact .inl (hall j hj)
      have ht := tryReassemble_seg hs hn h1 { c with inMessage := false } now pre hpre (hc now)
      rw [if_neg hnot] at ht
      obtain ⟨b, htr, hbi, -⟩ := ht
      rw [htr] at hd
      have hact : actorStep c now d = (.ok none,
          { inMessage := false, incomplete := c.incomplete.insert key b }) := by
        unfold actorStep; rw [hd]
      have hk1 : KeyInv { inMessage := false, incomplete := c.incomplete.insert key b : Codec } := by
        have := decode_keyInv hk now d
        rw [hd] at this; exact this
      obtain ⟨os, c', e2, hdel, hk2, hb⟩ := ih
        { inMessage := false, incomplete := c.incomplete.insert key b } hk1 (pre ++ [(i, p)])
        (by intro x hx
            rcases List.mem_append.mp hx with hx | hx
            · exact hpre x hx
            · simp only [List.mem_singleton] at hx; subst hx; exact hs.le)
        (fun now => by unfold Codec.entry; simp only [HMap.insert_self]; exact hbi)
        (fun a h => has a (by simp [h])) hmiss
      refine ⟨none :: os, c', ?_, ?_, hk2, hb⟩
      · simp only [List.map_cons, Arrival.datagram, feed, hact, e2]
      · simpa [deliveriesOf] using hdel

/-- **C17** Segments `0..n` of a message arrive in any order, repeated any number of times, interleaved with
arbitrary other datagrams (packets and segments of other messages, malformed packets), in any reachable
collector state that holds nothing of the message. Until the last missing segment arrives nothing of the
message is delivered; the datagram with the last missing segment delivers one packet of the message, whose
payload is the concatenation, in segment order, of the payloads (the most recent one for a repeated
segment); and the collector forgets the message. -/
theorem c17_reassembly (key : Key) (n : Nat) (h1 : 1 ≤ n) (hn : n < 2 ^ 15)
    (c : Codec) (hr : Reach c) (hc : c.incomplete key = none)
    (as : List Arrival) (has : ∀ a ∈ as, Arrival.Ok key n a)
    (now j : Nat) (pj : Packet) (order : List (OptCode × Opt)) (d : Bytes)
    (hlast : Arrival.Ok key n (.seg now j pj order d))
    (hnew : j ∉ (segsIn as).map Prod.fst)
    (hall : ∀ i ≤ n, i = j ∨ i ∈ (segsIn as).map Prod.fst) :
    ∃ os c' q c'', feed c (as.map Arrival.datagram) = (.ok os, c') ∧ deliveriesOf key os = [] ∧
      actorStep c' now d = (.ok (some q), c'') ∧ q.key = key ∧
      q.payload = ((List.range (n + 1)).map fun i =>
        ((lastOf (segsIn as ++ [(j, pj)]) i).map Packet.payload).getD []).flatten ∧
      (∃ p0, lastOf (segsIn as ++ [(j, pj)]) 0 = some p0 ∧ q.mediaType = p0.mediaType) ∧
      c''.incomplete key = none := by
  obtain ⟨hs, hw, ho, hwr⟩ := hlast
  obtain ⟨os, c', e, hdel, hk', hb⟩ := feed_incomplete key n h1 hn c (reach_keyInv hr) [] (by simp)
    (fun now => by unfold Codec.entry; rw [hc]; exact bufInv_new n now) as has
    (by intro h; exact hnew (by simpa using h j hs.le))
  simp only [List.nil_append] at hb
  have hle : ∀ x ∈ segsIn as, x.1 ≤ n := by
    intro x hx
    simp only [segsIn, List.mem_filterMap] at hx
    obtain ⟨a, ha, hax⟩ := hx
    cases a with
    | other _ _ => simp at hax
    | seg _ i p _ _ =>
      simp only [Option.some.injEq] at hax
      subst hax
      exact (has _ ha).1.le
  have ht := tryReassemble_seg hs hn h1 { c' with inMessage := false } now (segsIn as) hle (hb now)
  have hall' : ∀ i ≤ n, i ∈ (segsIn as ++ [(j, pj)]).map Prod.fst := by
    intro i hi
    rw [List.map_append, List.mem_append]
    rcases hall i hi with rfl | h
    · right; simp
    · exact .inl h
  rw [if_pos hall'] at ht
  obtain ⟨first, rest, e1, e2, e3⟩ := ht
  have hd := decode_write c' now pj hw order ho d hwr
  rw [e3] at hd
  refine ⟨os, c', _, _, e, hdel, actorStep_ok hd, ?_, ?_, ⟨first, e2, rfl⟩, ?_⟩
  · have hm := lastOf_mem e2
    rcases List.mem_append.mp hm with hm | hm
    · simp only [segsIn, List.mem_filterMap] at hm
      obtain ⟨a, ha, hax⟩ := hm
      cases a with
      | other _ _ => simp at hax
      | seg _ i p _ _ =>
        simp only [Option.some.injEq, Prod.mk.injEq] at hax
        obtain ⟨-, rfl⟩ := hax
        exact (has _ ha).1.key
    · simp only [List.mem_singleton, Prod.mk.injEq] at hm
      obtain ⟨-, rfl⟩ := hm
      exact hs.key
  · simp only [segmentsOf]
    generalize segsIn as ++ [(j, pj)] = arr
    induction List.range (n + 1) with
    | nil => rfl
    | cons i l ih =>
      simp only [List.filterMap_cons, List.map_cons, List.flatten_cons]
      cases lastOf arr i with
      | none => simp [ih]
      | some p => simp [ih]
  · simp

/-- **C17** When repeated segments carry the same content, the payload delivered is the concatenation of the
message's segments, whatever the arrival order. -/
theorem c17_consistent (key : Key) (n : Nat) (h1 : 1 ≤ n) (hn : n < 2 ^ 15)
    (c : Codec) (hr : Reach c) (hc : c.incomplete key = none) (content : Nat → Bytes)
    (as : List Arrival) (has : ∀ a ∈ as, Arrival.Ok key n a)
    (now j : Nat) (pj : Packet) (order : List (OptCode × Opt)) (d : Bytes)
    (hlast : Arrival.Ok key n (.seg now j pj order d))
    (hcont : ∀ x ∈ segsIn as ++ [(j, pj)], x.2.payload = content x.1)
    (hnew : j ∉ (segsIn as).map Prod.fst)
    (hall : ∀ i ≤ n, i = j ∨ i ∈ (segsIn as).map Prod.fst) :
    ∃ os c' q c'', feed c (as.map Arrival.datagram) = (.ok os, c') ∧ deliveriesOf key os = [] ∧
      actorStep c' now d = (.ok (some q), c'') ∧ q.key = key ∧
      q.payload = ((List.range (n + 1)).map content).flatten ∧ c''.incomplete key = none := by
  obtain ⟨os, c', q, c'', a1, a2, a3, a4, a5, -, a7⟩ :=
    c17_reassembly key n h1 hn c hr hc as has now j pj order d hlast hnew hall
  refine ⟨os, c', q, c'', a1, a2, a3, a4, ?_, a7⟩
  rw [a5]
  congr 1
  apply List.map_congr_left
  intro i hi
  have hi' : i ≤ n := by simp at hi; omega
  have : (lastOf (segsIn as ++ [(j, pj)]) i).isSome := by
    rw [lastOf_isSome, List.map_append, List.mem_append]
    rcases hall i hi' with rfl | h
    · right; simp
    · exact .inl h
  obtain ⟨p, hp⟩ := Option.isSome_iff_exists.mp this
  rw [hp]
  simp only [Option.map_some, Option.getD_some]
  exact hcont _ (lastOf_mem hp)

/-- **C17** A packet without segmentation option, or flagged as its own last segment 0, is delivered as is,
and no message in progress is disturbed. -/
theorem c17_unsegmented (c : Codec) (now : Nat) (p : Packet) (hw : p.WF) (order : List (OptCode × Opt))
    (ho : HMap.Enum order p.options) (d : Bytes) (h : p.write order = .ok d)
    (hs : p.options .segment = none ∨ p.options .segment = some (.segment 0 true)) :
    (actorStep c now d).1 = .ok (some p) ∧ (actorStep c now d).2.incomplete = c.incomplete := by
  have hd := decode_write c now p hw order ho d h
  have ht : tryReassemble { c with inMessage := false } now p = (.ok (some p), { c with inMessage := false }) := by
    unfold tryReassemble extractSegmentInfo
    rcases hs with hs | hs <;> rw [hs] <;> simp
  unfold actorStep
  rw [hd, ht]
  exact ⟨rfl, rfl⟩

/-- **C17** Clearing timed-out messages drops exactly the messages whose first segment arrived more than
`timeout` ago. -/
theorem c17_cleanup (c : Codec) (now timeout : Nat) (key : Key) (b : RBuf) :
    (c.cleanup now timeout).incomplete key = some b ↔
      c.incomplete key = some b ∧ now ≤ b.timestamp + timeout := by
  simp only [Codec.cleanup]
  cases hk : c.incomplete key with
  | none => simp
  | some b' =>
    simp only [RBuf.isTimedOut, decide_eq_true_eq, Option.some.injEq]
    by_cases h : now - b'.timestamp > timeout
    · rw [if_pos h]
      simp only [reduceCtorEq, false_iff, not_and]
      rintro rfl; omega
    · rw [if_neg h]
      simp only [Option.some.injEq]
      constructor
      · rintro rfl; exact ⟨rfl, by omega⟩
      · exact fun h => h.1

/-! Concrete instance: message (1, 7) in three segments arriving 2, 0, 2 (again), 1, with a datagram of another
message and a malformed one in between. -/
section example_c17
def exSeg (i : Nat) (last : Bool) (pl : Bytes) : Packet :=
  ⟨.yangDataJson, 1, 7, HMap.ofList [(.segment, .segment (UInt16.ofNat i) last)], pl⟩
def exBytes (i : UInt8) (pl : Bytes) : Bytes :=
  [0x21, 16, 0, UInt8.ofNat (16 + pl.length), 0, 0, 0, 1, 0, 0, 0, 7, 1, 4, 0, i] ++ pl
def exArr (now i : Nat) (last : Bool) (pl : Bytes) : Arrival :=
  .seg now i (exSeg i last pl) [(.segment, .segment (UInt16.ofNat i) last)]
    (exBytes (UInt8.ofNat (2 * i + last.toNat)) pl)

theorem exSeg_wf (i : Nat) (last : Bool) (pl : Bytes) (hi : i < 2 ^ 15) : (exSeg i last pl).WF := by
  have he : HMap.Enum [(.segment, .segment (UInt16.ofNat i) last)] (exSeg i last pl).options :=
    HMap.ofList_isEnum _ (by simp)
  refine ⟨⟨fun _ e => by simp [exSeg] at e, fun v e => by simp [exSeg] at e⟩, ?_, ?_⟩
  · intro k o h
    have := (he.mem k o).mpr h
    simp at this
    rw [this.1, this.2]; rfl
  · intro k o h
    have := (he.mem k o).mpr h
    simp at this
    rw [this.2]
    refine ⟨fun n l e => ?_, fun t v e => by simp at e⟩
    simp at e
    rw [← e.1]; simp [UInt16.toNat_ofNat']; omega

theorem exArr_ok (now i : Nat) (pl : Bytes) (hi : i ≤ 2) (hp : pl.length ≤ 100) :
    Arrival.Ok (1, 7) 2 (exArr now i (decide (i = 2)) pl) := by
  refine ⟨⟨rfl, hi, ?_⟩, exSeg_wf _ _ _ (by omega), HMap.ofList_isEnum _ (by simp), ?_⟩
  · simp [exSeg, HMap.ofList, HMap.insert]
  · have hw : (exSeg i (decide (i = 2)) pl).write [(.segment, .segment (UInt16.ofNat i) (decide (i = 2)))]
        = .ok ([0x21, 16] ++ u16be (UInt16.ofNat (16 + pl.length)) ++ u32be 1 ++ u32be 7 ++
            ((Opt.segment (UInt16.ofNat i) (decide (i = 2))).write ++ []) ++ pl) := by
      unfold Packet.write
      have : optsLen [(OptCode.segment, Opt.segment (UInt16.ofNat i) (decide (i = 2)))] = 4 := rfl
      have hpl : (exSeg i (decide (i = 2)) pl).payload = pl := rfl
      rw [this, hpl, if_neg (by omega)]
      dsimp only
      rw [if_neg (by omega)]
      have : 12 + 4 + pl.length = 16 + pl.length := by omega
      rw [this]
      have : firstByte (exSeg i (decide (i = 2)) pl).mediaType = 0x21 := by simp only [exSeg]; decide
      rw [this]
      rfl
    rw [hw]
    congr 1
    have h2 : u16be (UInt16.ofNat (16 + pl.length)) = [0, UInt8.ofNat (16 + pl.length)] := by
      rw [u16be_eq]
      have : (UInt16.ofNat (16 + pl.length)).toNat = 16 + pl.length := by
        simp [UInt16.toNat_ofNat']; omega
      rw [this]
      have : (16 + pl.length) / 256 = 0 := by omega
      rw [this]; rfl
    rw [h2]
    have : (Opt.segment (UInt16.ofNat i) (decide (i = 2))).write
        = [1, 4, 0, UInt8.ofNat (2 * i + (decide (i = 2)).toNat)] := by
      have : i = 0 ∨ i = 1 ∨ i = 2 := by omega
      rcases this with rfl | rfl | rfl <;> decide
    rw [this]
    rfl

def exArrivals : List Arrival :=
  [exArr 0 2 true [30], exArr 1 0 false [10, 11], .other 2 [0x21, 12, 0, 12, 0, 0, 0, 2, 0, 0, 0, 7],
   .other 3 [0, 0, 0], exArr 4 2 true [31]]

example : ∀ a ∈ exArrivals, Arrival.Ok (1, 7) 2 a := by
  intro a ha
  simp only [exArrivals, List.mem_cons, List.not_mem_nil, or_false] at ha
  rcases ha with rfl | rfl | rfl | rfl | rfl
  · exact exArr_ok 0 2 [30] (by decide) (by decide)
  · exact exArr_ok 1 0 [10, 11] (by decide) (by decide)
  · refine ⟨by decide, fun p hp => ?_⟩
    have : (fromBytes [0x21, 12, 0, 12, 0, 0, 0, 2, 0, 0, 0, 7]).map Packet.key = .ok (2, 7) := by decide
    rw [hp] at this
    simp only [Res.map_ok, Res.ok.injEq] at this
    rw [this]; decide
  · refine ⟨by decide, fun p hp => ?_⟩
    have : (fromBytes [0, 0, 0]).map Packet.key = .err (.parse (.eof 0 12 3)) := by decide
    rw [hp] at this; simp at this
  · exact exArr_ok 4 2 [31] (by decide) (by decide)
example : Arrival.Ok (1, 7) 2 (exArr 9 1 false [20]) := exArr_ok 9 1 [20] (by decide) (by decide)
example : 1 ∉ (segsIn exArrivals).map Prod.fst ∧
    ∀ i ≤ 2, i = 1 ∨ i ∈ (segsIn exArrivals).map Prod.fst := by decide
end example_c17

/-! ## C19: options -/

theorem mergeOpts_apply (l : List Packet) (k : OptCode) (hk : k ≠ .segment) :
    mergeOpts l k = l.reverse.findSome? (fun p => p.options k) := by
  have key : ∀ (l : List Packet) (m : HMap OptCode Opt), (l.foldl mergeStep m) k =
      (l.reverse.findSome? (fun p => p.options k)).or (m k) := by
    intro l
    induction l with
    | nil => intro m; rfl
    | cons p l ih =>
      intro m
      simp only [List.foldl_cons, List.reverse_cons, List.findSome?_append]
      rw [ih, Option.or_assoc]
      congr 1
      simp only [mergeStep, hk, ↓reduceIte, List.findSome?_cons, List.findSome?_nil]
      cases p.options k <;> rfl
  unfold mergeOpts
  rw [key]; simp

theorem mergeOpts_segment (l : List Packet) : mergeOpts l .segment = none := by
  unfold mergeOpts
  suffices ∀ m : HMap OptCode Opt, m .segment = none → (l.foldl mergeStep m) .segment = none from this _ rfl
  induction l with
  | nil => intro m h; exact h
  | cons p l ih => intro m h; simp only [List.foldl_cons]; exact ih _ (by simpa [mergeStep] using h)

/-- **C19 (partial)** Missing: the options of segment 0, for which it is false (`c19_disproved`). In the
situation of C17, for every option code other than segmentation, if some segment `i ≥ 1` carries it then the
delivered packet carries it, with the value of the highest-numbered such segment; the delivered packet has no
segmentation option and nothing else. -/
theorem c19_options_partial (key : Key) (n : Nat) (h1 : 1 ≤ n) (hn : n < 2 ^ 15)
    (c : Codec) (hr : Reach c) (hc : c.incomplete key = none)
    (as : List Arrival) (has : ∀ a ∈ as, Arrival.Ok key n a)
    (now j : Nat) (pj : Packet) (order : List (OptCode × Opt)) (d : Bytes)
    (hlast : Arrival.Ok key n (.seg now j pj order d))
    (hnew : j ∉ (segsIn as).map Prod.fst)
    (hall : ∀ i ≤ n, i = j ∨ i ∈ (segsIn as).map Prod.fst) :
    ∃ os c' q c'', feed c (as.map Arrival.datagram) = (.ok os, c') ∧
      actorStep c' now d = (.ok (some q), c'') ∧
      q.options .segment = none ∧
      ∀ k, k ≠ .segment → ∀ o, q.options k = some o ↔
        ∃ i p, 1 ≤ i ∧ i ≤ n ∧ lastOf (segsIn as ++ [(j, pj)]) i = some p ∧ p.options k = some o ∧
          ∀ i' p', i < i' → i' ≤ n → lastOf (segsIn as ++ [(j, pj)]) i' = some p' → p'.options k = none := by
  obtain ⟨hs, hw, ho, hwr⟩ := hlast
  obtain ⟨os, c', e, hdel, hk', hb⟩ := feed_incomplete key n h1 hn c (reach_keyInv hr) [] (by simp)
    (fun now => by unfold Codec.entry; rw [hc]; exact bufInv_new n now) as has
    (by intro h; exact hnew (by simpa using h j hs.le))
  simp only [List.nil_append] at hb
  have hle : ∀ x ∈ segsIn as, x.1 ≤ n := by
    intro x hx
    simp only [segsIn, List.mem_filterMap] at hx
    obtain ⟨a, ha, hax⟩ := hx
    cases a with
    | other _ _ => simp at hax
    | seg _ i p _ _ =>
      simp only [Option.some.injEq] at hax
      subst hax
      exact (has _ ha).1.le
  have ht := tryReassemble_seg hs hn h1 { c' with inMessage := false } now (segsIn as) hle (hb now)
  have hall' : ∀ i ≤ n, i ∈ (segsIn as ++ [(j, pj)]).map Prod.fst := by
    intro i hi
    rw [List.map_append, List.mem_append]
    rcases hall i hi with rfl | h
    · right; simp
    · exact .inl h
  rw [if_pos hall'] at ht
  obtain ⟨first, rest, e1, e2, e3⟩ := ht
  have hd := decode_write c' now pj hw order ho d hwr
  rw [e3] at hd
  refine ⟨os, c', _, _, e, actorStep_ok hd, mergeOpts_segment rest, ?_⟩
  intro k hk o
  show mergeOpts rest k = some o ↔ _
  rw [mergeOpts_apply rest k hk]
  generalize segsIn as ++ [(j, pj)] = arr at *
  have hrest : rest = (List.range' 1 n).filterMap (lastOf arr) := by
    have : segmentsOf n arr = first :: (List.range' 1 n).filterMap (lastOf arr) := by
      unfold segmentsOf
      rw [List.range_eq_range', List.range'_succ, List.filterMap_cons, e2]
    rw [this] at e1
    exact (List.cons.inj e1).2.symm
  rw [hrest]
  have hsome : ∀ i ≤ n, ∃ p, lastOf arr i = some p := fun i hi => by
    have := (lastOf_isSome arr i).mpr (hall' i hi)
    exact Option.isSome_iff_exists.mp this
  clear hd e3 e1 hrest e hb hnew hall has hdel hall' hs h1 hn hle e2
  induction n with
  | zero => simp; intro i p hi hi0; omega
  | succ m ih =>
    rw [List.range'_concat]
    simp only [List.filterMap_append, List.reverse_append, List.findSome?_append, Nat.one_mul]
    obtain ⟨pm, hpm⟩ := hsome (1 + m) (by omega)
    simp only [List.filterMap_cons, hpm, List.filterMap_nil, List.reverse_cons, List.reverse_nil,
      List.nil_append, List.findSome?_cons, List.findSome?_nil]
    cases hpk : pm.options k with
    | some om =>
      simp only [Option.some_or, Option.some.injEq]
      constructor
      · rintro rfl
        exact ⟨1 + m, pm, by omega, by omega, hpm, hpk, fun i' p' h1 h2 => by omega⟩
      · rintro ⟨i, p, hi1, hi2, hl, hpo, hmax⟩
        by_cases hi : i = 1 + m
        · subst hi
          rw [hpm] at hl
          obtain rfl := Option.some.inj hl
          rw [hpk] at hpo
          exact Option.some.inj hpo
        · have := hmax (1 + m) pm (by omega) (by omega) hpm
          rw [hpk] at this; simp at this
    | none =>
      simp only [Option.none_or]
      refine (ih (fun i hi => hsome i (by omega))).trans ?_
      constructor
      · rintro ⟨i, p, hi1, hi2, hl, hpo, hmax⟩
        refine ⟨i, p, hi1, by omega, hl, hpo, fun i' p' h1 h2 h3 => ?_⟩
        by_cases hi : i' = 1 + m
        · subst hi
          rw [hpm] at h3
          obtain rfl := Option.some.inj h3
          exact hpk
        · exact hmax i' p' h1 (by omega) h3
      · rintro ⟨i, p, hi1, hi2, hl, hpo, hmax⟩
        by_cases hi : i = 1 + m
        · subst hi
          rw [hpm] at hl
          obtain rfl := Option.some.inj hl
          rw [hpk] at hpo; simp at hpo
        · exact ⟨i, p, hi1, by omega, hl, hpo, fun i' p' h1 h2 h3 => hmax i' p' h1 (by omega) h3⟩

/-- **C19 disproved** Two segments, the first with an option of code 9: the packet delivered has lost it. -/
theorem c19_disproved : ∃ (d0 d1 : Bytes) (p0 : Packet),
    fromBytes d0 = .ok p0 ∧ p0.options (.unknown 9) = some (.unknown 9 [5]) ∧
    ∃ c c' q, actorStep Codec.new 0 d0 = (.ok none, c) ∧ actorStep c 1 d1 = (.ok (some q), c') ∧
      q.key = p0.key ∧ q.options (.unknown 9) = none := by
  have h0 : (fromBytes [0x21, 19, 0, 20, 0, 0, 0, 1, 0, 0, 0, 7, 1, 4, 0, 0, 9, 3, 5, 10]).map
      (fun p => (p.key, p.options (.unknown 9))) = .ok ((1, 7), some (.unknown 9 [5])) := by decide
  have h1 : (actorStep Codec.new 0
      [0x21, 19, 0, 20, 0, 0, 0, 1, 0, 0, 0, 7, 1, 4, 0, 0, 9, 3, 5, 10]).1.map Option.isNone = .ok true := by
    decide
  have h2 : (actorStep (actorStep Codec.new 0
      [0x21, 19, 0, 20, 0, 0, 0, 1, 0, 0, 0, 7, 1, 4, 0, 0, 9, 3, 5, 10]).2 1
      [0x21, 16, 0, 17, 0, 0, 0, 1, 0, 0, 0, 7, 1, 4, 0, 3, 20]).1.map
        (Option.map fun p => (p.key, p.options (.unknown 9))) = .ok (some ((1, 7), none)) := by
    decide
  refine ⟨[0x21, 19, 0, 20, 0, 0, 0, 1, 0, 0, 0, 7, 1, 4, 0, 0, 9, 3, 5, 10],
    [0x21, 16, 0, 17, 0, 0, 0, 1, 0, 0, 0, 7, 1, 4, 0, 3, 20], ?_⟩
  generalize ([0x21, 19, 0, 20, 0, 0, 0, 1, 0, 0, 0, 7, 1, 4, 0, 0, 9, 3, 5, 10] : Bytes) = d0 at *
  generalize ([0x21, 16, 0, 17, 0, 0, 0, 1, 0, 0, 0, 7, 1, 4, 0, 3, 20] : Bytes) = d1 at *
  rcases hf : fromBytes d0 with p0 | e | f <;> rw [hf] at h0 <;> simp at h0
  rcases ha : actorStep Codec.new 0 d0 with ⟨o | e | f, c⟩ <;> rw [ha] at h1 h2 <;> simp at h1
  cases o with
  | some x => simp at h1
  | none =>
    simp only at h2
    rcases hb : actorStep c 1 d1 with ⟨o2 | e | f, c'⟩ <;> rw [hb] at h2 <;> simp at h2
    obtain ⟨q, rfl, hq⟩ := h2
    exact ⟨p0, rfl, h0.2, c, c', q, rfl, hb, by rw [hq.1, h0.1], hq.2⟩

end Verif.Props
