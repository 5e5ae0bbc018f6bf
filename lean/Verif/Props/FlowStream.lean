import Verif.Props.FlowRoundTrip
/-!
# C80, C81, C82, C84: flow packets one after the other
-/
namespace Verif.Props
open Verif Flow Flow24

/-! ## C80 -/

/-- the number of records in a set as RFC 3954 counts them -/
def recordCount : FlowSet ScopeSpec ScopeField → Nat
  | .template l => l.length
  | .options l => l.length
  | .data _ l => l.length

/-- the records of data in a set -/
def dataCount : FlowSet ScopeSpec ScopeField → Nat
  | .data _ l => l.length
  | _ => 0

/-- C80: an accepted NetFlow packet has no more records of data and sets of templates than its header announces, and what is left of the octets
is shorter than a set unless it has as many -/
theorem c80_partial {reg : Registry} {c c' : FlowCodec} {count : UInt16} {body b' : Bytes} {p : NetflowPacket}
    (h : FlowCodec.decode reg c (u16be 9 ++ (u16be count ++ body)) = (.out (.ok (.netflow p)), c', b')) :
    (p.sets.map dataCount).sum + p.sets.countP (fun s => match s with | .data .. => false | _ => true) ≤ count.toNat ∧
    ((p.sets.map dataCount).sum + p.sets.countP (fun s => match s with | .data .. => false | _ => true) = count.toNat ∨ b'.length < 4) := by
  obtain ⟨v, len, rest, h1, h12, hl⟩ := decode_buffer h
  obtain ⟨h2, h3⟩ := List.append_inj h1 (by simp)
  obtain ⟨h4, rfl⟩ := List.append_inj h3 (by simp)
  have hlen : len = count := UInt16.toNat.inj (by
    have := congrArg beVal h4
    rw [u16be, u16be, beVal_beBytes_of_lt (by have := count.toNat_lt; omega), beVal_beBytes_of_lt (by have := len.toNat_lt; omega)] at this
    exact this.symm)
  subst hlen
  rw [decode_netflow reg c h12 hl] at h
  simp only [Prod.mk.injEq, Dec.out.injEq] at h
  obtain ⟨h5, -, h6⟩ := h
  rcases hp : NetflowPacket.parse reg (.new (u16be 9 ++ (u16be len ++ body)), c.netflow) with ⟨q | e | x, s⟩
  · rw [hp] at h5 h6
    simp only [Res.map, Res.mapErr, Res.ok.injEq, FlowInfo.netflow.injEq] at h5
    subst h5
    simp only [Res.isOk, if_true] at h6
    subst h6
    unfold NetflowPacket.parse at hp
    obtain ⟨_, s1, h1, hp⟩ := CParser.bind_eq_ok hp
    obtain ⟨co, s2, h2, hp⟩ := CParser.bind_eq_ok hp
    obtain ⟨cnt, s3, h3, hp⟩ := CParser.bind_eq_ok hp
    obtain ⟨up, s4, h4, hp⟩ := CParser.bind_eq_ok hp
    obtain ⟨t, s5, h5, hp⟩ := CParser.bind_eq_ok hp
    obtain ⟨sq, s6, h6, hp⟩ := CParser.bind_eq_ok hp
    obtain ⟨sr, s7, h7, hp⟩ := CParser.bind_eq_ok hp
    obtain ⟨sets, s8, h8, hp⟩ := CParser.bind_eq_ok hp
    simp only [CParser.pure_run, Prod.mk.injEq, Res.ok.injEq] at hp
    obtain ⟨rfl, rfl⟩ := hp
    have hcnt : cnt = len := by
      obtain ⟨a1, -⟩ := CParser.lift_eq_ok h1
      obtain ⟨a2, -⟩ := CParser.lift_eq_ok h2
      obtain ⟨a3, -⟩ := CParser.lift_eq_ok h3
      obtain ⟨e3, -⟩ := Verif.readU16_eq_ok.mp (Parser.mapErr_eq_ok.mp a3)
      obtain ⟨-, e2⟩ := Parser.getOffset_eq_ok.mp a2
      obtain ⟨e1, -⟩ := parseVersion_ok a1
      rw [e2, e3] at e1
      obtain ⟨-, k1⟩ := List.append_inj (show u16be 9 ++ (u16be len ++ body) = _ from e1) (by simp)
      obtain ⟨k2, -⟩ := List.append_inj k1 (by simp)
      have := congrArg beVal k2
      rw [u16be, u16be, beVal_beBytes_of_lt (by have := len.toNat_lt; omega), beVal_beBytes_of_lt (by have := cnt.toNat_lt; omega)] at this
      exact UInt16.toNat.inj this.symm
    subst hcnt
    have key := CParser.loop_ok_induction (c := fun i n => decide (0 < i) && decide (3 < n)) (fun i => by simp)
      (Q := fun i _ l s' => (l.map dataCount).sum + l.countP (fun s => match s with | .data .. => false | _ => true) ≤ i ∧
        ((l.map dataCount).sum + l.countP (fun s => match s with | .data .. => false | _ => true) = i ∨ s'.1.buf.length < 4))
      (fun i s hs => by
        refine ⟨by simp, ?_⟩
        simp only [Bool.and_eq_false_iff, decide_eq_false_iff_not] at hs
        simp only [List.map_nil, List.sum_nil, List.countP_nil]
        omega) (fun i s a i' s1 as s2 _ hp _ _ ih => by
        unfold netflowStep at hp
        obtain ⟨x, s3, hx, hp⟩ := CParser.bind_eq_ok hp
        by_cases hi : i < x.takes
        · rw [if_pos hi] at hp; simp [CParser.fail] at hp
        · rw [if_neg hi] at hp
          simp only [CParser.pure_run, Prod.mk.injEq, Res.ok.injEq] at hp
          obtain ⟨⟨rfl, rfl⟩, rfl⟩ := hp
          cases x <;> simp [FlowSet.takes, dataCount, List.countP_cons] at hi ih ⊢ <;> omega) h8
    exact key
  · rw [hp] at h5; simp [Res.map, Res.mapErr] at h5
  · rw [hp] at h5; simp [Res.map, Res.mapErr] at h5

/-- C80 is false: one template is accepted as five records, and two templates as one -/
theorem c80_disproved :
    (∃ p, (FlowCodec.decode reg .new (u16be 9 ++ (u16be 5 ++ (List.replicate 16 0 ++ set 0 tplA)))).1 = .out (.ok (.netflow p)) ∧
      (p.sets.map recordCount).sum = 1) ∧
    (∃ p, (FlowCodec.decode reg .new (u16be 9 ++ (u16be 1 ++ (List.replicate 16 0 ++ set 0 (tplA ++ tplB))))).1 = .out (.ok (.netflow p)) ∧
      (p.sets.map recordCount).sum = 2) :=
  ⟨⟨⟨0, ⟨0, 0⟩, 0, 0, [.template [⟨256, [⟨.known 0 4 .unsigned8, 1⟩, ⟨.known 0 8 .ipv4, 4⟩]⟩]]⟩, by decide +kernel, by decide⟩,
    ⟨⟨0, ⟨0, 0⟩, 0, 0, [.template [⟨256, [⟨.known 0 4 .unsigned8, 1⟩, ⟨.known 0 8 .ipv4, 4⟩]⟩,
      ⟨256, [⟨.known 0 8 .ipv4, 4⟩, ⟨.known 0 4 .unsigned8, 1⟩]⟩]]⟩, by decide +kernel, by decide⟩⟩

/-- a template and two records of data -/
example : ∃ p, (FlowCodec.decode reg .new (u16be 9 ++ (u16be 3 ++ (List.replicate 16 0 ++ (set 0 tplA ++ set 256 [6, 1, 2, 3, 4, 6, 1, 2, 3, 5]))))).1 =
    .out (.ok (.netflow p)) ∧ p.sets.map dataCount = [0, 2] :=
  ⟨⟨0, ⟨0, 0⟩, 0, 0, [.template [⟨256, [⟨.known 0 4 .unsigned8, 1⟩, ⟨.known 0 8 .ipv4, 4⟩]⟩],
    .data 256 [⟨[], [.known 0 4 (.unsigned8 6), .known 0 8 (.ipv4 0x01020304)]⟩, ⟨[], [.known 0 4 (.unsigned8 6), .known 0 8 (.ipv4 0x01020305)]⟩]]⟩,
    by decide +kernel, by decide⟩

/-! ## C81 -/

/-- an IPFIX message as its header frames it: version 10 and the length of all of it; the rest is arbitrary -/
def IpfixFramed (m : Bytes) : Prop := ∃ body, 12 ≤ body.length ∧ m.length < 65536 ∧ m = u16be 10 ++ (u16be (UInt16.ofNat (4 + body.length)) ++ body)

/-- what comes out of messages, each of them on its own, one after the other; and the codec then -/
def oneByOne (reg : Registry) : FlowCodec → List Bytes → List (Res FlowErr FlowInfo) × FlowCodec
  | c, [] => ([], c)
  | c, m :: ms =>
    match FlowCodec.decode reg c m with
    | (.out x, c', _) => (x :: (oneByOne reg c' ms).1, (oneByOne reg c' ms).2)
    | (.wait, c', _) => oneByOne reg c' ms

theorem framed_decode {reg : Registry} {c : FlowCodec} {m : Bytes} (h : IpfixFramed m) :
    ∃ x c', (∀ rest, FlowCodec.decode reg c (m ++ rest) = (.out x, c', rest)) ∧ x.isFault = false := by
  obtain ⟨body, h1, h2, rfl⟩ := h
  have hn : (UInt16.ofNat (4 + body.length)).toNat = 4 + body.length := UInt16.toNat_ofNat_of_lt' (by
    simp only [List.length_append, length_u16be] at h2; show _ < 65536; omega)
  have key := fun rest => decode_ipfix reg c (len := UInt16.ofNat (4 + body.length)) (body := body) rest (by omega) (by omega)
  exact ⟨_, _, fun rest => by simp only [List.append_assoc]; exact key rest, c28_noFault reg c _ _ _ _ (key [])⟩

theorem framed_wait {reg : Registry} {c : FlowCodec} {m b : Bytes} (h : IpfixFramed m) (hp : b <+: m) (hl : b.length < m.length) :
    FlowCodec.decode reg c b = (.wait, c, b) := by
  obtain ⟨body, h1, h2, rfl⟩ := h
  have hn : (UInt16.ofNat (4 + body.length)).toNat = 4 + body.length := UInt16.toNat_ofNat_of_lt' (by
    simp only [List.length_append, length_u16be] at h2; show _ < 65536; omega)
  unfold FlowCodec.decode
  by_cases h16 : b.length < 16
  · rw [if_pos h16]
  · rw [if_neg h16]
    have e : (u16of ((b.drop 2).take 2)).toNat = 4 + body.length := by
      have hb : (b.drop 2).take 2 = u16be (UInt16.ofNat (4 + body.length)) := by
        obtain ⟨t, ht⟩ := hp
        have := congrArg (fun x : Bytes => (x.drop 2).take 2) ht
        simp only [List.drop_append, List.take_append, List.length_drop] at this
        rw [show 2 - b.length = 0 by omega, show 2 - (b.length - 2) = 0 by omega, List.take_zero, List.append_nil] at this
        rw [this]
        have e1 : (u16be 10).drop 2 = [] := List.drop_of_length_le (by simp)
        rw [e1, length_u16be, length_u16be]
        simp only [List.take_nil, List.nil_append, Nat.sub_self, Nat.sub_zero, List.drop_zero, List.take_zero, List.append_nil]
        exact List.take_of_length_le (by simp)
      rw [hb, u16of_u16be, hn]
    simp only
    rw [e, if_pos (by simp only [List.length_append, length_u16be] at hl; omega)]

theorem drain_framed {reg : Registry} {c : FlowCodec} {ms : List Bytes} {b t : Bytes} (hm : ∀ m ∈ ms, IpfixFramed m) (h : b ++ t = ms.flatten) :
    ∃ ks ms' b', ms = ks ++ ms' ∧ Drains (FlowCodec.decode reg) c b (oneByOne reg c ks).1 (oneByOne reg c ks).2 b' ∧
      b' ++ t = ms'.flatten ∧ (t = [] → ms' = []) := by
  induction ms generalizing c b with
  | nil =>
    obtain ⟨rfl, rfl⟩ := List.append_eq_nil_iff.mp h
    exact ⟨[], [], [], rfl, .wait rfl, rfl, fun _ => rfl⟩
  | cons m ms ih =>
    have hf := hm m (by simp)
    rw [List.flatten_cons] at h
    by_cases hl : b.length < m.length
    · have hp : b <+: m := List.prefix_of_prefix_length_le ⟨t, h⟩ ⟨_, rfl⟩ (by omega)
      refine ⟨[], m :: ms, b, rfl, .wait (framed_wait hf hp hl), h, fun ht => ?_⟩
      subst ht
      have := congrArg List.length h
      simp only [List.length_append, List.length_nil] at this
      omega
    · obtain ⟨b1, rfl⟩ : m <+: b := List.prefix_of_prefix_length_le ⟨_, rfl⟩ ⟨t, h⟩ (by omega)
      rw [List.append_assoc] at h
      have h := List.append_cancel_left h
      obtain ⟨x, c', h1, h2⟩ := framed_decode (reg := reg) (c := c) hf
      obtain ⟨ks, ms', b', rfl, h3, h4, h5⟩ := ih (c := c') (fun m hm' => hm m (by simp [hm'])) h
      refine ⟨m :: ks, ms', b', rfl, ?_, h4, h5⟩
      have he := h1 []
      rw [List.append_nil] at he
      unfold oneByOne
      rw [he]
      exact .item (h1 b1) h2 h3

/-- C81: a stream of IPFIX messages, whatever they contain, gives one result for each of them, that of the message on its own, however the stream is cut into
chunks -/
theorem c81_ipfix_partial {reg : Registry} {c : FlowCodec} {ms chunks : List Bytes} (hm : ∀ m ∈ ms, IpfixFramed m)
    (h : chunks.flatten = ms.flatten) :
    Feeds (FlowCodec.decode reg) c [] chunks (oneByOne reg c ms).1 (oneByOne reg c ms).2 [] ∧ (oneByOne reg c ms).1.length = ms.length := by
  refine ⟨?_, ?_⟩
  · suffices ∀ (chunks ms : List Bytes) (c : FlowCodec) (b : Bytes), (∀ m ∈ ms, IpfixFramed m) → b ++ chunks.flatten = ms.flatten →
        (b = [] ∨ chunks ≠ [] ∨ ms = []) → (chunks = [] → ms = []) →
        Feeds (FlowCodec.decode reg) c b chunks (oneByOne reg c ms).1 (oneByOne reg c ms).2 [] by
      refine this chunks ms c [] hm h (.inl rfl) fun hc => ?_
      subst hc
      cases ms with
      | nil => rfl
      | cons m ms =>
        obtain ⟨body, h1, -, h2⟩ := hm m (by simp)
        have := congrArg List.length h
        rw [List.flatten_cons, h2] at this
        simp only [List.flatten_nil, List.length_nil, List.length_append, length_u16be] at this
        omega
    intro chunks
    induction chunks with
    | nil =>
      intro ms c b hm h _ hc
      obtain rfl := hc rfl
      simp only [List.flatten_nil, List.append_nil] at h
      subst h
      exact .nil
    | cons d ds ih =>
      intro ms c b hm h _ _
      rw [List.flatten_cons, ← List.append_assoc] at h
      obtain ⟨ks, ms', b', rfl, h1, h2, h3⟩ := drain_framed (reg := reg) (c := c) hm h
      have hrun : ∀ (ks : List Bytes) (c : FlowCodec), (oneByOne reg c (ks ++ ms')).1 =
          (oneByOne reg c ks).1 ++ (oneByOne reg (oneByOne reg c ks).2 ms').1 ∧
          (oneByOne reg c (ks ++ ms')).2 = (oneByOne reg (oneByOne reg c ks).2 ms').2 := by
        intro ks
        induction ks with
        | nil => exact fun c => ⟨rfl, rfl⟩
        | cons k ks ih =>
          intro c
          simp only [List.cons_append, oneByOne]
          rcases FlowCodec.decode reg c k with ⟨_ | x, c', _⟩
          · exact ih c'
          · obtain ⟨h1, h2⟩ := ih c'
            exact ⟨by simp only [h1]; rfl, h2⟩
      rw [(hrun ks c).1, (hrun ks c).2]
      refine .cons h1 (ih ms' _ b' (fun m hm' => hm m (by simp [hm'])) h2 ?_ fun hd => h3 (by rw [hd]; rfl))
      by_cases hd : ds = []
      · exact .inr (.inr (h3 (by rw [hd]; rfl)))
      · exact .inr (.inl hd)
  · clear h
    induction ms generalizing c with
    | nil => rfl
    | cons m ms ih =>
      obtain ⟨x, c', h1, -⟩ := framed_decode (reg := reg) (c := c) (hm m (by simp))
      have he := h1 []
      rw [List.append_nil] at he
      unfold oneByOne
      rw [he]
      simp only [List.length_cons]
      rw [ih fun m hm' => hm m (by simp [hm'])]

/-- C81 is false of other streams: octets of an unknown version take all the octets with them that have arrived by then, a complete IPFIX
message in the one case and nothing in the other -/
theorem c81_disproved : ∃ (m1 m2 : Bytes) (os1 os2 : List (Res FlowErr FlowInfo)) (c1 c2 : FlowCodec),
    Feeds (FlowCodec.decode reg) .new [] [m1 ++ m2] os1 c1 [] ∧ Feeds (FlowCodec.decode reg) .new [] [m1, m2] os2 c2 [] ∧
    os1.length = 1 ∧ os2.length = 2 := by
  refine ⟨List.replicate 16 0, message [], [.err (.unsupportedVersion 0)],
    [.err (.unsupportedVersion 0), .ok (.ipfix ⟨⟨1, 0⟩, 2, 3, []⟩)], .new, .new, ?_, ?_, rfl, rfl⟩
  · refine .cons (os := [_]) (.item (x := .err (FlowErr.unsupportedVersion 0)) (s1 := FlowCodec.new) (b1 := []) ?_ rfl (.wait rfl)) .nil
    rfl
  · refine .cons (os := [_]) (.item (x := .err (FlowErr.unsupportedVersion 0)) (s1 := FlowCodec.new) (b1 := []) ?_ rfl (.wait rfl))
      (.cons (os := [_]) (.item (x := .ok (FlowInfo.ipfix ⟨⟨1, 0⟩, 2, 3, []⟩)) (s1 := FlowCodec.new) (b1 := []) ?_ rfl (.wait rfl)) .nil)
    · rfl
    · rfl

/-- two messages, the second of which is malformed -/
example : IpfixFramed (message (set 2 tplA)) ∧ IpfixFramed (message [9]) :=
  ⟨⟨[0, 0, 0, 1, 0, 0, 0, 2, 0, 0, 0, 3] ++ set 2 tplA, by decide, by decide, by decide⟩,
    ⟨[0, 0, 0, 1, 0, 0, 0, 2, 0, 0, 0, 3] ++ [9], by decide, by decide, by decide⟩⟩

/-! ## C82 -/

/-- the datagrams of a socket, each decoded from a buffer of its own, with the result of each of them -/
def datagrams (reg : Registry) : FlowCodec → List Bytes → List (Bytes × Dec FlowErr FlowInfo)
  | _, [] => []
  | c, b :: bs => (b, (FlowCodec.decode reg c b).1) :: datagrams reg (FlowCodec.decode reg c b).2.1 bs

/-- the version in the header of a datagram -/
def hasVersion (v : UInt16) (b : Bytes) : Bool := u16of (b.take 2) = v

theorem decode_ipfix_only (reg : Registry) {c1 c2 : FlowCodec} {b : Bytes} (h : hasVersion 10 b = true) (hc : c1.ipfix = c2.ipfix) :
    (FlowCodec.decode reg c1 b).1 = (FlowCodec.decode reg c2 b).1 ∧
      (FlowCodec.decode reg c1 b).2.1.ipfix = (FlowCodec.decode reg c2 b).2.1.ipfix := by
  have h : u16of (b.take 2) = 10 := by simpa [hasVersion] using h
  unfold FlowCodec.decode
  simp only
  rw [h]
  by_cases h1 : b.length < 16
  · rw [if_pos h1, if_pos h1]; exact ⟨rfl, hc⟩
  rw [if_neg h1, if_neg h1]
  by_cases h2 : b.length < (u16of ((b.drop 2).take 2)).toNat
  · rw [if_pos h2, if_pos h2]; exact ⟨rfl, hc⟩
  rw [if_neg h2, if_neg h2, if_pos rfl, if_pos rfl, hc]
  exact ⟨rfl, rfl⟩

theorem decode_keeps_ipfix (reg : Registry) {c : FlowCodec} {b : Bytes} (h : hasVersion 10 b = false) :
    (FlowCodec.decode reg c b).2.1.ipfix = c.ipfix := by
  have h : u16of (b.take 2) ≠ 10 := by simpa [hasVersion] using h
  unfold FlowCodec.decode
  simp only
  by_cases h1 : b.length < 16
  · rw [if_pos h1]
  rw [if_neg h1]
  by_cases h2 : b.length < (u16of ((b.drop 2).take 2)).toNat
  · rw [if_pos h2]
  rw [if_neg h2, if_neg h]
  split <;> rfl

theorem decode_netflow_only (reg : Registry) {c1 c2 : FlowCodec} {b : Bytes} (h : hasVersion 9 b = true) (hc : c1.netflow = c2.netflow) :
    (FlowCodec.decode reg c1 b).1 = (FlowCodec.decode reg c2 b).1 ∧
      (FlowCodec.decode reg c1 b).2.1.netflow = (FlowCodec.decode reg c2 b).2.1.netflow := by
  have h : u16of (b.take 2) = 9 := by simpa [hasVersion] using h
  unfold FlowCodec.decode
  simp only
  rw [h]
  by_cases h1 : b.length < 16
  · rw [if_pos h1, if_pos h1]; exact ⟨rfl, hc⟩
  rw [if_neg h1, if_neg h1]
  by_cases h2 : b.length < (u16of ((b.drop 2).take 2)).toNat
  · rw [if_pos h2, if_pos h2]; exact ⟨rfl, hc⟩
  rw [if_neg h2, if_neg h2, if_neg (show (9 : UInt16) ≠ 10 by decide), if_neg (show (9 : UInt16) ≠ 10 by decide), if_pos rfl, if_pos rfl, hc]
  exact ⟨rfl, rfl⟩

theorem decode_keeps_netflow (reg : Registry) {c : FlowCodec} {b : Bytes} (h : hasVersion 9 b = false) :
    (FlowCodec.decode reg c b).2.1.netflow = c.netflow := by
  have h : u16of (b.take 2) ≠ 9 := by simpa [hasVersion] using h
  unfold FlowCodec.decode
  simp only
  by_cases h1 : b.length < 16
  · rw [if_pos h1]
  rw [if_neg h1]
  by_cases h2 : b.length < (u16of ((b.drop 2).take 2)).toNat
  · rw [if_pos h2]
  rw [if_neg h2]
  by_cases h3 : u16of (b.take 2) = 10
  · rw [if_pos h3]
  · rw [if_neg h3, if_neg h]

/-- C82: the IPFIX messages among the datagrams from an exporter are decoded as if it sent nothing else -/
theorem c82_ipfix_partial (reg : Registry) (c : FlowCodec) (bs : List Bytes) :
    (datagrams reg c bs).filter (fun x => hasVersion 10 x.1) = datagrams reg c (bs.filter (hasVersion 10)) := by
  suffices ∀ (bs : List Bytes) (c1 c2 : FlowCodec), c1.ipfix = c2.ipfix →
      (datagrams reg c1 bs).filter (fun x => hasVersion 10 x.1) = datagrams reg c2 (bs.filter (hasVersion 10)) from this bs c c rfl
  intro bs
  induction bs with
  | nil => exact fun _ _ _ => rfl
  | cons b bs ih =>
    intro c1 c2 hc
    unfold datagrams
    cases hv : hasVersion 10 b with
    | true =>
      obtain ⟨h1, h2⟩ := decode_ipfix_only reg hv hc
      rw [List.filter_cons_of_pos (by exact hv), List.filter_cons_of_pos hv, ih _ _ h2, h1]
    | false =>
      rw [List.filter_cons_of_neg (by simp [hv]), List.filter_cons_of_neg (by simp [hv])]
      have := ih _ c2 ((decode_keeps_ipfix reg (c := c1) hv).trans hc)
      rw [this]
      cases bs.filter (hasVersion 10) <;> rfl

/-- C82: the NetFlow packets among the datagrams from an exporter are decoded as if it sent nothing else -/
theorem c82_netflow_partial (reg : Registry) (c : FlowCodec) (bs : List Bytes) :
    (datagrams reg c bs).filter (fun x => hasVersion 9 x.1) = datagrams reg c (bs.filter (hasVersion 9)) := by
  suffices ∀ (bs : List Bytes) (c1 c2 : FlowCodec), c1.netflow = c2.netflow →
      (datagrams reg c1 bs).filter (fun x => hasVersion 9 x.1) = datagrams reg c2 (bs.filter (hasVersion 9)) from this bs c c rfl
  intro bs
  induction bs with
  | nil => exact fun _ _ _ => rfl
  | cons b bs ih =>
    intro c1 c2 hc
    unfold datagrams
    cases hv : hasVersion 9 b with
    | true =>
      obtain ⟨h1, h2⟩ := decode_netflow_only reg hv hc
      rw [List.filter_cons_of_pos (by exact hv), List.filter_cons_of_pos hv, ih _ _ h2, h1]
    | false =>
      rw [List.filter_cons_of_neg (by simp [hv]), List.filter_cons_of_neg (by simp [hv])]
      have := ih _ c2 ((decode_keeps_netflow reg (c := c1) hv).trans hc)
      rw [this]
      cases bs.filter (hasVersion 9) <;> rfl

/-- an IPFIX message of this observation domain with these octets after its header -/
def fromDomain (domain : UInt32) (sets : Bytes) : Bytes :=
  u16be 10 ++ (u16be (UInt16.ofNat (16 + sets.length)) ++ ([0, 0, 0, 1, 0, 0, 0, 2] ++ (u32be domain ++ sets)))

/-- C82 is false of the observation domains of IPFIX, each of which has templates of its own (RFC 7011, section 3.1): after another domain defined the same
template id, the data of the first is decoded with its template -/
theorem c82_disproved :
    (datagrams reg .new [fromDomain 1 (set 2 tplA), fromDomain 1 (set 256 [6, 1, 2, 3, 4])]).getLast?.map (·.2) =
      some (.out (.ok (.ipfix ⟨⟨1, 0⟩, 2, 1, [.data 256 [⟨[], [.known 0 4 (.unsigned8 6), .known 0 8 (.ipv4 0x01020304)]⟩]]⟩))) ∧
    (datagrams reg .new [fromDomain 1 (set 2 tplA), fromDomain 2 (set 2 tplB), fromDomain 1 (set 256 [6, 1, 2, 3, 4])]).getLast?.map (·.2) =
      some (.out (.ok (.ipfix ⟨⟨1, 0⟩, 2, 1, [.data 256 [⟨[], [.known 0 8 (.ipv4 0x06010203), .known 0 4 (.unsigned8 4)]⟩]]⟩))) := by
  decide +kernel

/-- a NetFlow packet that defines the same id between two IPFIX messages -/
example : (datagrams reg .new [message (set 2 tplA), u16be 9 ++ (u16be 1 ++ (List.replicate 16 0 ++ set 0 tplB)),
    message (set 256 [6, 1, 2, 3, 4])]).getLast?.map (·.2) =
      some (.out (.ok (.ipfix ⟨⟨1, 0⟩, 2, 3, [.data 256 [⟨[], [.known 0 4 (.unsigned8 6), .known 0 8 (.ipv4 0x01020304)]⟩]]⟩))) := by
  decide +kernel

/-! ## C84 -/

/-- C84: once a template has been withdrawn, no records come out of IPFIX data with its id, whatever the data is -/
theorem c84_partial {reg : Registry} {m : Templates Spec} {id : UInt16} {body : Bytes} (hid : 256 ≤ id.toNat) (hw : m.shapes id = some ([], []))
    (hl : 4 + body.length < 65536) (rest : Bytes) (o : Nat) :
    ∃ m', FlowSet.parse reg ipfix (⟨set id body ++ rest, o⟩, m) = (.ok (.data id []), (⟨rest, o + (4 + body.length)⟩, m')) ∧ m'.shapes = m.shapes := by
  obtain ⟨t, ht, hs⟩ := shapes_some hw
  have hsc : t.scope = [] := congrArg (·.1) hs
  have hfi : t.fields = [] := congrArg (·.2) hs
  have hz : ∃ r, skipZeros ⟨body, o + 4⟩ = (.ok (), r) := by
    unfold skipZeros
    simp only
    suffices ∀ (n : Nat) (b : Bytes) (o : Nat), ∃ r, skipZerosF n ⟨b, o⟩ = (.ok (), r) from this _ _ _
    intro n
    induction n with
    | zero => exact fun b o => ⟨_, rfl⟩
    | succ n ih =>
      intro b o
      cases b with
      | nil => exact ⟨⟨[], o⟩, rfl⟩
      | cons x b =>
        by_cases hx : x = 0
        · subst hx
          obtain ⟨r, hr⟩ := ih b (o + 1)
          exact ⟨r, hr⟩
        · refine ⟨⟨x :: b, o⟩, ?_⟩
          show (if x = 0 then _ else (Res.ok (), (⟨x :: b, o⟩ : Reader))) = _
          rw [if_neg hx]
  obtain ⟨r, hr⟩ := hz
  have hc : FlowSet.content reg ipfix o id (⟨body, o + 4⟩, m) = (.ok (.data id []), (r, m.count id)) := by
    unfold FlowSet.content
    have n2 : id ≠ 2 := by rintro rfl; revert hid; decide
    have n3 : id ≠ 3 := by rintro rfl; revert hid; decide
    rw [if_neg (show id ≠ ipfix.templateSet from n2), if_neg (show id ≠ ipfix.optionsSet from n3),
      CParser.bind_ok (p := CParser.getCtx) (a := m) (s' := (⟨body, o + 4⟩, m)) rfl]
    simp only [ht]
    have hrec : ipfix.records id t (⟨body, o + 4⟩, m) = (.ok [], (r, m.count id)) := by
      show ipfixRecords id t _ = _
      unfold ipfixRecords
      simp only [hsc, hfi, List.map_nil, List.sum_nil]
      show (CParser.lift skipZeros >>= _) (⟨body, o + 4⟩, m.count id) = _
      rw [CParser.bind_ok (p := CParser.lift skipZeros) (a := ()) (s' := (r, m.count id)) (by rw [CParser.lift_run, hr])]
      rfl
    rw [CParser.bind_ok hrec]
    rfl
  have := set_write reg (d := ipfix) (id := id) (by
    rintro ⟨-, -, hlt⟩
    have := UInt16.lt_iff_toNat_lt.mp hlt
    have : (256 : UInt16).toNat = 256 := rfl
    omega) hl hc rest
  refine ⟨m.count id, ?_, shapes_count m id⟩
  rw [← this]; unfold Flow24.set; simp only [List.append_assoc]

/-- what a codec knows after a template and its withdrawal -/
example : (FlowCodec.decode reg (FlowCodec.decode reg .new (message (set 2 tplA))).2.1 (message (set 2 [1, 0, 0, 0]))).2.1.ipfix.shapes 256 =
    some ([], []) := by
  decide +kernel

/-- C84 is false: data with the id of a withdrawn template (a template without fields, RFC 7011, section 8.1) is accepted
without records, as if the template were known, and the withdrawal of all templates is an error -/
theorem c84_disproved :
    (datagrams reg .new [message (set 2 tplA), message (set 2 [1, 0, 0, 0]), message (set 256 [6, 1, 2, 3, 4])]).getLast?.map (·.2) =
      some (.out (.ok (.ipfix ⟨⟨1, 0⟩, 2, 3, [.data 256 []]⟩))) ∧
    (datagrams reg .new [message (set 256 [6, 1, 2, 3, 4])]).getLast?.map (·.2) =
      some (.out (.err (.ipfix (.set (.noTemplate 16 256))))) ∧
    (datagrams reg .new [message (set 2 tplA), message (set 2 [0, 2, 0, 0])]).getLast?.map (·.2) =
      some (.out (.err (.ipfix (.set (.record (.invalidTemplateId 20 2)))))) := by
  decide +kernel

end Verif.Props
