import Verif.Props.FlowCodec
/-!
# C25, C27: templates and the data read with them
-/
namespace Verif.Props
open Verif Flow Flow24

/-! ## C25 -/

/-- calls of the decoder one after the other, on any buffers, with what they returned -/
inductive FlowHistory (reg : Registry) : FlowCodec → List (Res FlowErr FlowInfo) → FlowCodec → Prop where
  | nil {c} : FlowHistory reg c [] c
  | wait {c c1 c' b b' os} (h : FlowCodec.decode reg c b = (.wait, c1, b')) (t : FlowHistory reg c1 os c') : FlowHistory reg c os c'
  | out {c c1 c' b b' x os} (h : FlowCodec.decode reg c b = (.out x, c1, b')) (t : FlowHistory reg c1 os c') :
      FlowHistory reg c (x :: os) c'

/-- the IPFIX templates an outcome shows: the id, the scope fields and the fields, in the order of the message -/
def ipfixDefs : Res FlowErr FlowInfo → List (UInt16 × List Spec × List Spec)
  | .ok (.ipfix p) => p.sets.flatMap FlowSet.defs
  | _ => []

/-- the same for NetFlow -/
def netflowDefs : Res FlowErr FlowInfo → List (UInt16 × List ScopeSpec × List Spec)
  | .ok (.netflow p) => p.sets.flatMap FlowSet.defs
  | _ => []

theorem decode_learns_ipfix {reg : Registry} {c c' : FlowCodec} {b b' : Bytes} {x : Res FlowErr FlowInfo}
    (h : FlowCodec.decode reg c b = (.out x, c', b')) (hx : ∀ e, x ≠ .err (.ipfix e)) :
    Learns c.ipfix (ipfixDefs x) c'.ipfix := by
  rcases decode_cases h with ⟨len, body, -, -, -, rfl, rfl⟩ | ⟨len, rest, -, -, -, rfl, rfl, -⟩ |
    ⟨len, rest, -, -, -, rfl, rfl, -⟩ | ⟨v, len, rest, -, -, -, -, rfl, rfl, -⟩
  · rcases hp : ipfixBody reg (⟨body, 4⟩, c.ipfix) with ⟨p | e | f, s'⟩
    · obtain ⟨s1, e1, -, hs, -⟩ := ipfixBody_ok hp
      have := hs.learns ipfix_lawful
      rw [e1] at this
      exact this
    · rw [hp] at hx; exact absurd rfl (hx e)
    · have := (csafe_ipfixBody reg).noFault (⟨body, 4⟩, c.ipfix)
      rw [hp] at this; simp [Res.isFault] at this
  · exact Learns.refl _
  · rcases hp : (NetflowPacket.parse reg (.new b, c.netflow)).1 with a | e | f <;> exact Learns.refl _
  · exact Learns.refl _

theorem decode_learns_netflow {reg : Registry} {c c' : FlowCodec} {b b' : Bytes} {x : Res FlowErr FlowInfo}
    (h : FlowCodec.decode reg c b = (.out x, c', b')) (hx : ∀ e, x ≠ .err (.netflow e)) :
    Learns c.netflow (netflowDefs x) c'.netflow := by
  rcases decode_cases h with ⟨len, body, -, -, -, rfl, rfl⟩ | ⟨len, rest, -, -, -, rfl, rfl, -⟩ |
    ⟨len, rest, -, -, -, rfl, rfl, -⟩ | ⟨v, len, rest, -, -, -, -, rfl, rfl, -⟩
  · rcases hp : (ipfixBody reg (⟨body, 4⟩, c.ipfix)).1 with a | e | f <;> exact Learns.refl _
  · exact Learns.refl _
  · rcases hp : NetflowPacket.parse reg (.new b, c.netflow) with ⟨p | e | f, s'⟩
    · obtain ⟨s1, e1, -, hs⟩ := netflow_ok hp
      have := hs.learns netflow_lawful
      rw [e1] at this
      exact this
    · rw [hp] at hx; exact absurd rfl (hx e)
    · have := (csafe_netflow reg).noFault (.new b, c.netflow)
      rw [hp] at this; simp [Res.isFault] at this
  · exact Learns.refl _

theorem history_ipfix {reg : Registry} {c c' : FlowCodec} {os : List (Res FlowErr FlowInfo)} (h : FlowHistory reg c os c')
    (hx : ∀ x ∈ os, ∀ e, x ≠ .err (.ipfix e)) : Learns c.ipfix (os.flatMap ipfixDefs) c'.ipfix := by
  induction h with
  | nil => exact Learns.refl _
  | wait h _ ih => rw [← (decode_wait h).1]; exact ih hx
  | out h _ ih =>
    rw [List.flatMap_cons]
    exact Learns.trans (decode_learns_ipfix h (hx _ (by simp))) (ih fun y hy => hx y (by simp [hy]))

theorem history_netflow {reg : Registry} {c c' : FlowCodec} {os : List (Res FlowErr FlowInfo)} (h : FlowHistory reg c os c')
    (hx : ∀ x ∈ os, ∀ e, x ≠ .err (.netflow e)) : Learns c.netflow (os.flatMap netflowDefs) c'.netflow := by
  induction h with
  | nil => exact Learns.refl _
  | wait h _ ih => rw [← (decode_wait h).1]; exact ih hx
  | out h _ ih =>
    rw [List.flatMap_cons]
    exact Learns.trans (decode_learns_netflow h (hx _ (by simp))) (ih fun y hy => hx y (by simp [hy]))

/-- C25 for IPFIX as far as it holds: after any sequence of calls, of which no IPFIX message failed, the records of a data
set are those of the octets of the set read with the last template shown for its id, in an earlier message or earlier in
the same message; there is such a template, and the octets left over are fewer than a record. What is missing: messages
that failed, see `c25_disproved` and `c25_failed`. -/
theorem c25_ipfix_partial {reg : Registry} {c c' : FlowCodec} {os : List (Res FlowErr FlowInfo)} {b b' : Bytes}
    {p : IpfixPacket} {l1 l2 : List (FlowSet Spec Field)} {i : UInt16} {l : List (DataRecord Field)}
    (h : FlowHistory reg .new os c) (hx : ∀ x ∈ os, ∀ e, x ≠ .err (.ipfix e))
    (hd : FlowCodec.decode reg c b = (.out (.ok (.ipfix p)), c', b')) (hs : p.sets = l1 ++ .data i l :: l2) :
    ∃ t body rest, lastDef (os.flatMap ipfixDefs ++ l1.flatMap FlowSet.defs) i = some t ∧
      (∃ pre len post, b = pre ++ (u16be i ++ (u16be len ++ (body ++ post)))) ∧
      Listed (IpfixRead t) body l rest ∧ (ipfixSize t = 0 ∧ l = [] ∨ rest.length < ipfixSize t) := by
  have hist := history_ipfix h hx
  rcases decode_cases hd with ⟨len, body, hb, -, -, hp, -⟩ | ⟨len, rest, -, -, -, hp, -⟩ | ⟨len, rest, -, -, -, hp, -⟩ |
    ⟨v, len, rest, -, -, -, -, hp, -⟩
  · rcases hq : ipfixBody reg (⟨body, 4⟩, c.ipfix) with ⟨q | e | f, s'⟩ <;> rw [hq] at hp
    · obtain rfl : p = q := by simpa [Res.map, Res.mapErr] using hp
      obtain ⟨s1, e1, ⟨w, hw⟩, hr, -⟩ := ipfixBody_ok hq
      rw [hs] at hr
      obtain ⟨t, body', rest, k1, ⟨pre, len', post, k2⟩, k3, k4⟩ := hr.data ipfix_lawful
      refine ⟨t, body', rest, ?_, ⟨u16be 10 ++ (u16be len ++ (w ++ pre)), len', post ++ b', ?_⟩, k3, k4⟩
      · rw [e1, hist i] at k1
        rw [lastDef_append]
        simpa [show FlowCodec.new.ipfix.shapes i = none from rfl] using k1
      · simp only at hw
        rw [hb, hw, k2]
        simp [List.append_assoc]
    · simp [Res.map, Res.mapErr] at hp
    · simp [Res.map, Res.mapErr] at hp
  · simp at hp
  · rcases hq : (NetflowPacket.parse reg (.new b, c.netflow)).1 with a | e | f <;> rw [hq] at hp <;> simp [Res.map, Res.mapErr] at hp
  · simp at hp

/-- C25 for NetFlow v9, likewise -/
theorem c25_netflow_partial {reg : Registry} {c c' : FlowCodec} {os : List (Res FlowErr FlowInfo)} {b b' : Bytes}
    {p : NetflowPacket} {l1 l2 : List (FlowSet ScopeSpec ScopeField)} {i : UInt16} {l : List (DataRecord ScopeField)}
    (h : FlowHistory reg .new os c) (hx : ∀ x ∈ os, ∀ e, x ≠ .err (.netflow e))
    (hd : FlowCodec.decode reg c b = (.out (.ok (.netflow p)), c', b')) (hs : p.sets = l1 ++ .data i l :: l2) :
    ∃ t body rest, lastDef (os.flatMap netflowDefs ++ l1.flatMap FlowSet.defs) i = some t ∧
      (∃ pre len post, b = pre ++ (u16be i ++ (u16be len ++ (body ++ post)))) ∧
      Listed (NetflowRead t) body l rest ∧ (netflowSize t = 0 ∧ l = [] ∨ rest.length < netflowSize t) := by
  have hist := history_netflow h hx
  rcases decode_cases hd with ⟨len, body, -, -, -, hp, -⟩ | ⟨len, rest, -, -, -, hp, -⟩ | ⟨len, rest, -, -, -, hp, -⟩ |
    ⟨v, len, rest, -, -, -, -, hp, -⟩
  · rcases hq : (ipfixBody reg (⟨body, 4⟩, c.ipfix)).1 with a | e | f <;> rw [hq] at hp <;> simp [Res.map, Res.mapErr] at hp
  · simp at hp
  · rcases hq : NetflowPacket.parse reg (.new b, c.netflow) with ⟨q | e | f, s'⟩ <;> rw [hq] at hp
    · obtain rfl : p = q := by simpa [Res.map, Res.mapErr] using hp
      obtain ⟨s1, e1, ⟨w, hw⟩, hr⟩ := netflow_ok hq
      rw [hs] at hr
      obtain ⟨t, body', rest, k1, ⟨pre, len', post, k2⟩, k3, k4⟩ := hr.data netflow_lawful
      refine ⟨t, body', rest, ?_, ⟨w ++ pre, len', post, ?_⟩, k3, k4⟩
      · rw [e1, hist i] at k1
        rw [lastDef_append]
        simpa [show FlowCodec.new.netflow.shapes i = none from rfl] using k1
      · simp only [Reader.new] at hw
        rw [hw, k2]
        simp [List.append_assoc]
    · simp [Res.map, Res.mapErr] at hp
    · simp [Res.map, Res.mapErr] at hp
  · simp at hp

theorem decode_of {reg : Registry} {c : FlowCodec} {b b' : Bytes} {x : Dec FlowErr FlowInfo}
    (h1 : (FlowCodec.decode reg c b).1 = x) (h2 : (FlowCodec.decode reg c b).2.2 = b') :
    FlowCodec.decode reg c b = (x, (FlowCodec.decode reg c b).2.1, b') := by
  rw [← h1, ← h2]

/-- two messages: the second one redefines the template and its data is read with the new one -/
example : ∃ os c x, FlowHistory reg .new os c ∧ (∀ x ∈ os, ∀ e, x ≠ .err (.ipfix e)) ∧
    (FlowCodec.decode reg c (message (set 256 [6, 10, 0, 0, 1] ++ set 2 tplB ++ set 256 [10, 0, 0, 1, 6]))).1 = .out (.ok (.ipfix x)) ∧
    x.sets = [.data 256 [⟨[], [.known 0 4 (.unsigned8 6), .known 0 8 (.ipv4 0x0A000001)]⟩],
      .template [⟨256, [⟨.known 0 8 .ipv4, 4⟩, ⟨.known 0 4 .unsigned8, 1⟩]⟩],
      .data 256 [⟨[], [.known 0 8 (.ipv4 0x0A000001), .known 0 4 (.unsigned8 6)]⟩]] := by
  refine ⟨[.ok (.ipfix ⟨⟨1, 0⟩, 2, 3, [.template [⟨256, [⟨.known 0 4 .unsigned8, 1⟩, ⟨.known 0 8 .ipv4, 4⟩]⟩]]⟩)],
    (FlowCodec.decode reg .new (message (set 2 tplA))).2.1,
    ⟨⟨1, 0⟩, 2, 3, _⟩, .out (b := message (set 2 tplA)) (b' := []) ?_ .nil, ?_, ?_, rfl⟩
  · exact decode_of (by decide +kernel) (by decide +kernel)
  · simp
  · decide +kernel

/-- C25: a data set whose id is not defined is an error, and every template stays as it is. `d` is IPFIX or NetFlow. -/
theorem c25_undefined {κ φ : Type} (reg : Registry) (d : Dialect κ φ) {id len : UInt16} {body : Bytes} (rest : Bytes) (o : Nat)
    (m : Templates κ) (hid : 256 ≤ id.toNat) (ht : id ≠ d.templateSet) (ho : id ≠ d.optionsSet)
    (hl : body.length + 4 = len.toNat) (hm : m id = none) :
    FlowSet.parse reg d (⟨u16be id ++ (u16be len ++ (body ++ rest)), o⟩, m) =
      (.err (.noTemplate o id), (⟨rest, o + len.toNat⟩, m)) := by
  have hb : ¬ d.badId id := fun h => by
    have := UInt16.lt_iff_toNat_lt.mp h.2.2
    have e : (256 : UInt16).toNat = 256 := rfl
    omega
  have hc : FlowSet.content reg d o id (⟨body, o + 4⟩, m) = (.err (.noTemplate o id), (⟨body, o + 4⟩, m)) := by
    unfold FlowSet.content
    rw [if_neg ht, if_neg ho, CParser.bind_ok (p := CParser.getCtx) (a := m) (s' := (⟨body, o + 4⟩, m)) rfl]
    simp only [hm]
    rfl
  rw [set_eq reg d rest o m hb hl, hc]

/-- C25 for an IPFIX message: it fails at the first data set whose id is not defined; the templates are those of the sets
before it, the sets behind it are not looked at, and the next message is decoded from its beginning -/
theorem c25_undefined_message (reg : Registry) (c : FlowCodec) {mlen id len : UInt16} (t q dm : UInt32)
    {pre body post : Bytes} (rest : Bytes) {l : List (FlowSet Spec Field)} {m1 : Templates Spec} {o : Nat}
    (hm : 16 + (pre.length + (len.toNat + post.length)) = mlen.toNat) (hid : 256 ≤ id.toNat)
    (hl : body.length + 4 = len.toNat)
    (hpre : SetsRead reg ipfix (⟨pre ++ (u16be id ++ (u16be len ++ (body ++ post))), 16⟩, c.ipfix) l
      (⟨u16be id ++ (u16be len ++ (body ++ post)), o⟩, m1)) (hd : m1 id = none) :
    FlowCodec.decode reg c (u16be 10 ++ (u16be mlen ++
        ((u32be t ++ (u32be q ++ (u32be dm ++ (pre ++ (u16be id ++ (u16be len ++ (body ++ post))))))) ++ rest))) =
      (.out (.err (.ipfix (.set (.noTemplate o id)))), { c with ipfix := m1 }, rest) ∧
    Learns c.ipfix (l.flatMap FlowSet.defs) m1 := by
  refine ⟨?_, hpre.learns ipfix_lawful⟩
  have hne : id ≠ ipfix.templateSet ∧ id ≠ ipfix.optionsSet := by
    constructor <;> (rintro rfl; revert hid; decide)
  have hs := c25_undefined reg ipfix (len := len) (body := body) post o m1 hid hne.1 hne.2 hl hd
  have hrow := CParser.rows_err (k := 1) (p := CParser.mapErr PacketErr.set (FlowSet.parse reg ipfix)) (by omega)
    (s := (⟨u16be id ++ (u16be len ++ (body ++ post)), o⟩, m1)) (by simp [u16be]; omega)
    (e := .set (.noTemplate o id)) (s' := (⟨post, o + len.toNat⟩, m1)) (by rw [CParser.mapErr_run, hs]; rfl)
  have hall := rows_sets hpre
  rw [hrow] at hall
  have hbody := ipfixBody_eq reg t q dm (pre ++ (u16be id ++ (u16be len ++ (body ++ post)))) 4 c.ipfix
  rw [show 4 + 12 = 16 from rfl, hall] at hbody
  rw [decode_ipfix reg c rest (by omega) (by simp [u16be, u32be]; omega), hbody]
  rfl

example : ∃ l m1 o, SetsRead reg ipfix (⟨set 2 tplA ++ (u16be 257 ++ (u16be 6 ++ ([1, 2] ++ set 2 tplB))), 16⟩, FlowCodec.new.ipfix) l
    (⟨u16be 257 ++ (u16be 6 ++ ([1, 2] ++ set 2 tplB)), o⟩, m1) ∧ (m1 257).isNone = true ∧ (m1 256).isSome = true := by
  have h : ∀ s : Reader × Templates Spec, ∀ x r, (FlowSet.parse reg ipfix s).1 = x → (FlowSet.parse reg ipfix s).2.1 = r →
      FlowSet.parse reg ipfix s = (x, (r, (FlowSet.parse reg ipfix s).2.2)) := by
    intro s x r h1 h2; rw [← h1, ← h2]
  refine ⟨[.template [⟨256, [⟨.known 0 4 .unsigned8, 1⟩, ⟨.known 0 8 .ipv4, 4⟩]⟩]],
    (FlowSet.parse reg ipfix (⟨set 2 tplA ++ (u16be 257 ++ (u16be 6 ++ ([1, 2] ++ set 2 tplB))), 16⟩, FlowCodec.new.ipfix)).2.2,
    32, .cons (h _ _ _ ?_ ?_) .nil, ?_, ?_⟩ <;> decide +kernel

/-- C25: what a message that fails leaves behind: either nothing, or the sets before the one that fails are learnt, and of
that one the templates before its failure. No template is lost. -/
theorem c25_failed {reg : Registry} {c c' : FlowCodec} {b b' : Bytes} {e : PacketErr}
    (h : FlowCodec.decode reg c b = (.out (.err (.ipfix e)), c', b')) :
    c' = c ∨ ∃ (s1 s2 s3 : Reader × Templates Spec) (l : List (FlowSet Spec Field)) (part : List (UInt16 × List Spec × List Spec)) (e' : SetErr),
      s1.2 = c.ipfix ∧ SetsRead reg ipfix s1 l s2 ∧ FlowSet.parse reg ipfix s2 = (.err e', s3) ∧ c'.ipfix = s3.2 ∧
      Learns c.ipfix (l.flatMap FlowSet.defs ++ part) c'.ipfix ∧ c'.netflow = c.netflow := by
  rcases decode_cases h with ⟨len, body, hb, -, -, hp, rfl⟩ | ⟨len, rest, -, -, -, hp, rfl, -⟩ | ⟨len, rest, -, -, -, hp, -⟩ |
    ⟨v, len, rest, -, -, -, -, hp, -⟩
  · rcases hq : ipfixBody reg (⟨body, 4⟩, c.ipfix) with ⟨q | e | f, s'⟩
    · rw [hq] at hp; simp [Res.map, Res.mapErr] at hp
    · rcases ipfixBody_err hq with k | ⟨s1, l, s2, e', k0, k1, k2⟩
      · left; simp only; rw [k]
      · right
        obtain ⟨part, hpart⟩ := set_err ipfix_lawful k2
        have := Learns.trans (k1.learns ipfix_lawful) hpart
        rw [k0] at this
        exact ⟨s1, s2, s', l, part, e', k0, k1, k2, rfl, this, rfl⟩
    · rw [hq] at hp; simp [Res.map, Res.mapErr] at hp
  · exact .inl rfl
  · rcases hq : (NetflowPacket.parse reg (.new b, c.netflow)).1 with a | e | f <;> rw [hq] at hp <;> simp [Res.map, Res.mapErr] at hp
  · simp at hp

/-- C25 does not hold as stated: the second message has a data set of an id that is not defined and behind it a new
template for 256. The data set fails the message, so that the template is not learnt, and the data of the third message is
read with the first template. -/
theorem c25_disproved : ∃ (c1 c2 c3 : FlowCodec) (e : FlowErr) (x1 x3 : IpfixPacket),
    FlowCodec.decode reg .new (message (set 2 tplA)) = (.out (.ok (.ipfix x1)), c1, []) ∧
    FlowCodec.decode reg c1 (message (set 257 [1, 2] ++ set 2 tplB)) = (.out (.err e), c2, []) ∧
    FlowCodec.decode reg c2 (message (set 256 [10, 0, 0, 1, 6])) = (.out (.ok (.ipfix x3)), c3, []) ∧
    x3.sets = [.data 256 [⟨[], [.known 0 4 (.unsigned8 10), .known 0 8 (.ipv4 0x00000106)]⟩]] ∧
    (FlowCodec.decode reg .new (message (set 2 tplB ++ set 256 [10, 0, 0, 1, 6]))).1 = .out (.ok (.ipfix ⟨⟨1, 0⟩, 2, 3,
      [.template [⟨256, [⟨.known 0 8 .ipv4, 4⟩, ⟨.known 0 4 .unsigned8, 1⟩]⟩],
        .data 256 [⟨[], [.known 0 8 (.ipv4 0x0A000001), .known 0 4 (.unsigned8 6)]⟩]]⟩)) := by
  refine ⟨(FlowCodec.decode reg .new (message (set 2 tplA))).2.1,
    (FlowCodec.decode reg (FlowCodec.decode reg .new (message (set 2 tplA))).2.1 (message (set 257 [1, 2] ++ set 2 tplB))).2.1,
    (FlowCodec.decode reg (FlowCodec.decode reg (FlowCodec.decode reg .new (message (set 2 tplA))).2.1
      (message (set 257 [1, 2] ++ set 2 tplB))).2.1 (message (set 256 [10, 0, 0, 1, 6]))).2.1,
    .ipfix (.set (.noTemplate 16 257)),
    ⟨⟨1, 0⟩, 2, 3, [.template [⟨256, [⟨.known 0 4 .unsigned8, 1⟩, ⟨.known 0 8 .ipv4, 4⟩]⟩]]⟩,
    ⟨⟨1, 0⟩, 2, 3, _⟩, ?_, ?_, ?_, rfl, ?_⟩
  · exact decode_of (by decide +kernel) (by decide +kernel)
  · exact decode_of (by decide +kernel) (by decide +kernel)
  · exact decode_of (by decide +kernel) (by decide +kernel)
  · decide +kernel

/-! ## C27 -/

/-- C27 as far as it holds: a template record that is written is read again, wherever it stands, and becomes the template
of its id, without scope fields; every other template stays. What is missing: ids below 256, more than 65535 fields, and
specifiers whose element or length the registry does not know so (`Spec.Valid`), see `c27_disproved`. -/
theorem c27_template_partial {κ : Type} {reg : Registry} {t : TemplateRecord} (h : t.Valid reg) (rest : Bytes) (o : Nat)
    (m : Templates κ) :
    ∃ m', TemplateRecord.parse reg (⟨t.write ++ rest, o⟩, m) = (.ok t, (⟨rest, o + t.write.length⟩, m')) ∧
      m'.shapes t.id = some ([], t.fields) ∧ ∀ id, id ≠ t.id → m' id = m id :=
  ⟨_, templateRecord_write h rest o m, by simp [shapes_insert, Template.shape], fun _ hid => HMap.insert_ne _ _ hid⟩

/-- C27 for options templates, likewise -/
theorem c27_options_partial {reg : Registry} {t : OptionsRecord Spec} (h : OptionsValid reg t) (rest : Bytes) (o : Nat)
    (m : Templates Spec) :
    ∃ m', ipfixOptions reg (⟨ipfixOptionsWrite t ++ rest, o⟩, m) =
        (.ok t, (⟨rest, o + (ipfixOptionsWrite t).length⟩, m')) ∧
      m'.shapes t.id = some (t.scope, t.fields) ∧ ∀ id, id ≠ t.id → m' id = m id :=
  ⟨_, ipfixOptions_write h rest o m, by simp [shapes_insert, Template.shape], fun _ hid => HMap.insert_ne _ _ hid⟩

/-- C27 for a set of templates: all of them are read again and are in force afterwards, the last one of an id for it -/
theorem c27_templateSet_partial {reg : Registry} {l : List TemplateRecord} (h : ∀ t ∈ l, t.Valid reg)
    (hl : ipfixSetLen HMap.empty (.template l) < 65536) (rest : Bytes) (o : Nat) (mw m : Templates Spec) :
    ∃ w m', ipfixSetWrite mw (.template l) = .ok w ∧ w.length = ipfixSetLen mw (.template l) ∧
      FlowSet.parse reg ipfix (⟨w ++ rest, o⟩, m) = (.ok (.template l), (⟨rest, o + w.length⟩, m')) ∧
      ∀ id, m'.shapes id = (lastDef (l.map fun t => (t.id, ([], t.fields))) id).or (m.shapes id) := by
  have hlen : ((l.map TemplateRecord.write).flatten).length = (l.map TemplateRecord.len).sum :=
    sum_flatten_length _ _ _ fun a _ => length_template a
  have hl' : (l.map TemplateRecord.len).sum + 4 < 65536 := hl
  obtain ⟨m', r, h1, h2⟩ := content_templates reg ipfix h o (o + 4) m
  have := set_write reg (d := ipfix) (id := 2) (by decide) (by rw [hlen]; omega) h1 rest
  rw [hlen] at this
  have e : 4 + (l.map TemplateRecord.len).sum = (l.map TemplateRecord.len).sum + 4 := Nat.add_comm _ _
  rw [e] at this
  refine ⟨_, m', rfl, ?_, ?_, h2⟩
  · simp only [List.length_append, length_u16be, hlen, ipfixSetLen]; omega
  · have hw : (u16be 2 ++ u16be (UInt16.ofNat (ipfixSetLen mw (.template l))) ++ (l.map TemplateRecord.write).flatten).length =
        (l.map TemplateRecord.len).sum + 4 := by
      simp only [List.length_append, length_u16be, hlen]; omega
    rw [hw]
    exact this

/-- C27 for a set of options templates -/
theorem c27_optionsSet_partial {reg : Registry} {l : List (OptionsRecord Spec)} (h : ∀ t ∈ l, OptionsValid reg t)
    (hl : ipfixSetLen HMap.empty (.options l) < 65536) (rest : Bytes) (o : Nat) (mw m : Templates Spec) :
    ∃ w m', ipfixSetWrite mw (.options l) = .ok w ∧ w.length = ipfixSetLen mw (.options l) ∧
      FlowSet.parse reg ipfix (⟨w ++ rest, o⟩, m) = (.ok (.options l), (⟨rest, o + w.length⟩, m')) ∧
      ∀ id, m'.shapes id = (lastDef (l.map fun t => (t.id, (t.scope, t.fields))) id).or (m.shapes id) := by
  have hlen : ((l.map ipfixOptionsWrite).flatten).length = (l.map ipfixOptionsLen).sum :=
    sum_flatten_length _ _ _ fun a _ => length_ipfixOptions a
  have hl' : (l.map ipfixOptionsLen).sum + 4 < 65536 := hl
  obtain ⟨m', r, h1, h2⟩ := content_options reg (d := ipfix) (by decide) (w := ipfixOptionsWrite) (l := l)
    (fun a ha rest o m => ipfixOptions_write (h a ha) rest o m)
    (fun a _ => by rw [length_ipfixOptions]; unfold ipfixOptionsLen; omega) o (o + 4) m
  have := set_write reg (d := ipfix) (id := 3) (by decide) (by rw [hlen]; omega) h1 rest
  rw [hlen] at this
  have e : 4 + (l.map ipfixOptionsLen).sum = (l.map ipfixOptionsLen).sum + 4 := Nat.add_comm _ _
  rw [e] at this
  refine ⟨_, m', rfl, ?_, ?_, h2⟩
  · simp only [List.length_append, length_u16be, hlen, ipfixSetLen]; omega
  · have hw : (u16be 3 ++ u16be (UInt16.ofNat (ipfixSetLen mw (.options l))) ++ (l.map ipfixOptionsWrite).flatten).length =
        (l.map ipfixOptionsLen).sum + 4 := by
      simp only [List.length_append, length_u16be, hlen]; omega
    rw [hw]
    exact this

/-- a template with an element of IANA, one of a vendor, one the vendor does not know and one of an unknown vendor -/
example : TemplateRecord.Valid reg ⟨256, [⟨.known 0 82 .string, 65535⟩, ⟨.known 9 7 .unsigned32, 3⟩,
    ⟨.vendorUnknown 9 8, 5⟩, ⟨.unknown 77 1, 65535⟩]⟩ := by
  refine ⟨by decide, by decide, ?_⟩
  simp only [List.forall_mem_cons, List.not_mem_nil, false_implies, implies_true, and_true]
  refine ⟨⟨?_, ?_, ?_⟩, ⟨?_, ?_, ?_⟩, ⟨?_, ?_, ?_⟩, ⟨?_, ?_, ?_⟩⟩ <;> decide +kernel

/-- C27 does not hold for every record that can be written: of an element of an unknown vendor whose id has the top bit the
id changes, and a record with an id below 256 is not read at all -/
theorem c27_disproved :
    (TemplateRecord.parse reg (⟨(TemplateRecord.mk 256 [⟨.unknown 77 0x8001, 4⟩]).write, 0⟩, (HMap.empty : Templates Spec))).1 =
      .ok ⟨256, [⟨.unknown 77 1, 4⟩]⟩ ∧
    (TemplateRecord.parse reg (⟨(TemplateRecord.mk 255 [⟨.known 0 4 .unsigned8, 1⟩]).write, 0⟩, (HMap.empty : Templates Spec))).1 =
      .err (.invalidTemplateId 0 255) := by decide +kernel

end Verif.Props
