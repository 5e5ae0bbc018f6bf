import Verif.Flow.LearnLemmas
import Verif.Flow.SafeLemmas
import Verif.Flow.Codec
/-!
# Packets: their frame, what they teach, and the codec
-/
namespace Verif.Flow
open Parser

theorem parseVersion_ok {v : UInt16} {r r' : Reader} {u : Unit} (h : parseVersion v r = (.ok u, r')) :
    r.buf = u16be v ++ r'.buf ∧ r'.offset = r.offset + 2 := by
  obtain ⟨x, r1, h1, h⟩ := bind_eq_ok.mp h
  obtain ⟨⟨t, ht⟩, rfl⟩ := peekU16_eq_ok.mp (mapErr_eq_ok.mp h1)
  by_cases hx : x ≠ v
  · rw [if_pos hx] at h
    obtain ⟨_, r2, _, h⟩ := bind_eq_ok.mp h
    simp [fail] at h
  · rw [if_neg hx] at h
    obtain ⟨y, r2, h2, h⟩ := bind_eq_ok.mp h
    obtain ⟨-, rfl⟩ := pure_eq_ok.mp h
    obtain ⟨e, o⟩ := readU16_eq_ok.mp (mapErr_eq_ok.mp h2)
    have : u16be x = u16be y := by
      have := ht.symm.trans e
      exact (List.append_inj this (by simp [u16be])).1
    have hx' : x = v := Classical.not_not.mp hx
    subst hx'
    exact ⟨by rw [e, ← this], o⟩

theorem parseVersion_eq (v : UInt16) (rest : Bytes) (o : Nat) :
    parseVersion v ⟨u16be v ++ rest, o⟩ = (.ok (), ⟨rest, o + 2⟩) := by
  unfold parseVersion
  rw [bind_ok (mapErr_ok (peekU16_u16be _ _ _) PacketErr.parse), if_neg (fun h => h rfl),
    bind_ok (mapErr_ok (readU16_u16be _) PacketErr.parse)]
  rfl

theorem takeSlice_eq (n : Nat) (body rest : Bytes) (o : Nat) (h : body.length = n) :
    takeSlice n ⟨body ++ rest, o⟩ = (.ok ⟨body, o⟩, ⟨rest, o + n⟩) :=
  takeSlice_eq_ok.mpr ⟨rfl, h, rfl, rfl⟩

/-- a complete IPFIX message: the outcome is that of its octets, whatever follows them -/
theorem ipfix_eq (reg : Registry) {len : UInt16} {body : Bytes} (rest : Bytes) (o : Nat) (m : Templates Spec)
    (h16 : 16 ≤ len.toNat) (hl : body.length + 4 = len.toNat) :
    IpfixPacket.parse reg (⟨u16be 10 ++ (u16be len ++ (body ++ rest)), o⟩, m) =
      ((ipfixBody reg (⟨body, o + 4⟩, m)).1,
        (⟨rest, o + len.toNat⟩, (ipfixBody reg (⟨body, o + 4⟩, m)).2.2)) := by
  unfold IpfixPacket.parse
  rw [CParser.bind_ok (p := CParser.lift (parseVersion 10)) (a := ()) (s' := (⟨u16be len ++ (body ++ rest), o + 2⟩, m))
      (by unfold CParser.lift; rw [parseVersion_eq]),
    CParser.bind_ok (lift_mapErr_ok (peekU16_u16be _ _ _) _ _),
    CParser.bind_ok (p := CParser.lift getOffset) (a := o + 2) (s' := (⟨u16be len ++ (body ++ rest), o + 2⟩, m)) rfl,
    if_neg (by rw [UInt16.lt_iff_toNat_lt]; have : (16 : UInt16).toNat = 16 := rfl; omega),
    CParser.bind_ok (lift_mapErr_ok (readU16_u16be _) _ _),
    CParser.bind_ok (lift_mapErr_ok (takeSlice_eq (len.toNat - 4) body rest _ (by omega)) _ _)]
  have eo : o + 2 + 2 + (len.toNat - 4) = o + len.toNat := by omega
  rw [eo]
  rcases hb : ipfixBody reg (⟨body, o + 4⟩, m) with ⟨x | e | x, ⟨r1, m1⟩⟩ <;>
    (show (CParser.onSub ⟨body, o + 4⟩ (ipfixBody reg) >>= _) _ = _
     simp only [Bind.bind, CParser.bind, CParser.onSub, hb]
     try rfl)

/-- a message that claims to be shorter than its header -/
theorem ipfix_short (reg : Registry) {len : UInt16} (rest : Bytes) (o : Nat) (m : Templates Spec) (h16 : len.toNat < 16) :
    IpfixPacket.parse reg (⟨u16be 10 ++ (u16be len ++ rest), o⟩, m) =
      (.err (.invalidLength (o + 2) len), (⟨u16be len ++ rest, o + 2⟩, m)) := by
  unfold IpfixPacket.parse
  rw [CParser.bind_ok (p := CParser.lift (parseVersion 10)) (a := ()) (s' := (⟨u16be len ++ rest, o + 2⟩, m))
      (by unfold CParser.lift; rw [parseVersion_eq]),
    CParser.bind_ok (lift_mapErr_ok (peekU16_u16be _ _ _) _ _),
    CParser.bind_ok (p := CParser.lift getOffset) (a := o + 2) (s' := (⟨u16be len ++ rest, o + 2⟩, m)) rfl,
    if_pos (by rw [UInt16.lt_iff_toNat_lt]; have : (16 : UInt16).toNat = 16 := rfl; omega)]
  rfl

theorem ipfixBody_ok {reg : Registry} {s s' : Reader × Templates Spec} {p : IpfixPacket}
    (h : ipfixBody reg s = (.ok p, s')) :
    ∃ s1, s1.2 = s.2 ∧ (∃ w, s.1.buf = w ++ s1.1.buf) ∧ SetsRead reg ipfix s1 p.sets s' ∧ s'.1.buf = [] := by
  unfold ipfixBody at h
  obtain ⟨t, s1, h1, h⟩ := CParser.bind_eq_ok h
  obtain ⟨q, s2, h2, h⟩ := CParser.bind_eq_ok h
  obtain ⟨dm, s3, h3, h⟩ := CParser.bind_eq_ok h
  obtain ⟨sets, s4, h4, h⟩ := CParser.bind_eq_ok h
  simp only [CParser.pure_run, Prod.mk.injEq, Res.ok.injEq] at h
  obtain ⟨rfl, rfl⟩ := h
  obtain ⟨a1, b1⟩ := CParser.lift_eq_ok h1
  obtain ⟨a2, b2⟩ := CParser.lift_eq_ok h2
  obtain ⟨a3, b3⟩ := CParser.lift_eq_ok h3
  refine ⟨s3, by rw [b3, b2, b1], ?_, ?_⟩
  · obtain ⟨e3, -⟩ := readU32_eq_ok.mp (mapErr_eq_ok.mp a3)
    obtain ⟨e2, -⟩ := readU32_eq_ok.mp (mapErr_eq_ok.mp a2)
    obtain ⟨x, r1, k1, k⟩ := bind_eq_ok.mp a1
    obtain ⟨-, rfl⟩ := peekU32_eq_ok.mp (mapErr_eq_ok.mp k1)
    obtain ⟨_, r2, k2, k⟩ := bind_eq_ok.mp k
    obtain ⟨-, rfl⟩ := getOffset_eq_ok.mp k2
    obtain ⟨_, r3, k3, k⟩ := bind_eq_ok.mp k
    obtain ⟨-, rfl⟩ := ofOption_eq_ok.mp k3
    obtain ⟨y, r4, k4, k⟩ := bind_eq_ok.mp k
    obtain ⟨-, rfl⟩ := pure_eq_ok.mp k
    obtain ⟨e1, -⟩ := readU32_eq_ok.mp (mapErr_eq_ok.mp k4)
    exact ⟨u32be y ++ (u32be q ++ u32be dm), by rw [e1, e2, e3]; simp [List.append_assoc]⟩
  · refine CParser.rows_ok_induction (k := 1) (by omega)
      (Q := fun s l s' => SetsRead reg ipfix s l s' ∧ s'.1.buf = []) (fun s hs => ⟨.nil, ?_⟩) ?_ h4
    · exact List.length_eq_zero_iff.mp (by omega)
    · intro s a s1 as s2 _ hp _ _ ⟨ih, e⟩
      exact ⟨.cons (CParser.mapErr_eq_ok hp) ih, e⟩

/-- what is learnt from a message that fails: the sets before the one that fails, and of that one what was read before
the failure -/
theorem ipfixBody_err {reg : Registry} {s s' : Reader × Templates Spec} {e : PacketErr}
    (h : ipfixBody reg s = (.err e, s')) :
    s'.2 = s.2 ∨ ∃ s1 l s2 e', s1.2 = s.2 ∧ SetsRead reg ipfix s1 l s2 ∧ FlowSet.parse reg ipfix s2 = (.err e', s') := by
  unfold ipfixBody at h
  rcases CParser.bind_eq_err h with h | ⟨_, s1, h1, h⟩
  · exact .inl (lift_err_ctx h)
  rw [← (CParser.lift_eq_ok h1).2]
  rcases CParser.bind_eq_err h with h | ⟨_, s2, h2, h⟩
  · exact .inl (lift_err_ctx h)
  rw [← (CParser.lift_eq_ok h2).2]
  rcases CParser.bind_eq_err h with h | ⟨_, s3, h3, h⟩
  · exact .inl (lift_err_ctx h)
  rw [← (CParser.lift_eq_ok h3).2]
  rcases CParser.bind_eq_err h with h | ⟨_, s4, h4, h⟩
  · right
    obtain ⟨l, s5, e', k1, k2⟩ := CParser.rows_err_induction (k := 1) (by omega)
      (Q := fun s l => ∃ s5 e', SetsRead reg ipfix s l s5 ∧ FlowSet.parse reg ipfix s5 = (.err e', s'))
      (fun s _ hs => by
        obtain ⟨e', hp, -⟩ := CParser.mapErr_eq_err hs
        exact ⟨s, e', .nil, hp⟩)
      (fun s a s1 l _ hp ⟨s5, e', ih1, ih2⟩ => ⟨s5, e', .cons (CParser.mapErr_eq_ok hp) ih1, ih2⟩) h
    exact ⟨s3, l, s5, e', rfl, k1, k2⟩
  · simp at h

theorem ipfixBody_err_learns {reg : Registry} {s s' : Reader × Templates Spec} {e : PacketErr}
    (h : ipfixBody reg s = (.err e, s')) : ∃ l, Learns s.2 l s'.2 := by
  rcases ipfixBody_err h with h | ⟨s1, l, s2, e', h0, h1, h2⟩
  · exact ⟨[], h ▸ Learns.refl _⟩
  · obtain ⟨l', hl⟩ := set_err ipfix_lawful h2
    exact ⟨_, h0 ▸ Learns.trans (h1.learns ipfix_lawful) hl⟩

/-! ## NetFlow -/

theorem netflow_ok {reg : Registry} {s s' : Reader × Templates ScopeSpec} {p : NetflowPacket}
    (h : NetflowPacket.parse reg s = (.ok p, s')) :
    ∃ s1, s1.2 = s.2 ∧ (∃ w, s.1.buf = w ++ s1.1.buf) ∧ SetsRead reg netflow s1 p.sets s' := by
  unfold NetflowPacket.parse at h
  obtain ⟨_, s1, h1, h⟩ := CParser.bind_eq_ok h
  obtain ⟨_, s2, h2, h⟩ := CParser.bind_eq_ok h
  obtain ⟨cnt, s3, h3, h⟩ := CParser.bind_eq_ok h
  obtain ⟨up, s4, h4, h⟩ := CParser.bind_eq_ok h
  obtain ⟨tm, s5, h5, h⟩ := CParser.bind_eq_ok h
  obtain ⟨sq, s6, h6, h⟩ := CParser.bind_eq_ok h
  obtain ⟨sr, s7, h7, h⟩ := CParser.bind_eq_ok h
  obtain ⟨sets, s8, h8, h⟩ := CParser.bind_eq_ok h
  simp only [CParser.pure_run, Prod.mk.injEq, Res.ok.injEq] at h
  obtain ⟨rfl, rfl⟩ := h
  obtain ⟨a1, b1⟩ := CParser.lift_eq_ok h1
  obtain ⟨a2, b2⟩ := CParser.lift_eq_ok h2
  obtain ⟨a3, b3⟩ := CParser.lift_eq_ok h3
  obtain ⟨a4, b4⟩ := CParser.lift_eq_ok h4
  obtain ⟨a5, b5⟩ := CParser.lift_eq_ok h5
  obtain ⟨a6, b6⟩ := CParser.lift_eq_ok h6
  obtain ⟨a7, b7⟩ := CParser.lift_eq_ok h7
  refine ⟨s7, by rw [b7, b6, b5, b4, b3, b2, b1], ?_, ?_⟩
  · obtain ⟨e7, -⟩ := readU32_eq_ok.mp (mapErr_eq_ok.mp a7)
    obtain ⟨e6, -⟩ := readU32_eq_ok.mp (mapErr_eq_ok.mp a6)
    obtain ⟨x, r1, k1, k⟩ := bind_eq_ok.mp a5
    obtain ⟨-, rfl⟩ := peekU32_eq_ok.mp (mapErr_eq_ok.mp k1)
    obtain ⟨_, r2, k2, k⟩ := bind_eq_ok.mp k
    obtain ⟨-, rfl⟩ := getOffset_eq_ok.mp k2
    obtain ⟨_, r3, k3, k⟩ := bind_eq_ok.mp k
    obtain ⟨-, rfl⟩ := ofOption_eq_ok.mp k3
    obtain ⟨y, r4, k4, k⟩ := bind_eq_ok.mp k
    obtain ⟨-, rfl⟩ := pure_eq_ok.mp k
    obtain ⟨e5, -⟩ := readU32_eq_ok.mp (mapErr_eq_ok.mp k4)
    obtain ⟨e4, -⟩ := readU32_eq_ok.mp (mapErr_eq_ok.mp a4)
    obtain ⟨e3, -⟩ := readU16_eq_ok.mp (mapErr_eq_ok.mp a3)
    obtain ⟨-, e2⟩ := getOffset_eq_ok.mp a2
    obtain ⟨e1, -⟩ := parseVersion_ok a1
    exact ⟨u16be 9 ++ (u16be cnt ++ (u32be up ++ (u32be y ++ (u32be sq ++ u32be sr)))), by
      rw [e1, e2, e3, e4, e5, e6, e7]; simp [List.append_assoc]⟩
  · refine CParser.loop_ok_induction (fun i => by simp)
      (Q := fun _ s l s' => SetsRead reg netflow s l s') (fun _ s hs => .nil) ?_ h8
    intro i s a i' s1 as s2 _ hp _ _ ih
    unfold netflowStep at hp
    obtain ⟨x, s3, hx, hp⟩ := CParser.bind_eq_ok hp
    by_cases hi : i < x.takes
    · rw [if_pos hi] at hp; simp [CParser.fail] at hp
    · rw [if_neg hi] at hp
      simp only [CParser.pure_run, Prod.mk.injEq, Res.ok.injEq] at hp
      obtain ⟨⟨rfl, rfl⟩, rfl⟩ := hp
      exact .cons (CParser.mapErr_eq_ok hx) ih

/-- whatever happens, the templates change only by learning -/
abbrev Teaches {κ ε α : Type} (p : CParser (Templates κ) ε α) : Prop :=
  Keeps (fun m m' : Templates κ => ∃ l, Learns m l m') p

section
variable {κ φ ε α β : Type}
theorem learnsR_refl (m : Templates κ) : ∃ l, Learns m l m := ⟨[], Learns.refl _⟩
theorem learnsR_trans {a b c : Templates κ} : (∃ l, Learns a l b) → (∃ l, Learns b l c) → ∃ l, Learns a l c :=
  fun ⟨_, h1⟩ ⟨_, h2⟩ => ⟨_, Learns.trans h1 h2⟩

theorem teaches_bind {p : CParser (Templates κ) ε α} {f : α → CParser (Templates κ) ε β}
    (hp : Teaches p) (hf : ∀ a, Teaches (f a)) : Teaches (p >>= f) :=
  Keeps.bind (R := fun m m' : Templates κ => ∃ l, Learns m l m') learnsR_trans hp hf
theorem teaches_lift (p : Parser ε α) : Teaches (CParser.lift p : CParser (Templates κ) ε α) :=
  keeps_lift (R := fun m m' : Templates κ => ∃ l, Learns m l m') learnsR_refl p
theorem teaches_pure (a : α) : Teaches (pure a : CParser (Templates κ) ε α) :=
  keeps_pure (R := fun m m' : Templates κ => ∃ l, Learns m l m') learnsR_refl a

theorem teaches_mapErr {ε' : Type} {p : CParser (Templates κ) ε α} (f : ε → ε') (hp : Teaches p) : Teaches (CParser.mapErr f p) :=
  Keeps.mapErr (R := fun m m' : Templates κ => ∃ l, Learns m l m') f hp

theorem teaches_set {d : Dialect κ φ} {P : List κ × List Spec → DataRecord φ → Bytes → Prop}
    {size : List κ × List Spec → Nat} (hd : d.Lawful P size) (hs : d.Sound) (reg : Registry) :
    Teaches (FlowSet.parse reg d) := by
  intro s
  rcases h : FlowSet.parse reg d s with ⟨x | e | x, s'⟩
  · exact ⟨_, (set_ok hd h).1⟩
  · exact set_err hd h
  · have := (csafe_set reg hs).noFault s
    rw [h] at this
    simp [Res.isFault] at this
end

theorem teaches_netflow (reg : Registry) : Teaches (NetflowPacket.parse reg) := by
  unfold NetflowPacket.parse
  refine teaches_bind (teaches_lift _) fun _ => teaches_bind (teaches_lift _) fun _ => teaches_bind (teaches_lift _) fun _ =>
    teaches_bind (teaches_lift _) fun _ => teaches_bind (teaches_lift _) fun _ => teaches_bind (teaches_lift _) fun _ =>
    teaches_bind (teaches_lift _) fun _ => teaches_bind ?_ fun _ => teaches_pure _
  refine CParser.keeps_loop (R := fun m m' : Templates ScopeSpec => ∃ l, Learns m l m') learnsR_refl learnsR_trans (fun i => ?_) _
  unfold netflowStep
  refine teaches_bind (teaches_mapErr _ (teaches_set netflow_lawful netflow_sound reg)) fun _ => Keeps.ite (fun _ => ?_) fun _ => teaches_pure _
  intro s
  exact learnsR_refl _

/-! ## The codec -/

theorem two_octets {b : Bytes} (h : 2 ≤ b.length) : b = u16be (u16of (b.take 2)) ++ b.drop 2 := by
  rw [u16be_u16of (by rw [List.length_take]; omega), List.take_append_drop]

theorem header_fields (v len : UInt16) (rest : Bytes) :
    u16of ((u16be v ++ (u16be len ++ rest)).take 2) = v ∧
      u16of (((u16be v ++ (u16be len ++ rest)).drop 2).take 2) = len := by
  constructor
  · show u16of (u16be v) = v
    exact u16of_u16be v
  · show u16of (u16be len) = len
    exact u16of_u16be len

/-- what the codec does with a complete IPFIX message -/
theorem decode_ipfix (reg : Registry) (c : FlowCodec) {len : UInt16} {body : Bytes} (rest : Bytes)
    (h16 : 16 ≤ len.toNat) (hl : body.length + 4 = len.toNat) :
    FlowCodec.decode reg c (u16be 10 ++ (u16be len ++ (body ++ rest))) =
      (.out (((ipfixBody reg (⟨body, 4⟩, c.ipfix)).1.map .ipfix).mapErr .ipfix),
        { c with ipfix := (ipfixBody reg (⟨body, 4⟩, c.ipfix)).2.2 }, rest) := by
  have hlen : (u16be 10 ++ (u16be len ++ (body ++ rest))).length = len.toNat + rest.length := by
    simp [u16be]; omega
  have hdrop : (u16be 10 ++ (u16be len ++ (body ++ rest))).drop len.toNat = rest := by
    rw [← List.append_assoc, ← List.append_assoc]
    refine List.drop_left' ?_
    simp [u16be]; omega
  obtain ⟨k1, k2⟩ := header_fields 10 len (body ++ rest)
  unfold FlowCodec.decode
  simp only
  rw [k1, k2, hlen, if_neg (by omega), if_neg (by omega), if_pos rfl]
  have he := ipfix_eq reg (len := len) (body := body) rest 0 c.ipfix h16 hl
  unfold parseIpfix Reader.new
  rw [he]
  rw [Nat.zero_add 4, Nat.zero_add]
  have hn : (ipfixBody reg (⟨body, 4⟩, c.ipfix)).1.isFault = false := (csafe_ipfixBody reg).noFault _
  rcases hb : ipfixBody reg (⟨body, 4⟩, c.ipfix) with ⟨x | e | x, ⟨r1, m1⟩⟩
  · simp only [Res.map, Res.mapErr, hdrop]
  · simp only [Res.map, Res.mapErr, if_neg (show ¬ len.toNat < 5 by omega), hdrop]
  · rw [hb] at hn; simp [Res.isFault] at hn

/-- what the codec does with a message that claims to be shorter than a header -/
theorem decode_ipfix_short (reg : Registry) (c : FlowCodec) {len : UInt16} (rest : Bytes)
    (h16 : len.toNat < 16) (hl : 12 ≤ rest.length) :
    FlowCodec.decode reg c (u16be 10 ++ (u16be len ++ rest)) =
      (.out (.err (.ipfix (.invalidLength 2 len))), c, (u16be 10 ++ (u16be len ++ rest)).drop (max 5 len.toNat)) := by
  have hlen : (u16be 10 ++ (u16be len ++ rest)).length = 4 + rest.length := by
    simp [u16be]; omega
  obtain ⟨k1, k2⟩ := header_fields 10 len rest
  unfold FlowCodec.decode
  simp only
  rw [k1, k2, hlen, if_neg (by omega), if_neg (by omega), if_pos rfl]
  unfold parseIpfix Reader.new
  rw [ipfix_short reg rest 0 c.ipfix h16]
  simp only [Nat.zero_add]
  have : (if len.toNat < 5 then 5 else len.toNat) = max 5 len.toNat := by split <;> omega
  rw [this]

/-- every buffer for which `decode` does something, by version -/
theorem decode_buffer {reg : Registry} {c c' : FlowCodec} {b b' : Bytes} {x : Res FlowErr FlowInfo}
    (h : FlowCodec.decode reg c b = (.out x, c', b')) :
    ∃ v len rest, b = u16be v ++ (u16be len ++ rest) ∧ 12 ≤ rest.length ∧ len.toNat ≤ rest.length + 4 := by
  unfold FlowCodec.decode at h
  simp only at h
  by_cases h1 : b.length < 16
  · rw [if_pos h1] at h; simp at h
  rw [if_neg h1] at h
  by_cases h2 : b.length < (u16of ((b.drop 2).take 2)).toNat
  · rw [if_pos h2] at h; simp at h
  have e1 := two_octets (b := b) (by omega)
  have e2 := two_octets (b := b.drop 2) (by rw [List.length_drop]; omega)
  refine ⟨_, _, _, e1.trans (congrArg _ e2), ?_, ?_⟩
  · rw [List.length_drop, List.length_drop]; omega
  · rw [List.length_drop, List.length_drop]; omega

theorem decode_wait {reg : Registry} {c c' : FlowCodec} {b b' : Bytes}
    (h : FlowCodec.decode reg c b = (.wait, c', b')) : c' = c ∧ b' = b := by
  unfold FlowCodec.decode at h
  simp only at h
  by_cases h1 : b.length < 16
  · rw [if_pos h1] at h; simp at h; exact ⟨h.1.symm, h.2.symm⟩
  rw [if_neg h1] at h
  by_cases h2 : b.length < (u16of ((b.drop 2).take 2)).toNat
  · rw [if_pos h2] at h; simp at h; exact ⟨h.1.symm, h.2.symm⟩
  rw [if_neg h2] at h
  split at h
  · simp at h
  · split at h <;> simp at h

/-- a NetFlow packet and what the codec does with it -/
theorem decode_netflow (reg : Registry) (c : FlowCodec) {len : UInt16} {rest : Bytes} (h12 : 12 ≤ rest.length)
    (hl : len.toNat ≤ rest.length + 4) :
    FlowCodec.decode reg c (u16be 9 ++ (u16be len ++ rest)) =
      (.out (((NetflowPacket.parse reg (.new (u16be 9 ++ (u16be len ++ rest)), c.netflow)).1.map .netflow).mapErr .netflow),
        { c with netflow := (NetflowPacket.parse reg (.new (u16be 9 ++ (u16be len ++ rest)), c.netflow)).2.2 },
        if (NetflowPacket.parse reg (.new (u16be 9 ++ (u16be len ++ rest)), c.netflow)).1.isOk then
          (NetflowPacket.parse reg (.new (u16be 9 ++ (u16be len ++ rest)), c.netflow)).2.1.buf else []) := by
  have hlen : (u16be 9 ++ (u16be len ++ rest)).length = 4 + rest.length := by
    simp [u16be]; omega
  obtain ⟨k1, k2⟩ := header_fields 9 len rest
  have hs := csafe_netflow reg
  unfold FlowCodec.decode
  simp only
  rw [k1, k2, hlen, if_neg (by omega), if_neg (by omega), if_neg (by decide), if_pos rfl]
  generalize u16be 9 ++ (u16be len ++ rest) = b
  have hn := hs.noFault (.new b, c.netflow)
  have hadv := hs.out (.new b) c.netflow
  unfold parseNetflow
  rcases hb : NetflowPacket.parse reg (.new b, c.netflow) with ⟨x | e | x, ⟨r1, m1⟩⟩
  · rw [hb] at hadv
    obtain ⟨n, -, -, rfl⟩ := hadv
    simp [Res.map, Res.mapErr, Res.isOk, Reader.new]
  · simp [Res.map, Res.mapErr, Res.isOk]
  · rw [hb] at hn; simp [Res.isFault] at hn

/-- another version -/
theorem decode_other (reg : Registry) (c : FlowCodec) {v len : UInt16} {rest : Bytes} (h12 : 12 ≤ rest.length)
    (hl : len.toNat ≤ rest.length + 4) (h10 : v ≠ 10) (h9 : v ≠ 9) :
    FlowCodec.decode reg c (u16be v ++ (u16be len ++ rest)) = (.out (.err (.unsupportedVersion v)), c, []) := by
  have hlen : (u16be v ++ (u16be len ++ rest)).length = 4 + rest.length := by
    simp [u16be]; omega
  obtain ⟨k1, k2⟩ := header_fields v len rest
  unfold FlowCodec.decode
  simp only
  rw [k1, k2, hlen, if_neg (by omega), if_neg (by omega), if_neg h10, if_neg h9]


/-! ## Messages set by set -/

theorem lift_reads {σ ε α : Type} {p : Parser ε α} {a : α} {w : Bytes} (h : Reads p a w) (rest : Bytes) (o : Nat) (m : σ) :
    (CParser.lift p : CParser σ ε α) (⟨w ++ rest, o⟩, m) = (.ok a, (⟨rest, o + w.length⟩, m)) := by
  unfold CParser.lift
  rw [h.run]

theorem lift_getOffset {σ ε : Type} (r : Reader) (m : σ) :
    (CParser.lift getOffset : CParser σ ε Nat) (r, m) = (.ok r.offset, (r, m)) := rfl

theorem reads_time (t : UInt32) : Reads parseTime ⟨t.toNat, 0⟩ (u32be t) := by
  unfold parseTime
  have hr : Reads (do
      let off ← getOffset
      let a ← ofOption (.invalidTime off t) (Time.make t.toNat 0)
      let _ ← mapErr .parse readU32
      pure a : Parser PacketErr Time) ⟨t.toNat, 0⟩ (u32be t ++ []) := by
    rw [List.append_nil]
    refine Reads.getOffset fun o => Reads.bind_nil (Reads.ofOption ?_) (((reads_u32 t).mapErr _).bind_last (Reads.pure _))
    have := t.toNat_lt
    unfold Time.make
    rw [if_pos ⟨by omega, by omega, .inl (by decide)⟩]
  have := Reads.peekU32 (g := PacketErr.parse) (f := fun s => do
      let off ← getOffset
      let a ← ofOption (.invalidTime off s) (Time.make s.toNat 0)
      let _ ← mapErr .parse readU32
      pure a) hr
  rwa [List.append_nil] at this

theorem SetsRead.append {κ φ : Type} {reg : Registry} {d : Dialect κ φ} {s s1 s2 : Reader × Templates κ} {l l' : List (FlowSet κ φ)}
    (h : SetsRead reg d s l s1) (h' : SetsRead reg d s1 l' s2) : SetsRead reg d s (l ++ l') s2 := by
  induction h with
  | nil => exact h'
  | cons h _ ih => exact .cons h (ih h')

theorem SetsRead.length {κ φ : Type} {reg : Registry} {d : Dialect κ φ} (hd : d.Sound) {s s1 : Reader × Templates κ}
    {x : FlowSet κ φ} (h : FlowSet.parse reg d s = (.ok x, s1)) : s1.1.buf.length + 4 ≤ s.1.buf.length := by
  have := (csafe_set reg hd).out s.1 s.2
  rw [h] at this
  have := Adv.length this
  omega

/-- the sets of a message one after the other, all of it -/
theorem rows_sets {reg : Registry} {s s1 : Reader × Templates Spec} {l : List (FlowSet Spec Field)}
    (h : SetsRead reg ipfix s l s1) :
    CParser.rows 1 (CParser.mapErr PacketErr.set (FlowSet.parse reg ipfix)) s =
      match CParser.rows 1 (CParser.mapErr PacketErr.set (FlowSet.parse reg ipfix)) s1 with
      | (.ok l', s2) => (.ok (l ++ l'), s2)
      | (.err e, s2) => (.err e, s2)
      | (.fault x, s2) => (.fault x, s2) := by
  induction h with
  | @nil s => rcases CParser.rows 1 (CParser.mapErr PacketErr.set (FlowSet.parse reg ipfix)) s with ⟨_ | _ | _, _⟩ <;> rfl
  | @cons s x s1 l s2 h _ ih =>
    have hl := SetsRead.length ipfix_sound h
    rw [CParser.rows_cons (by omega) (by omega) (s' := s1) (a := x) (by rw [CParser.mapErr_run, h]; rfl) (by omega), ih]
    rcases CParser.rows 1 (CParser.mapErr PacketErr.set (FlowSet.parse reg ipfix)) s2 with ⟨_ | _ | _, _⟩ <;> rfl

/-- the body of a message is its header and its sets -/
theorem ipfixBody_eq (reg : Registry) (t q dm : UInt32) (w : Bytes) (o : Nat) (m : Templates Spec) :
    ipfixBody reg (⟨u32be t ++ (u32be q ++ (u32be dm ++ w)), o⟩, m) =
      match CParser.rows 1 (CParser.mapErr PacketErr.set (FlowSet.parse reg ipfix)) (⟨w, o + 12⟩, m) with
      | (.ok l, s) => (.ok ⟨⟨t.toNat, 0⟩, q, dm, l⟩, s)
      | (.err e, s) => (.err e, s)
      | (.fault x, s) => (.fault x, s) := by
  unfold ipfixBody
  rw [CParser.bind_ok (lift_reads (reads_time t) _ _ _), CParser.bind_ok (lift_reads ((reads_u32 q).mapErr _) _ _ _),
    CParser.bind_ok (lift_reads ((reads_u32 dm).mapErr _) _ _ _)]
  have : o + (u32be t).length + (u32be q).length + (u32be dm).length = o + 12 := by simp [u32be]
  rw [this]
  simp only [Bind.bind, CParser.bind]
  rcases CParser.rows 1 (CParser.mapErr PacketErr.set (FlowSet.parse reg ipfix)) (⟨w, o + 12⟩, m) with ⟨_ | _ | _, _⟩ <;> rfl

end Verif.Flow
