import Verif.Bmp.ExactLemmas
import Verif.Bmp.SafeLemmas
import Verif.Props.BmpPeers
/-!
# C68 to C74: BMP messages
-/
namespace Verif.Props
open Verif Verif.Bmp Verif.Bgp

/-! ## C68 -/

/-- the settings with which a codec reads a message: those of the peer in its header, with the size of AS numbers that
the header says -/
def settingsFor (s : Bmp.Codec) (m : BmpMsg) : AttrCtx :=
  match m.peer with
  | some h => { (s.peers.at h.key).ctx.attr with asn4 := h.type.asn4 }
  | none => defaultCtx.attr

/-- **C68 (messages that have a place on the wire).** A message whose parts fit the fields they are written to is
written to as many octets as its length says, also in its common header, and a codec that has the settings of the peer
reads the same message back, whatever follows. What is missing: a time of 1970-01-01, the addresses 0.0.0.0 and :: and the
route distinguisher 0:0 (`c68_absent_disproved`), and raw octets in route mirroring (`c68_raw_disproved`). -/
theorem c68_partial (ord : Nat → Order) (s : Bmp.Codec) (m : BmpMsg) (hw : m.WF (settingsFor s m)) :
    ∃ b, m.write = .ok b ∧ b.length = m.len ∧ bmpLength b = b.length ∧
      ∀ rest, (Bmp.Codec.decode ord s (b ++ rest)).1 = .out (.ok m) ∧ (Bmp.Codec.decode ord s (b ++ rest)).2.2 = rest := by
  have hat : At (settingsFor s m) m.peer s.peers := by
    rintro p hp
    unfold settingsFor
    rw [hp]
    rfl
  have hl := BmpMsg.length_rest hw
  have hbl : m.bytes.length = m.len := by
    unfold BmpMsg.bytes; simp; omega
  have hlen : ∀ rest, bmpLength (m.bytes ++ rest) = m.len := by
    intro rest
    rw [← bmp_declared_eq (by simp; omega)]
    have : Bmp.declared (m.bytes ++ rest) = UInt32.ofNat m.len := by
      unfold Bmp.declared BmpMsg.bytes
      rw [List.cons_append, List.drop_one, List.tail_cons, List.append_assoc, List.take_append_of_le_length (by simp),
        List.take_of_length_le (by simp), u32of_u32be]
    rw [this, UInt32.toNat_ofNat_of_lt' hw.1]
  refine ⟨m.bytes, BmpMsg.write_eq hw, hbl, by have := hlen []; rw [List.append_nil] at this; rw [this, hbl], fun rest => ?_⟩
  have hfr := fun ord => frame_reads (ord := ord) hw hat
  have hd : (Bmp.declared (m.bytes ++ rest)).toNat = m.len := by
    rw [bmp_declared_eq (by simp; omega), hlen]
  have hh : (m.bytes ++ rest).head? = some m.version.code := rfl
  unfold Bmp.Codec.decode
  rw [if_pos (by simp; omega), hh]
  simp only
  rw [show (Version.ofCode m.version.code).isNone = false by cases m <;> rfl, if_neg (by simp), if_neg (by simp; omega), hd,
    if_neg (by omega), if_neg (by simp; omega), List.take_append_of_le_length (by omega), List.take_of_length_le (by omega)]
  exact ⟨by simp only [hfr], by simp [← hbl]⟩

/-- messages of both versions that are read back -/
example : ∀ m ∈ [BmpMsg.v3 (.initiation [.text .sysName "r1", .experimental 2 [1]]), .v4 (.termination [.string "bye", .reason ⟨1, by decide⟩]),
      .v4 (.peerDown ⟨peerAt true 7, .localTlv (.text .vrfTableName "red"), [⟨9, [1, 2]⟩]⟩), .v3 (.stats ⟨locAt, [.u32 ⟨1, by decide⟩ 7]⟩),
      .v4 (.routeMonitoring ⟨peerAt false 7, fourNets, [⟨0x8001, .group [1, 2]⟩, ⟨0, .path 2 (some (.unknown 99))⟩]⟩)],
    (Bmp.Codec.decode (fun _ => asIs) .new (octetsOf m ++ [3, 0])).1 = .out (.ok m) ∧ (octetsOf m).length = m.len := by
  decide +kernel
example : BmpMsg.WF (settingsFor .new (.v4 (.termination [.string "bye", .reason ⟨1, by decide⟩]))) (.v4 (.termination [.string "bye", .reason ⟨1, by decide⟩])) := by
  refine ⟨by decide, ?_⟩
  intro i hi
  simp only [List.mem_cons, List.not_mem_nil, or_false] at hi
  rcases hi with rfl | rfl <;> (unfold TermInfo.WF; decide)

/-- **C68 does not hold of values that stand for none.** -/
theorem c68_absent_disproved :
    (∃ h : PeerHeader, h.time = some ⟨0, 0⟩ ∧ (runMsgs .new [(asIs, octetsOf (.v3 (.stats ⟨h, []⟩)))]).1 = [.ok (.v3 (.stats ⟨{ h with time := none }, []⟩))]) ∧
    (∃ h : PeerHeader, h.address = some (.v4 0) ∧ (runMsgs .new [(asIs, octetsOf (.v3 (.stats ⟨h, []⟩)))]).1 = [.ok (.v3 (.stats ⟨{ h with address := none }, []⟩))]) ∧
    (∃ h : PeerHeader, h.rd = some zeroRd ∧ (runMsgs .new [(asIs, octetsOf (.v3 (.stats ⟨h, []⟩)))]).1 = [.ok (.v3 (.stats ⟨{ h with rd := none }, []⟩))]) :=
  ⟨⟨{ peerAt false 7 with time := some ⟨0, 0⟩ }, rfl, by decide +kernel⟩,
   ⟨{ peerAt false 7 with address := some (.v4 0) }, rfl, by decide +kernel⟩,
   ⟨{ peerAt false 7 with rd := some zeroRd }, rfl, by decide +kernel⟩⟩

/-- **C68 does not hold of raw octets in route mirroring**, the use of which is to carry what is not a BGP message. -/
theorem c68_raw_disproved : ∃ m : Mirroring, m.values = [.message (.raw [1, 2, 3])] ∧
    (∃ b, BmpMsg.write (.v3 (.mirroring m)) = .ok b) ∧
    ∀ x, (runMsgs .new [(asIs, octetsOf (.v3 (.mirroring m)))]).1 ≠ [.ok x] := by
  refine ⟨⟨peerAt false 7, [.message (.raw [1, 2, 3])]⟩, rfl, ⟨_, rfl⟩, fun x => ?_⟩
  have : (runMsgs .new [(asIs, octetsOf (.v3 (.mirroring ⟨peerAt false 7, [.message (.raw [1, 2, 3])]⟩)))]).1.all (fun
      | .ok _ => false | _ => true) = true := by decide +kernel
  intro h
  rw [h] at this
  simp at this

/-! ## C69 -/

/-- the peers after a message have few labels if those before had, and the message does not ask for more -/
theorem updateMsg_lim {g : Peers} (hg : PeersLim g) (ord : Order) {m : BmpMsg}
    (h : ∀ u, BmpMsg.up? m = some u → ∀ s r, u.sent = .open s → u.received = .open r → ∀ t n, CommonCount s.caps r.caps t n → FewLabels ⟨t, n⟩) :
    PeersLim (g.updateMsg ord m) := by
  have ins : ∀ {g : Peers} (k : PeerKey) (f : AttrCtx → AttrCtx), PeersLim g → (∀ c : AttrCtx, c.LimOk → (f c).LimOk) →
      PeersLim (g.insert k ((g.at k).mapAttr f)) := by
    intro g k f hg hf k'
    by_cases e : k' = k
    · subst e; rw [Peers.at_insert_self]; exact hf _ (hg _)
    · rw [Peers.at_insert_ne _ e]; exact hg _
  have dflt : PeerLim PeerCtx.default := by unfold PeerLim AttrCtx.LimOk; decide
  have go : ∀ {R D : Type} (down : D → PeerHeader) (v : Value R D),
      (∀ u, upIn v = some u → ∀ s r, u.sent = .open s → u.received = .open r → ∀ t n, CommonCount s.caps r.caps t n → FewLabels ⟨t, n⟩) →
      PeersLim (g.update ord down v) := by
    intro R D down v hv
    cases v with
    | peerDown d =>
      intro k
      show PeerLim (Peers.at (g.erase _) k)
      by_cases e : k = (down d).key
      · subst e; rw [Peers.at_erase_self]; exact dflt
      · rw [Peers.at_erase_ne _ e]; exact hg k
    | termination l => intro k; exact dflt
    | peerUp u =>
      show PeersLim (g.peerUp ord u)
      unfold Peers.peerUp
      split
      · rename_i s r hs hr
        have hls : ∀ e ∈ ord.run (commonLabels (labelsOf s.caps) (labelsOf r.caps)), FewLabels e := by
          intro e he
          rw [(ord.perm _).mem_iff, labelsOf_eq, labelsOf_eq] at he
          refine hv u rfl s r hs hr e.family e.count ?_
          simpa [commonLabels, CommonCount] using he
        have hl : ∀ c : AttrCtx, c.LimOk → (learn u.header.type.adjRibOut s.caps r.caps (ord.run (commonLabels (labelsOf s.caps) (labelsOf r.caps))) c).LimOk :=
          fun c hc => update_labels_lim (by exact hc) hls _
        have hcl : ∀ c : AttrCtx, (AttrCtx.clear c).LimOk := fun c => by
          unfold AttrCtx.LimOk AttrCtx.clear AttrCtx.lim; simp
        unfold Peers.up
        simp only
        split
        · exact ins _ _ hg hl
        · exact ins _ _ (ins _ _ hg fun c _ => hl _ (hcl c)) hl
      · exact hg
    | _ => exact hg
  cases m with
  | v3 v => exact go _ v h
  | v4 v => exact go _ v h

/-- **C69 (few labels).** From a new codec on, no message, of whatever octets, makes the parser panic or loop, as long as
no Peer Up agrees on, and no version 4 message contains a capability with, more than seven labels for VPN routes or more
than ten for labelled routes. What is missing: `c69_negotiated_disproved`, `c69_stateless_disproved`. -/
theorem c69_partial (fs : List (Order × Bytes)) (h4 : ∀ f ∈ fs, f.2.head? = some 4 → FewLabelsIn f.2)
    (hup : ∀ m, Res.ok m ∈ (runMsgs .new fs).1 → ∀ u, BmpMsg.up? m = some u → ∀ s r, u.sent = .open s → u.received = .open r →
      ∀ t n, CommonCount s.caps r.caps t n → FewLabels ⟨t, n⟩) :
    ∀ x, Res.fault x ∉ (runMsgs .new fs).1 := by
  have h0 : PeersLim Bmp.Codec.new.peers := fun k => by
    show PeerLim PeerCtx.default; unfold PeerLim AttrCtx.LimOk; decide
  generalize Bmp.Codec.new = s at hup h0 ⊢
  intro x
  induction fs generalizing s with
  | nil => simp [runMsgs]
  | cons f fs ih =>
    simp only [runMsgs, List.mem_cons] at hup ⊢
    obtain ⟨h1, h2⟩ := cinvB_bmp (h4 f List.mem_cons_self) s.peers h0
    have hlim : PeersLim (s.frame f.1 f.2).2.peers := by
      have hu := hup
      unfold Bmp.Codec.frame at hu ⊢
      revert h2 hu
      rcases parseBmp (⟨f.2, 0⟩, s.peers) with ⟨m | e | x, r, g⟩ <;> intro h2 hu
      · exact updateMsg_lim h2 _ (hu m (.inl rfl))
      · exact h2
      · exact h2
    rintro (e | e)
    · rw [frame_res] at e
      revert h1 e
      unfold CParser.COut
      rcases parseBmp (⟨f.2, 0⟩, s.peers) with ⟨m | e | x, r, g⟩ <;> intro h1 e
      · simp at e
      · simp at e
      · exact h1
    · exact ih (fun f hf => h4 f (List.mem_cons_of_mem _ hf)) _ (fun m hm => hup m (.inr hm)) hlim e

/-- a MP_UNREACH_NLRI attribute with a VPN route of eight labels -/
def eightLabels : Bytes := [0x90, 15, 1, 3, 0, 1, 128] ++ (255 :: ((List.replicate 7 [0, 1, 0]).flatten ++ [0, 1, 1] ++ List.replicate 231 0))
/-- an UPDATE with it -/
def eightMsg : Bytes := List.replicate 16 255 ++ (u16be 286 ++ ([2, 0, 0] ++ (u16be 263 ++ eightLabels)))
/-- an OPEN from the octets of its capabilities -/
def openOctets (id : UInt32) (caps : Bytes) : Bytes :=
  List.replicate 16 255 ++ (u16be (UInt16.ofNat (31 + caps.length)) ++ ([1, 4, 0, 1, 0, 180] ++ (u32be id ++
    ([UInt8.ofNat (2 + caps.length), 2, UInt8.ofNat caps.length] ++ caps))))
/-- the octets of a Peer Up with these capabilities on both sides -/
def upOctets (h : PeerHeader) (caps : Bytes) : Bytes :=
  bmpFrame 3 (3 :: (h.write ++ (List.replicate 20 0 ++ (openOctets 0x0a000002 caps ++ openOctets 0x0a000001 caps))))
/-- the capability to receive eight labels; the parser knows no length octet in it -/
def manyLabels : Cap := .multipleLabels [⟨.ipv4MplsLabeledVpn, 8⟩]

/-- **C69 does not hold of what Peer Ups agree on**: a Peer Up of version 3 and a route monitoring message. -/
theorem c69_negotiated_disproved : ∃ f g : Bytes,
    (runMsgs .new [(asIs, f)]).1 = [.ok (.v3 (.peerUp (upWith (peerAt false 0x0a000001) [manyLabels] [manyLabels])))] ∧
    Res.fault .panic ∈ (runMsgs .new [(asIs, f), (asIs, g)]).1 :=
  ⟨upOctets (peerAt false 0x0a000001) [8, 0, 1, 128, 8], bmpFrame 3 (0 :: ((peerAt false 0x0a000001).write ++ eightMsg)),
    by decide +kernel, by decide +kernel⟩

/-- **C69 does not hold of the capabilities in a route monitoring message of version 4**: one message is enough. -/
theorem c69_stateless_disproved : ∃ f : Bytes, (runMsgs .new [(asIs, f)]).1 = [.fault .panic] :=
  ⟨bmpFrame 4 (0 :: ((peerAt false 7).write ++ ([0, 1, 0, 5, 0, 0, 8, 0, 1, 128, 8] ++ ([0, 4] ++ (u16be 286 ++ ([0, 0] ++ eightMsg)))))),
    by decide +kernel⟩

/-- octets that are nothing, a Peer Up and the same route without that it is negotiated -/
example : (runMsgs .new [(asIs, [3, 0, 0, 0, 9]), (asIs, octetsOf (.v3 (.peerUp (upWith (peerAt false 0x0a000001) (pathsCap true true) [])))),
    (asIs, bmpFrame 3 (0 :: ((peerAt false 0x0a000001).write ++ eightMsg)))]).1.map Res.isFault = [false, false, false] := by decide +kernel

/-! ## C70 -/

/-- the same frames, with orders that need not be the same -/
abbrev Frame2 := Order × Order × Version × Bytes

theorem labels_order {loc rem : List Cap} (ord ord' : Order) (hu : ∀ t n n', CommonCount loc rem t n → CommonCount loc rem t n' → n' = n)
    (out : Bool) (c : AttrCtx) :
    learn out loc rem (ord.run (commonLabels (labelsOf loc) (labelsOf rem))) c =
    { learn out loc rem (ord'.run (commonLabels (labelsOf loc) (labelsOf rem))) c with
      asn4 := (learn out loc rem (ord.run (commonLabels (labelsOf loc) (labelsOf rem))) c).asn4 } := by
  have hmem : ∀ (ord : Order) t n, (⟨t, n⟩ : MultipleLabel) ∈ ord.run (commonLabels (labelsOf loc) (labelsOf rem)) ↔ CommonCount loc rem t n := by
    intro ord t n
    rw [(ord.perm _).mem_iff, labelsOf_eq, labelsOf_eq]
    simp [commonLabels, CommonCount]
  have h1 := hmem ord
  have h2 := hmem ord'
  generalize ord.run (commonLabels (labelsOf loc) (labelsOf rem)) = ls at h1 ⊢
  generalize ord'.run (commonLabels (labelsOf loc) (labelsOf rem)) = ls' at h2 ⊢
  have e1 : (learn out loc rem ls c).addPath = (learn out loc rem ls' c).addPath := by
    funext t; rw [learn_addPath, learn_addPath]
  have e2 : (learn out loc rem ls c).labels = (learn out loc rem ls' c).labels := by
    funext t
    rw [learn_labels, learn_labels]
    have last : ∀ l : List MultipleLabel, (∀ t n, (⟨t, n⟩ : MultipleLabel) ∈ l ↔ CommonCount loc rem t n) →
        ∀ f, (l.filter (·.family = t)).getLast? = some f → CommonCount loc rem t f.count := by
      intro l hl f hf
      have hm := List.mem_of_getLast? hf
      simp only [List.mem_filter, decide_eq_true_eq] at hm
      have := (hl f.family f.count).1 hm.1
      rwa [hm.2] at this
    have ex : ∀ l : List MultipleLabel, (∀ t n, (⟨t, n⟩ : MultipleLabel) ∈ l ↔ CommonCount loc rem t n) →
        (l.filter (·.family = t)).getLast? = none → ∀ n, ¬ CommonCount loc rem t n := by
      intro l hl hn n hc
      have hx : (⟨t, n⟩ : MultipleLabel) ∈ l.filter (·.family = t) := by simp [hl, hc]
      rw [List.getLast?_eq_none_iff.1 hn] at hx; simp at hx
    cases ha : (ls.filter (·.family = t)).getLast? with
    | none =>
      cases hb : (ls'.filter (·.family = t)).getLast? with
      | none => rfl
      | some f' => exact absurd (last _ h2 _ hb) (ex _ h1 ha _)
    | some f =>
      cases hb : (ls'.filter (·.family = t)).getLast? with
      | none => exact absurd (last _ h1 _ ha) (ex _ h2 hb _)
      | some f' => simp only [hu t f'.count f.count (last _ h2 _ hb) (last _ h1 _ ha)]
  generalize learn out loc rem ls c = x at e1 e2 ⊢
  generalize learn out loc rem ls' c = y at e1 e2 ⊢
  cases x; cases y; simp only at e1 e2; subst e1 e2; rfl

theorem updateMsg_order {g g' : Peers} (h : g.Same g') (ord ord' : Order) {m : BmpMsg}
    (hu : ∀ u, BmpMsg.up? m = some u → ∀ s r, u.sent = .open s → u.received = .open r →
      ∀ t n n', CommonCount s.caps r.caps t n → CommonCount s.caps r.caps t n' → n' = n) :
    Peers.Same (g.updateMsg ord m) (g'.updateMsg ord' m) := by
  intro k
  refine SameAt.trans (updateMsg_sameAt (h k) ord m) ?_
  clear h
  have ins : ∀ {g g' : Peers} {f f' : AttrCtx → AttrCtx} (k' : PeerKey), (∀ k, SameAt k g g') →
      (∀ (a : AttrCtx) (b : Bool), ∃ b', f { a with asn4 := b } = { f a with asn4 := b' }) →
      (∀ a : AttrCtx, ∃ b, f a = { f' a with asn4 := b }) →
      ∀ k, SameAt k (g.insert k' ((g.at k').mapAttr f)) (g'.insert k' ((g'.at k').mapAttr f')) := by
    intro g g' f f' k' h hf hff k
    unfold SameAt
    by_cases e : k = k'
    · subst e; rw [Peers.at_insert_self, Peers.at_insert_self]
      refine (mapAttr_same (h k) hf).trans ?_
      obtain ⟨b, hb⟩ := hff (g'.at k).ctx.attr
      refine PeerCtx.Same.symm ⟨b, ?_⟩
      unfold PeerCtx.mapAttr
      simp only [hb]
      rfl
    · rw [Peers.at_insert_ne _ e, Peers.at_insert_ne _ e]; exact h k
  have go : ∀ {R D : Type} (down : D → PeerHeader) (v : Value R D),
      (∀ u, upIn v = some u → ∀ s r, u.sent = .open s → u.received = .open r →
        ∀ t n n', CommonCount s.caps r.caps t n → CommonCount s.caps r.caps t n' → n' = n) →
      ∀ k, SameAt k (g'.update ord down v) (g'.update ord' down v) := by
    intro R D down v hv k
    cases v with
    | peerUp u =>
      show SameAt k (g'.peerUp ord u) (g'.peerUp ord' u)
      unfold Peers.peerUp
      split
      · rename_i s r hs hr
        have hl := learn_asn4 u.header.type.adjRibOut s.caps r.caps (ord.run (commonLabels (labelsOf s.caps) (labelsOf r.caps)))
        have ho := fun c => labels_order ord ord' (hv u rfl s r hs hr) u.header.type.adjRibOut c
        unfold Peers.up
        simp only
        split
        · exact ins _ (fun k => SameAt.refl _ _) hl (fun a => ⟨_, ho a⟩) k
        · refine ins _ (ins _ (fun k => SameAt.refl _ _) (fun a b => ?_) (fun a => ⟨_, ho _⟩)) hl (fun a => ⟨_, ho a⟩) k
          exact hl (AttrCtx.clear a) b
      · exact SameAt.refl _ _
    | _ => exact SameAt.refl _ _
  cases m with
  | v3 v => exact go _ v hu k
  | v4 v => exact go _ v hu k

/-- **C70 (one number of labels for a family).** What comes out does not depend on the order in which hash sets are
iterated, as long as no Peer Up has two numbers of labels for one family on both sides. What is missing:
`c70_disproved`. -/
theorem c70_partial (s : Bmp.Codec) (fs : List Frame2) (hok : ∀ f ∈ fs, 5 + f.2.2.2.length < 4294967296)
    (hu : ∀ m, Res.ok m ∈ (runMsgs s (fs.map fun f => (f.1, bmpFrame f.2.2.1.code f.2.2.2))).1 →
      ∀ u, BmpMsg.up? m = some u → ∀ o r, u.sent = .open o → u.received = .open r →
        ∀ t n n', CommonCount o.caps r.caps t n → CommonCount o.caps r.caps t n' → n' = n) :
    (runMsgs s (fs.map fun f => (f.1, bmpFrame f.2.2.1.code f.2.2.2))).1 =
    (runMsgs s (fs.map fun f => (f.2.1, bmpFrame f.2.2.1.code f.2.2.2))).1 := by
  suffices ∀ s s' : Bmp.Codec, s.peers.Same s'.peers → ∀ _ : (∀ m, Res.ok m ∈ (runMsgs s (fs.map fun f => (f.1, bmpFrame f.2.2.1.code f.2.2.2))).1 →
      ∀ u, BmpMsg.up? m = some u → ∀ o r, u.sent = .open o → u.received = .open r →
        ∀ t n n', CommonCount o.caps r.caps t n → CommonCount o.caps r.caps t n' → n' = n),
      (runMsgs s (fs.map fun f => (f.1, bmpFrame f.2.2.1.code f.2.2.2))).1 =
      (runMsgs s' (fs.map fun f => (f.2.1, bmpFrame f.2.2.1.code f.2.2.2))).1 from this s s (Peers.Same.refl _) hu
  clear hu s
  induction fs with
  | nil => intros; rfl
  | cons f fs ih =>
    intro s s' h hu
    have he := frame_agree (f := (f.1, f.2.2)) (s := s) (s' := s') (hok f List.mem_cons_self) (fun x _ => h x.key) f.1
    have hres : ∀ (z : Bmp.Codec) (o o' : Order) (b : Bytes), (z.frame o b).1 = (z.frame o' b).1 := fun z o o' b => by
      rw [frame_res, frame_res]
    simp only [List.map_cons, runMsgs, List.mem_cons] at hu ⊢
    rw [show bmpFrame f.2.2.1.code f.2.2.2 = frameOf f.2.2.1 f.2.2.2 from rfl] at hu ⊢
    have he' : (s.frame f.1 (frameOf f.2.2.1 f.2.2.2)).1 = (s'.frame f.2.1 (frameOf f.2.2.1 f.2.2.2)).1 := he.trans (hres _ _ _ _)
    rw [he']
    congr 1
    refine ih (fun f hf => hok f (List.mem_cons_of_mem _ hf)) _ _ ?_ fun m hm => hu m (.inr hm)
    obtain ⟨g, hg, h1, h2⟩ := frame_peers f.1 s (frameOf f.2.2.1 f.2.2.2)
    obtain ⟨g', hg', h1', h2'⟩ := frame_peers f.2.1 s' (frameOf f.2.2.1 f.2.2.2)
    have hgg : g.Same g' := fun k => (SameAt.trans (SameAt.symm (hg k)) (h k)).trans (hg' k)
    by_cases hm : ∃ m, (s.frame f.1 (frameOf f.2.2.1 f.2.2.2)).1 = .ok m
    · obtain ⟨m, hm⟩ := hm
      rw [h1 m hm, h1' m (he' ▸ hm)]
      exact updateMsg_order hgg _ _ (hu m (.inl hm.symm))
    · rw [h2 fun m e => hm ⟨m, e⟩, h2' fun m e => hm ⟨m, by rw [he']; exact e⟩]
      exact hgg

/-- the other way round -/
def reversed : Order := ⟨List.reverse, fun _ => List.reverse_perm _⟩
/-- an UPDATE that withdraws a route with three labels -/
def threeLabels : Bytes :=
  List.replicate 16 255 ++ (u16be 41 ++ ([2, 0, 0] ++ (u16be 18 ++ ([0x90, 15, 0, 14] ++ ([0, 1, 4, 80] ++ [0, 1, 0, 0, 2, 0, 0, 3, 1] ++ [10])))))

/-- an UPDATE that withdraws a labelled route -/
def withdrawal (l : LabeledAddr) : Msg := .update ⟨[], [⟨true, false, false, true, .mpUnreach (.known (.labels4 [l]))⟩], []⟩

/-- **C70 does not hold in general.** The same octets in two runs: in one the route 10.0.0.0/8 is withdrawn, in the other
0.3.1.10/32. -/
theorem c70_disproved : ∃ (f g : Bytes) (m : BmpMsg),
    (runMsgs .new [(asIs, f), (asIs, g)]).1 =
      [.ok m, .ok (monitor (peerAt false 0x0a000001) (withdrawal ⟨none, [[0, 1, 0], [0, 2, 0], [0, 3, 1]], ⟨[10, 0, 0, 0], 8⟩⟩))] ∧
    (runMsgs .new [(reversed, f), (reversed, g)]).1 =
      [.ok m, .ok (monitor (peerAt false 0x0a000001) (withdrawal ⟨none, [[0, 1, 0], [0, 2, 0]], ⟨[0, 3, 1, 10], 32⟩⟩))] := by
  let caps : List Cap := [.multipleLabels [⟨.ipv4NlriMplsLabels, 2⟩, ⟨.ipv4NlriMplsLabels, 3⟩]]
  refine ⟨upOctets (peerAt false 0x0a000001) [8, 0, 1, 4, 2, 0, 1, 4, 3],
    bmpFrame 3 (0 :: ((peerAt false 0x0a000001).write ++ threeLabels)), .v3 (.peerUp (upWith (peerAt false 0x0a000001) caps caps)),
    by decide +kernel, by decide +kernel⟩

/-- one number of labels, in two orders -/
example : let caps : List Cap := [.multipleLabels [⟨.ipv4NlriMplsLabels, 3⟩, ⟨.ipv6NlriMplsLabels, 2⟩]]
    let f := upOctets (peerAt false 0x0a000001) [8, 0, 1, 4, 3, 0, 2, 4, 2]
    let g := bmpFrame 3 (0 :: ((peerAt false 0x0a000001).write ++ threeLabels))
    (runMsgs .new [(asIs, f), (asIs, g)]).1.take 1 = [.ok (.v3 (.peerUp (upWith (peerAt false 0x0a000001) caps caps)))] ∧
    (runMsgs .new [(asIs, f), (asIs, g)]).1 = (runMsgs .new [(reversed, f), (reversed, g)]).1 ∧
    asIs.run (commonLabels (labelsOf caps) (labelsOf caps)) ≠ reversed.run (commonLabels (labelsOf caps) (labelsOf caps)) := by
  decide +kernel

/-! ## C71 -/

/-- **C71.** A message that is not a Peer Up, a Peer Down or a Termination, and octets that are no message at all, leave
no trace: whatever follows is decoded as without them. -/
theorem c71_no_trace (s : Bmp.Codec) (ord : Order) (f : Bytes)
    (h : ∀ m, (s.frame ord f).1 = .ok m → BmpMsg.up? m = none ∧ BmpMsg.down? m = none ∧ BmpMsg.ends m = false)
    (later : List Frame) (hok : ∀ f ∈ later, f.Ok) :
    (runMsgs (s.frame ord f).2 (later.map Frame.octets)).1 = (runMsgs s (later.map Frame.octets)).1 := by
  refine run_same later hok fun k => SameAt.symm (frame_sameAt fun m hm => (?_ : Silent k m).touches)
  obtain ⟨h1, h2, h3⟩ := h m hm
  exact ⟨fun u hu => by rw [h1] at hu; simp at hu, fun h hh => by rw [h2] at hh; simp at hh, h3⟩

/-- a message with capabilities of its own, and one that is cut off -/
example : let a := peerAt false 7
    let x : BmpMsg := .v4 (.routeMonitoring ⟨a, onePath, [⟨0, .stateless (.addPath [⟨.ipv4Unicast, true, true⟩])⟩]⟩)
    (runMsgs .new [(asIs, octetsOf x), (asIs, [3, 0, 0, 0, 9]), (asIs, octetsOf (monitor a fourNets))]).1 =
      [.ok x, .err (.parse (.eof 5 4 0)), .ok (monitor a fourNets)] ∧ BmpMsg.up? x = none ∧ BmpMsg.down? x = none ∧ BmpMsg.ends x = false := by
  decide +kernel

/-! ## C72 -/

theorem frame_value {s : Bmp.Codec} {ord : Order} {v : Version} {b : Bytes} (hb : 5 + b.length < 4294967296) {m : BmpMsg}
    (h : (s.frame ord (bmpFrame v.code b)).1 = .ok m) :
    ∃ s', s'.1.buf = [] ∧ match m with
      | .v3 x => v = .v3 ∧ parseValue parseRm3 parseDown3 (⟨b, 5⟩, s.peers) = (.ok x, s')
      | .v4 x => v = .v4 ∧ parseValue parseRm4 parseDown4 (⟨b, 5⟩, s.peers) = (.ok x, s') := by
  rw [frame_res, show bmpFrame v.code b = frameOf v b from rfl, (parseBmp_frame v b hb s.peers).1] at h
  unfold Bmp.parseBody at h
  revert h
  rcases hv : versionBody v (⟨b, 5⟩, s.peers) with ⟨x | x | x, ⟨r, g⟩⟩ <;> intro h
  · simp only at h
    split at h
    · rename_i hr
      simp only [Res.ok.injEq] at h
      subst h
      cases v
      · obtain ⟨y, s1, h1, h2⟩ := CParser.bind_eq_ok hv
        simp only [CParser.pure_run, Prod.mk.injEq, Res.ok.injEq] at h2
        obtain ⟨rfl, rfl⟩ := h2
        exact ⟨_, hr, rfl, CParser.mapErr_eq_ok h1⟩
      · obtain ⟨y, s1, h1, h2⟩ := CParser.bind_eq_ok hv
        simp only [CParser.pure_run, Prod.mk.injEq, Res.ok.injEq] at h2
        obtain ⟨rfl, rfl⟩ := h2
        exact ⟨_, hr, rfl, CParser.mapErr_eq_ok h1⟩
    · simp at h
  · simp at h
  · simp at h

/-- the messages without a peer -/
def isGlobal {R D : Type} : Value R D → Bool
  | .initiation _ => true
  | .termination _ => true
  | .experimental .. => true
  | _ => false
/-- Initiation, Termination and the experimental messages -/
def BmpMsg.global : BmpMsg → Bool
  | .v3 v => isGlobal v
  | .v4 v => isGlobal v

theorem value_exact {R D RE : Type} {rm : CParser Peers RE R} {down : CParser Peers DownErr D} (rw' : R → Res WErr Bytes) (dw : D → Res WErr Bytes)
    {b : Bytes} {g : Peers} {v : Value R D} {s' : Reader × Peers}
    (h : parseValue rm down (⟨b, 5⟩, g) = (.ok v, s')) (hg : isGlobal v = true) : v.write rw' dw = .ok b := by
  cases b with
  | nil => exact absurd h (by rintro ⟨⟩)
  | cons c rest =>
    rw [show parseValue rm down (⟨c :: rest, 5⟩, g) = valueBody rm down 6 c (⟨rest, 6⟩, g) from rfl] at h
    unfold valueBody at h
    have no : ∀ {α : Type} {p : CParser Peers (ValueErr RE) α} {f : α → Value R D}, (∀ a, isGlobal (f a) = false) →
        (p >>= fun a => pure (f a)) (⟨rest, 6⟩, g) = (.ok v, s') → False := by
      intro α p f hf h
      obtain ⟨m, s1, h1, h2⟩ := CParser.bind_eq_ok h
      simp only [CParser.pure_run, Prod.mk.injEq, Res.ok.injEq] at h2
      rw [← h2.1, hf] at hg; simp at hg
    split at h
    · exact (no (fun _ => rfl) h).elim
    split at h
    · exact (no (fun _ => rfl) h).elim
    split at h
    · exact (no (fun _ => rfl) h).elim
    split at h
    · exact (no (fun _ => rfl) h).elim
    split at h
    · obtain ⟨m, s1, h1, h2⟩ := CParser.bind_eq_ok h
      simp only [CParser.pure_run, Prod.mk.injEq, Res.ok.injEq] at h2
      rw [← h2.1]; subst c
      have := many_exact (w := Info.write) _ (fun _ _ _ h => info_exact h) (CParser.lift_eq_ok h1).1
      show Res.cat (.ok [4]) (.ok (infosWrite m)) = _
      rw [Res.cat_ok, infosWrite, ← this]; rfl
    split at h
    · obtain ⟨m, s1, h1, h2⟩ := CParser.bind_eq_ok h
      simp only [CParser.pure_run, Prod.mk.injEq, Res.ok.injEq] at h2
      rw [← h2.1]; subst c
      have := many_exact (w := TermInfo.write) _ (fun _ _ _ h => termInfo_exact h) (CParser.lift_eq_ok h1).1
      show Res.cat (.ok [5]) (.ok (m.flatMap TermInfo.write)) = _
      rw [Res.cat_ok, ← this]; rfl
    split at h
    · exact (no (fun _ => rfl) h).elim
    cases hn : ofExp8 c with
    | none => rw [hn] at h; exact absurd h (by rintro ⟨⟩)
    | some n =>
      rw [hn] at h
      obtain ⟨m, s1, h1, h2⟩ := CParser.bind_eq_ok h
      simp only [CParser.pure_run, Prod.mk.injEq, Res.ok.injEq] at h2
      rw [← h2.1]
      have := (restBytes_exact (CParser.lift_eq_ok h1).1).1
      show Res.cat (.ok [exp8 n]) (.ok m) = _
      rw [Res.cat_ok, this, exp8_ofExp8 hn]; rfl

theorem global_len {R D : Type} {rw' : R → Res WErr Bytes} {dw : D → Res WErr Bytes} (rn : R → Nat) (dn : D → Nat) {v : Value R D} {b : Bytes}
    (h : v.write rw' dw = .ok b) (hg : isGlobal v = true) : v.len rn dn = b.length := by
  cases v with
  | initiation l =>
    obtain rfl := Res.ok.inj (show Res.ok ([4] ++ infosWrite l) = _ from h)
    simp [Value.len]; omega
  | termination l =>
    obtain rfl := Res.ok.inj (show Res.ok ([5] ++ l.flatMap TermInfo.write) = _ from h)
    have := length_flatMap_sum (l := l) fun i _ => TermInfo.length_write i
    simp only [Value.len, List.length_append, List.length_singleton, this]
  | experimental n x =>
    obtain rfl := Res.ok.inj (show Res.ok ([exp8 n] ++ x) = _ from h)
    simp [Value.len]; omega
  | _ => exact nomatch hg

/-- **C72 (messages without a peer).** Initiation, Termination and experimental messages are read without loss: what is
read from some octets is written to the same octets. What is missing: the other messages, of which it does not hold
(`c72_pdu_disproved`, `c72_trailing_disproved`). -/
theorem c72_partial (s : Bmp.Codec) (ord : Order) (v : Version) (b : Bytes) (hb : 5 + b.length < 4294967296) (m : BmpMsg)
    (h : (s.frame ord (bmpFrame v.code b)).1 = .ok m) (hg : BmpMsg.global m = true) :
    m.write = .ok (bmpFrame v.code b) := by
  obtain ⟨s', -, hv⟩ := frame_value hb h
  have key : m.body = .ok b ∧ m.version = v ∧ m.len = 5 + b.length := by
    cases m with
    | v3 x =>
      have hw := value_exact Rm3.write Down3.write hv.2 hg
      exact ⟨hw, hv.1.symm, congrArg (5 + ·) (global_len Rm3.len Down3.len hw hg)⟩
    | v4 x =>
      have hw := value_exact Rm4.write Down4.write hv.2 hg
      exact ⟨hw, hv.1.symm, congrArg (5 + ·) (global_len Rm4.len Down4.len hw hg)⟩
  unfold BmpMsg.write bmpFrame
  rw [key.1, key.2.1, key.2.2, Res.cat_ok]; rfl

/-- Termination with a text and a reason -/
example : let b : Bytes := [5, 0, 0, 0, 2, 104, 105, 0, 1, 0, 2, 0, 3]
    (runMsgs .new [(asIs, bmpFrame 4 b)]).1 = [.ok (.v4 (.termination [.string "hi", .reason ⟨3, by decide⟩]))] := by decide +kernel

/-- **C72 does not hold of the BGP message TLVs of version 4.** Of two, one is skipped, whatever it holds. -/
theorem c72_pdu_disproved : ∃ (pdu : Bytes) (m : BmpMsg),
    (runMsgs .new [(asIs, bmpFrame 4 (0 :: ((peerAt false 7).write ++ ([0, 4, 0, 3, 0, 0, 1, 2, 3] ++ pdu)))),
      (asIs, bmpFrame 4 (0 :: ((peerAt false 7).write ++ pdu)))]).1 = [.ok m, .ok m] :=
  ⟨[0, 4, 0, 23, 0, 0] ++ (List.replicate 16 255 ++ [0, 23, 2, 0, 0, 0, 0]),
    .v4 (.routeMonitoring ⟨peerAt false 7, .update ⟨[], [], []⟩, []⟩), by decide +kernel⟩

/-- **C72 does not hold inside the BGP message TLV.** What follows the message is skipped. -/
theorem c72_trailing_disproved : ∃ (pdu : Bytes) (m : BmpMsg),
    (runMsgs .new [(asIs, bmpFrame 4 (0 :: ((peerAt false 7).write ++ ([0, 4, 0, 26, 0, 0] ++ (pdu ++ [1, 2, 3]))))),
      (asIs, bmpFrame 4 (0 :: ((peerAt false 7).write ++ ([0, 4, 0, 23, 0, 0] ++ pdu))))]).1 = [.ok m, .ok m] :=
  ⟨List.replicate 16 255 ++ [0, 23, 2, 0, 0, 0, 0],
    .v4 (.routeMonitoring ⟨peerAt false 7, .update ⟨[], [], []⟩, []⟩), by decide +kernel⟩

/-! ## C73 -/

/-- the reason of a Peer Down goes with what it carries -/
def ReasonOk : Reason → Prop
  | .localNotification m => ∃ n, m = .notification n
  | .remoteNotification m => ∃ n, m = .notification n
  | .localTlv i => ∃ s, i = .text .vrfTableName s
  | _ => True
/-- a TLV of a version 4 route monitoring message: groups have the group bit in their index, a VRF name has up to 255
octets, and there is no further BGP message -/
def TlvOk (t : RmTlv) : Prop :=
  match t.value with
  | .group _ => 32768 ≤ t.index.toNat
  | .vrf s => (utf8 s).length ≤ 255
  | .update _ => False
  | _ => True
/-- the BGP messages in a BMP message are of the types that they should be -/
def Carries {R D : Type} (rm : R → Prop) (reason : D → Reason) : Value R D → Prop
  | .routeMonitoring m => rm m
  | .peerDown d => ReasonOk (reason d)
  | .peerUp u => (∃ o, u.sent = .open o) ∧ ∃ o, u.received = .open o
  | .mirroring m => ∀ v ∈ m.values, ∀ b, v ≠ .message (.raw b)
  | _ => True
/-- the BGP messages in a BMP message are of the types that they should be -/
def BmpMsg.Carries : BmpMsg → Prop
  | .v3 v => Props.Carries (fun m => ∃ u, m.msg = .update u) Down3.reason v
  | .v4 v => Props.Carries (fun m => (∃ u, m.pdu = .update u) ∧ ∀ t ∈ m.tlvs, TlvOk t) Down4.reason v

theorem type_update {m : Msg} (h : m.type = .update) : ∃ u, m = .update u := by cases m <;> simp_all [Msg.type]
theorem type_open {m : Msg} (h : m.type = .open) : ∃ u, m = .open u := by cases m <;> simp_all [Msg.type]
theorem type_notification {m : Msg} (h : m.type = .notification) : ∃ u, m = .notification u := by cases m <;> simp_all [Msg.type]

theorem check_ok {r : Reason} (h : r.check = none) : ReasonOk r := by
  cases r with
  | localNotification m =>
    simp only [Reason.check] at h
    split at h
    · exact type_notification ‹_›
    · simp at h
  | remoteNotification m =>
    simp only [Reason.check] at h
    split at h
    · exact type_notification ‹_›
    · simp at h
  | localTlv i =>
    simp only [Reason.check] at h
    split at h
    · rename_i hi
      cases i with
      | text k s => simp [Info.type] at hi; subst hi; exact ⟨s, rfl⟩
      | experimental n v => simp [Info.type] at hi
    · simp at h
  | _ => trivial

theorem post_rm3 : CPost (fun m => ∃ u, m.msg = .update u) parseRm3 := by
  unfold parseRm3
  refine CPost.bind fun h => CPost.bind fun x => ?_
  by_cases hx : x.2.type = .update
  · rw [if_neg (by simp [hx])]; exact cpost_pure (type_update hx)
  · rw [if_pos hx]; exact cpost_fail _
theorem post_down3 : CPost (fun d => ReasonOk d.reason) parseDown3 := by
  unfold parseDown3
  refine CPost.bind fun o => CPost.bind fun h => CPost.bind fun r => ?_
  split
  · exact cpost_fail _
  · exact cpost_pure (check_ok ‹_›)
theorem post_down4 : CPost (fun d => ReasonOk d.reason) parseDown4 := by
  unfold parseDown4
  refine CPost.bind fun o => CPost.bind fun h => CPost.bind fun r => CPost.bind fun l => ?_
  split
  · exact cpost_fail _
  · exact cpost_pure (check_ok ‹_›)
theorem post_up : CPost (fun u => (∃ o, u.sent = .open o) ∧ ∃ o, u.received = .open o) parseUp := by
  unfold parseUp
  refine CPost.bind fun o => CPost.bind fun h => CPost.bind fun a => CPost.bind fun lp => CPost.bind fun rp => CPost.bind fun m =>
    CPost.bind fun l => ?_
  split
  · exact cpost_fail _
  · rename_i hc
    unfold upCheck at hc
    split at hc
    · simp at hc
    split at hc
    · simp at hc
    · rename_i h1 h2
      exact cpost_pure ⟨type_open (Classical.not_not.1 h1), type_open (Classical.not_not.1 h2)⟩

/-- all results of a parser satisfy `P` -/
def Post {σ ε α : Type} (P : α → Prop) (p : CParser σ ε α) : Prop := ∀ s a s', p s = (.ok a, s') → P a

theorem Post.cmany {σ ε α : Type} {P : α → Prop} {p : CParser σ ε α} (h : Post P p) :
    Post (fun l => ∀ a ∈ l, P a) (CParser.cmany (do let a ← p; pure (some a))) := by
  intro s l s' hl
  refine CParser.cmany_ok_induction (Q := fun _ l _ => ∀ a ∈ l, P a) (fun _ _ => by simp) ?_ hl
  intro s a s1 as s2 _ h1 _ _ ih
  obtain ⟨x, s3, h3, h4⟩ := CParser.bind_eq_ok h1
  simp only [CParser.pure_run, Prod.mk.injEq, Res.ok.injEq] at h4
  rw [← h4.1]
  intro y hy
  simp only [Option.toList_some, List.cons_append, List.nil_append, List.mem_cons] at hy
  rcases hy with rfl | hy
  · exact h _ _ _ h3
  · exact ih y hy

theorem post_mirror : Post (fun v => ∀ b, v ≠ .message (.raw b)) parseMirrorValue := by
  intro s v s' h
  unfold parseMirrorValue at h
  obtain ⟨c, s1, -, h⟩ := CParser.bind_eq_ok h
  obtain ⟨o, s1, -, h⟩ := CParser.bind_eq_ok h
  obtain ⟨t, s1, -, h⟩ := CParser.bind_eq_ok h
  obtain ⟨l, s1, -, h⟩ := CParser.bind_eq_ok h
  obtain ⟨d, s1, -, h⟩ := CParser.bind_eq_ok h
  obtain ⟨⟨x, r⟩, s2, hx, h⟩ := CParser.bind_eq_ok h
  have hx := (CParser.onSub_eq_ok hx).1
  simp only at h
  split at h
  · simp only [CParser.pure_run, Prod.mk.injEq, Res.ok.injEq] at h
    rw [← h.1]
    cases t with
    | message =>
      obtain ⟨m, s3, -, h⟩ := CParser.bind_eq_ok hx
      simp only [CParser.pure_run, Prod.mk.injEq, Res.ok.injEq] at h
      rw [← h.1]; simp
    | information =>
      have hx := (CParser.lift_eq_ok hx).1
      simp only [Parser.bind_eq_ok, Parser.pure_eq_ok] at hx
      obtain ⟨_, _, _, _, _, _, i, _, _, e, _⟩ := hx
      rw [← e]; simp
    | experimental n =>
      have hx := (CParser.lift_eq_ok hx).1
      simp only [Parser.bind_eq_ok, Parser.pure_eq_ok] at hx
      obtain ⟨_, _, _, e, _⟩ := hx
      rw [← e]; simp
  · simp at h

theorem tlvBody_update {out : Bool} {t : UInt16} {s s' : Reader × PeerCtx} {m : Msg} (h : tlvBody out t s = (.ok (.update m), s')) : t = 4 := by
  unfold tlvBody at h
  split at h
  · have h := (CParser.lift_eq_ok h).1
    simp only [Parser.bind_eq_ok, Parser.pure_eq_ok] at h
    obtain ⟨_, _, _, _, _, _, _, _, _, e, _⟩ := h
    simp at e
  split at h
  · assumption
  split at h
  · have h := (CParser.lift_eq_ok h).1
    simp only [Parser.bind_eq_ok, Parser.pure_eq_ok] at h
    obtain ⟨_, _, _, e, _⟩ := h
    simp at e
  split at h
  · obtain ⟨c, s1, -, h⟩ := CParser.bind_eq_ok h
    obtain ⟨_, s1, -, h⟩ := CParser.bind_eq_ok h
    simp at h
  split at h
  · have h := Parser.mapErr_eq_ok.1 (CParser.lift_eq_ok h).1
    unfold parsePath at h
    simp only [Parser.bind_eq_ok] at h
    obtain ⟨_, _, _, _, _, _, _, _, _, h⟩ := h
    split at h
    · simp at h
    split at h
    · simp only [Parser.bind_eq_ok, Parser.pure_eq_ok] at h
      obtain ⟨_, _, _, e, _⟩ := h
      simp at e
    · simp at h
  · have h := (CParser.lift_eq_ok h).1
    simp only [Parser.bind_eq_ok, Parser.pure_eq_ok] at h
    obtain ⟨_, _, _, e, _⟩ := h
    simp at e

theorem post_rm4Item (out : Bool) : Post (fun x => ∀ t, x = .inr t → TlvOk t) (rm4Item out) := by
  intro s x s' h
  unfold rm4Item at h
  obtain ⟨t, s1, ht, h⟩ := CParser.bind_eq_ok h
  obtain ⟨ht, -⟩ := CParser.lift_eq_ok ht
  obtain ⟨⟨tl, hb⟩, hs⟩ := peekU16_eq_ok.1 (Parser.mapErr_eq_ok.1 ht)
  split at h
  · have h := (CParser.lift_eq_ok h).1
    simp only [Parser.bind_eq_ok, Parser.pure_eq_ok] at h
    obtain ⟨_, _, _, _, _, _, _, _, _, _, _, _, e, _⟩ := h
    rw [← e]; simp
  · rename_i h4
    obtain ⟨y, s2, hy, h⟩ := CParser.bind_eq_ok h
    simp only [CParser.pure_run, Prod.mk.injEq, Res.ok.injEq] at h
    rw [← h.1]
    intro z hz
    obtain rfl := Sum.inr.inj hz
    have hy := CParser.mapErr_eq_ok hy
    unfold parseRmTlv at hy
    obtain ⟨o, s3, h3, hy⟩ := CParser.bind_eq_ok hy
    obtain ⟨t', s4, h4', hy⟩ := CParser.bind_eq_ok hy
    have e3 := (Parser.getOffset_eq_ok.1 (CParser.lift_eq_ok h3).1).2
    have e4 := (readU16_eq_ok.1 (Parser.mapErr_eq_ok.1 (CParser.lift_eq_ok h4').1)).1
    rw [← e3, ← hs, hb] at e4
    have ett : t = t' := by
      have := congrArg (fun l => u16of (l.take 2)) e4
      simp only [List.take_append_of_le_length (show 2 ≤ (u16be _).length by simp), List.take_of_length_le (show (u16be _).length ≤ 2 by simp), u16of_u16be] at this
      exact this
    obtain ⟨l, s5, -, hy⟩ := CParser.bind_eq_ok hy
    obtain ⟨i, s6, -, hy⟩ := CParser.bind_eq_ok hy
    obtain ⟨_, s7, -, hy⟩ := CParser.bind_eq_ok hy
    obtain ⟨n, s8, -, hy⟩ := CParser.bind_eq_ok hy
    split at hy
    · simp at hy
    obtain ⟨d, s9, -, hy⟩ := CParser.bind_eq_ok hy
    obtain ⟨⟨v, r⟩, s10, hv, hy⟩ := CParser.bind_eq_ok hy
    have hv := (CParser.onSub_eq_ok hv).1
    simp only at hy
    cases hc : tlvCheck i v with
    | some e => rw [hc] at hy; simp at hy
    | none =>
      rw [hc] at hy
      simp only [CParser.pure_run, Prod.mk.injEq, Res.ok.injEq] at hy
      rw [← hy.1]
      unfold TlvOk
      cases v with
      | group l =>
        simp only [tlvCheck, ite_eq_right_iff, reduceCtorEq, imp_false, ne_eq, Classical.not_not] at hc
        have e : (i &&& 0x8000).toNat = (0x8000 : UInt16).toNat := congrArg _ hc
        rw [UInt16.toNat_and] at e
        have := Nat.and_le_left (n := i.toNat) (m := (0x8000 : UInt16).toNat)
        rw [e] at this
        exact this
      | vrf s =>
        simp only [tlvCheck, ite_eq_right_iff, reduceCtorEq, imp_false] at hc
        exact Nat.not_lt.1 hc
      | update m => exact h4 (ett.trans (tlvBody_update hv))
      | _ => trivial

theorem atPeer_eq_ok {ε α : Type} {k : PeerKey} {p : CParser PeerCtx ε α} {s s' : Reader × Peers} {a : α}
    (h : atPeer k p s = (.ok a, s')) : ∃ x, p (s.1, s.2.at k) = (.ok a, x) := by
  unfold atPeer at h
  simp only [Prod.mk.injEq] at h
  exact ⟨_, Prod.ext h.1 rfl⟩

theorem post_rm4 : CPost (fun m => (∃ u, m.pdu = .update u) ∧ ∀ t ∈ m.tlvs, TlvOk t) parseRm4 := by
  intro s m s' h
  unfold parseRm4 at h
  obtain ⟨o, s1, -, h⟩ := CParser.bind_eq_ok h
  obtain ⟨p, s2, -, h⟩ := CParser.bind_eq_ok h
  obtain ⟨x, s3, hx, h⟩ := CParser.bind_eq_ok h
  obtain ⟨y, hx⟩ := atPeer_eq_ok hx
  obtain ⟨_, s4, -, hx⟩ := CParser.bind_eq_ok hx
  cases hc : tlvCheck 0 (.update x.1) with
  | some e => rw [hc] at h; simp at h
  | none =>
    rw [hc] at h
    simp only [CParser.pure_run, Prod.mk.injEq, Res.ok.injEq] at h
    rw [← h.1]
    refine ⟨type_update (by simpa [tlvCheck] using hc), ?_⟩
    unfold scratch at hx
    simp only [Prod.mk.injEq] at hx
    have hx : rm4Body p.type.adjRibOut s4 = (.ok x, (rm4Body p.type.adjRibOut s4).2) := Prod.ext hx.1 rfl
    unfold rm4Body at hx
    obtain ⟨l, s5, hl, hx⟩ := CParser.bind_eq_ok hx
    have hl := (post_rm4Item p.type.adjRibOut).cmany _ _ _ hl
    have htl : ∀ t ∈ tlvsOf l, TlvOk t := by
      intro t ht
      unfold tlvsOf at ht
      obtain ⟨z, hz, ht⟩ := List.mem_filterMap.1 ht
      cases z with
      | inl d => simp at ht
      | inr t' => exact hl _ hz t (by simpa using ht)
    cases hp : lastPdu l with
    | some d =>
      rw [hp] at hx
      obtain ⟨w, s6, -, hx⟩ := CParser.bind_eq_ok hx
      simp only [CParser.pure_run, Prod.mk.injEq, Res.ok.injEq] at hx
      rw [← hx.1]; exact htl
    | none =>
      rw [hp] at hx
      obtain ⟨w, s6, -, hx⟩ := CParser.bind_eq_ok hx
      simp at hx

theorem post_mirroring : CPost (fun m => ∀ v ∈ m.values, ∀ b, v ≠ .message (.raw b)) parseMirroring := by
  intro s m s' h
  unfold parseMirroring at h
  obtain ⟨p, s2, -, h⟩ := CParser.bind_eq_ok h
  obtain ⟨x, s3, hx, h⟩ := CParser.bind_eq_ok h
  obtain ⟨y, hx⟩ := atPeer_eq_ok hx
  obtain ⟨_, s4, -, hx⟩ := CParser.bind_eq_ok hx
  simp only [CParser.pure_run, Prod.mk.injEq, Res.ok.injEq] at h
  rw [← h.1]
  simp only
  refine CParser.cmany_ok_induction (Q := fun _ l _ => ∀ v ∈ l, ∀ b, v ≠ MirrorValue.message (.raw b)) (fun _ _ => by simp) ?_ hx
  intro s a s1 as s2 _ h1 _ _ ih
  obtain ⟨v, s3, h3, h4⟩ := CParser.bind_eq_ok (CParser.mapErr_eq_ok h1)
  simp only [CParser.pure_run, Prod.mk.injEq, Res.ok.injEq] at h4
  rw [← h4.1]
  intro w hw
  simp only [Option.toList_some, List.cons_append, List.nil_append, List.mem_cons] at hw
  rcases hw with rfl | hw
  · exact post_mirror _ _ _ h3
  · exact ih w hw

theorem post_value {R D RE : Type} {rm : CParser Peers RE R} {down : CParser Peers DownErr D} {P : R → Prop} {reason : D → Reason}
    (hr : CPost P rm) (hd : CPost (fun d => ReasonOk (reason d)) down) : CPost (Carries P reason) (parseValue rm down) := by
  have go : ∀ {ε α : Type} {p : CParser Peers ε α} {Q : α → Prop} {f : α → Value R D} (k : ε → ValueErr RE), CPost Q p →
      (∀ a, Q a → Carries P reason (f a)) → CPost (Carries P reason) (CParser.mapErr k p >>= fun a => pure (f a)) := by
    intro ε α p Q f k hp hf s a s' h
    obtain ⟨m, s1, h1, h2⟩ := CParser.bind_eq_ok h
    simp only [CParser.pure_run, Prod.mk.injEq, Res.ok.injEq] at h2
    rw [← h2.1]; exact hf m (hp _ _ _ (CParser.mapErr_eq_ok h1))
  unfold parseValue
  refine CPost.bind fun c => CPost.bind fun o => ?_
  unfold valueBody
  refine CPost.ite (go _ hr fun _ h => h) (CPost.ite (CPost.bind fun _ => cpost_pure trivial) (CPost.ite (go _ hd fun _ h => h)
    (CPost.ite (go _ post_up fun _ h => h) (CPost.ite (CPost.bind fun _ => cpost_pure trivial)
    (CPost.ite (CPost.bind fun _ => cpost_pure trivial) (CPost.ite (go _ post_mirroring fun _ h => h) ?_))))))
  split
  · exact CPost.bind fun _ => cpost_pure trivial
  · exact cpost_fail _

/-- **C73.** Whatever octets a message is read from: a route monitoring message carries an UPDATE, a Peer Up two OPENs, a
Peer Down a NOTIFICATION or a VRF name where its reason says so; the TLVs of version 4 have the group bit where they
must, no VRF name of more than 255 octets and no further BGP message. -/
theorem c73_carries (s : Bmp.Codec) (ord : Order) (f : Bytes) (m : BmpMsg) (h : (s.frame ord f).1 = .ok m) : BmpMsg.Carries m := by
  rw [frame_res] at h
  have hp : CPost BmpMsg.Carries parseBmp := by
    unfold parseBmp
    refine CPost.bind fun c => CPost.bind fun o => CPost.bind fun v => CPost.bind fun l => CPost.bind fun o => CPost.ite (cpost_fail _) ?_
    refine CPost.bind fun d => ?_
    intro s a s' h
    obtain ⟨⟨x, r⟩, s1, h1, h2⟩ := CParser.bind_eq_ok h
    have h1 := (CParser.onSub_eq_ok h1).1
    simp only at h2
    split at h2
    · simp only [CParser.pure_run, Prod.mk.injEq, Res.ok.injEq] at h2
      rw [← h2.1]
      cases v
      · obtain ⟨y, s3, h3, h4⟩ := CParser.bind_eq_ok h1
        simp only [CParser.pure_run, Prod.mk.injEq, Res.ok.injEq] at h4
        rw [← h4.1]
        exact post_value post_rm3 post_down3 _ _ _ (CParser.mapErr_eq_ok h3)
      · obtain ⟨y, s3, h3, h4⟩ := CParser.bind_eq_ok h1
        simp only [CParser.pure_run, Prod.mk.injEq, Res.ok.injEq] at h4
        rw [← h4.1]
        exact post_value post_rm4 post_down4 _ _ _ (CParser.mapErr_eq_ok h3)
    · simp at h2
  exact hp _ _ _ (Prod.ext h rfl)

/-- a message that is read, and the same with a KEEPALIVE, which is not -/
example : let up := upWith (peerAt false 7) [] []
    (runMsgs .new [(asIs, octetsOf (.v3 (.peerUp up))), (asIs, octetsOf (monitor (peerAt false 7) .keepAlive)),
      (asIs, octetsOf (.v4 (.routeMonitoring ⟨peerAt false 7, fourNets, [⟨0x7fff, .group [1]⟩]⟩)))]).1 =
      [.ok (.v3 (.peerUp up)), .err (.v3 (.routeMonitoring (.build 48 .keepAlive))),
       .err (.v4 (.routeMonitoring (.tlv (.build 48 (.index 0x7fff)))))] := by decide +kernel

/-! ## C74 -/

/-- the octets `w` at offset `o` are the error `e` -/
def Errs {σ ε α : Type} (P : σ → Prop) (p : CParser σ ε α) (o : Nat) (e : ε) (w : Bytes) : Prop :=
  ∀ g, P g → (p (⟨w, o⟩, g)).1 = .err e

theorem Errs.bind {σ ε α β : Type} {P Q : σ → Prop} {p : CParser σ ε α} {f : α → CParser σ ε β} {a : α} {o : Nat} {e : ε} {v w : Bytes}
    (hp : CRd P Q p a v) (hf : Errs Q (f a) (o + v.length) e w) : Errs P (p >>= f) o e (v ++ w) := by
  intro g hg
  obtain ⟨g', h1, h2⟩ := hp w o g hg
  rw [CParser.bind_ok h1]
  exact hf g' h2

theorem errs_up {h : PeerHeader} (hh : h.WF) {a b : Msg} (ha : a.type ≠ .open) {c : AttrCtx} (hc : c.asn4 = h.type.asn4) (hwa : a.WF c)
    (hwb : b.WF c) (o : Nat) :
    Errs (fun g => Has c (g.at h.key)) parseUp o (.build o (.sent a.type))
      (h.write ++ (u128be 0 ++ (u16be 0 ++ (u16be 0 ++ ((a.bytes ++ b.bytes) ++ []))))) := by
  unfold parseUp
  intro g hg
  rw [CParser.bind_ok (show (CParser.lift Parser.getOffset : CParser Peers UpErr Nat) (⟨_, o⟩, g) = (.ok o, (⟨_, o⟩, g)) from rfl)]
  revert g
  refine Errs.bind (Q := fun g => Has c (g.at h.key)) (crd_lift ((reads_bmpHeader hh).mapErr _)) ?_
  refine Errs.bind (Q := fun g => Has c (g.at h.key)) (crd_lift ((reads_u128 _).mapErr _)) ?_
  refine Errs.bind (Q := fun g => Has c (g.at h.key)) (crd_lift ((reads_u16 _).mapErr _)) ?_
  refine Errs.bind (Q := fun g => Has c (g.at h.key)) (crd_lift ((reads_u16 _).mapErr _)) ?_
  refine Errs.bind (Q := fun _ => True) (a := (a, b)) (crd_atPeer (P := Has c) (Q := Is c) ?_) ?_
  · refine CRd.bind_nil (crd_setAsn4 hc) (CRd.bind ((crd_bgpMsg hwa).mapErr _) ?_)
    refine CRd.bind_nil (a := ()) (Q := Is c) (fun rest o x hx => ?_) (CRd.bind_last (Q := Is c) ((crd_bgpMsg hwb).mapErr _) (crd_pure _))
    exact crd_setAsn4 hc rest o x (by unfold Has; rw [show x.ctx.attr = c from hx])
  · intro g _
    rw [CParser.bind_ok (show (CParser.lift (many (Parser.mapErr UpErr.info parseInfo)) : CParser Peers UpErr (List Info)) (⟨[], _⟩, g) =
      (.ok [], (⟨[], _⟩, g)) from rfl)]
    simp only [upCheck, if_pos ha]
    rfl

theorem body_err {v : Version} {b : Bytes} {g : Peers} {e : BmpErr} (h : (versionBody v (⟨b, 5⟩, g)).1 = .err e) :
    (Bmp.parseBody v b g).1 = .err e := by
  unfold Bmp.parseBody
  revert h
  rcases versionBody v (⟨b, 5⟩, g) with ⟨m | x | x, z⟩ <;> intro h <;> simp at h
  subst h; rfl

/-- **C74 (the message sent).** If the first message of a Peer Up is not an OPEN, the error has its type. What is missing:
for the second message it has not (`c74_disproved`). -/
theorem c74_partial (s : Bmp.Codec) (ord : Order) (h : PeerHeader) (hh : h.WF) (a b : Msg) (ha : a.type ≠ .open)
    (hwa : a.WF { (s.peers.at h.key).ctx.attr with asn4 := h.type.asn4 }) (hwb : b.WF { (s.peers.at h.key).ctx.attr with asn4 := h.type.asn4 }) :
    (s.frame ord (bmpFrame 3 (3 :: (h.write ++ (List.replicate 20 0 ++ (a.bytes ++ b.bytes)))))).1 =
      .err (.v3 (.peerUp (.build 6 (.sent a.type)))) ∧
    (s.frame ord (bmpFrame 4 (3 :: (h.write ++ (List.replicate 20 0 ++ (a.bytes ++ b.bytes)))))).1 =
      .err (.v4 (.peerUp (.build 6 (.sent a.type)))) := by
  have hz : (List.replicate 20 0 : Bytes) = u128be 0 ++ (u16be 0 ++ u16be 0) := by decide
  have hup := errs_up hh ha rfl hwa hwb 6 s.peers rfl
  have hl : 5 + (3 :: (h.write ++ (List.replicate 20 0 ++ (a.bytes ++ b.bytes))) : Bytes).length < 4294967296 := by
    have h1 := (Msg.len_le hwa).1
    have h2 := (Msg.len_le hwb).1
    have h3 := Msg.length_bytes hwa
    have h4 := Msg.length_bytes hwb
    simp only [List.length_cons, List.length_append, length_bmpHeader, List.length_replicate]
    omega
  rw [hz] at hl ⊢
  simp only [List.append_nil, List.append_assoc] at hup hl ⊢
  generalize h.write ++ (u128be 0 ++ (u16be 0 ++ (u16be 0 ++ (a.bytes ++ b.bytes)))) = w at hup hl ⊢
  have key : ∀ {R D RE : Type} (rm : CParser Peers RE R) (down : CParser Peers DownErr D),
      (parseValue rm down (⟨3 :: w, 5⟩, s.peers)).1 = .err (.peerUp (.build 6 (.sent a.type))) := by
    intro R D RE rm down
    rw [show parseValue rm down (⟨3 :: w, 5⟩, s.peers) = (CParser.mapErr ValueErr.peerUp parseUp >>= fun m => pure (.peerUp m)) (⟨w, 6⟩, s.peers) from rfl]
    show (CParser.bind _ _ _).1 = _
    unfold CParser.bind
    rw [CParser.mapErr_run]
    revert hup
    rcases parseUp (⟨w, 6⟩, s.peers) with ⟨m | e | x, z⟩ <;> intro hup <;> simp at hup
    subst hup; rfl
  constructor
  · rw [show bmpFrame 3 (3 :: w) = frameOf .v3 (3 :: w) from rfl, frame_res, (parseBmp_frame _ _ hl s.peers).1]
    apply body_err
    have := key parseRm3 parseDown3
    unfold versionBody
    show (CParser.bind _ _ _).1 = _
    unfold CParser.bind
    rw [CParser.mapErr_run]
    revert this
    rcases parseValue parseRm3 parseDown3 (⟨3 :: w, 5⟩, s.peers) with ⟨m | e | x, z⟩ <;> intro this <;> simp at this
    subst this; rfl
  · rw [show bmpFrame 4 (3 :: w) = frameOf .v4 (3 :: w) from rfl, frame_res, (parseBmp_frame _ _ hl s.peers).1]
    apply body_err
    have := key parseRm4 parseDown4
    unfold versionBody
    show (CParser.bind _ _ _).1 = _
    unfold CParser.bind
    rw [CParser.mapErr_run]
    revert this
    rcases parseValue parseRm4 parseDown4 (⟨3 :: w, 5⟩, s.peers) with ⟨m | e | x, z⟩ <;> intro this <;> simp at this
    subst this; rfl

/-- a KEEPALIVE in the place of the OPEN sent -/
example : (runMsgs .new [(asIs, bmpFrame 3 (3 :: ((peerAt false 7).write ++ (List.replicate 20 0 ++ (Msg.bytes .keepAlive ++ openOctets 0x0a000002 [2, 0])))))]).1 =
      [.err (.v3 (.peerUp (.build 6 (.sent .keepAlive))))] ∧ Msg.type .keepAlive ≠ .open := by decide +kernel

/-- **C74 does not hold of the message received.** A KEEPALIVE in its place is reported as an OPEN. -/
theorem c74_disproved : ∃ f : Bytes, f = bmpFrame 3 (3 :: ((peerAt false 7).write ++ (List.replicate 20 0 ++
      (openOctets 0x0a000002 [2, 0] ++ (List.replicate 16 255 ++ [0, 19, 4]))))) ∧
    (runMsgs .new [(asIs, f)]).1 = [.err (.v3 (.peerUp (.build 6 (.received .open))))] := ⟨_, rfl, by decide +kernel⟩

end Verif.Props
