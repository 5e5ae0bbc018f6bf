import Verif.Bmp.PeerLemmas
import Verif.Props.BmpCodec
/-!
# C31, C32: what is negotiated by monitored peers
-/
namespace Verif.Props
open Verif Verif.Bmp Verif.Bgp

/-! ## Negotiation -/

/-- the entries of all ADD-PATH capabilities -/
def pathEntries (caps : List Cap) : List AddPathFamily := caps.flatMap fun | .addPath l => l | _ => []
/-- what the capabilities say about a family; the last entry counts -/
def pathEntry (caps : List Cap) (t : AddressType) : Option AddPathFamily := ((pathEntries caps).filter (·.family = t)).getLast?

/-- ADD-PATH is on for routes from a side that says it sends to one that says it receives: from the local side to the
remote one in adj-rib-out, in the other direction otherwise -/
def Negotiated (out : Bool) (loc rem : List Cap) (t : AddressType) : Prop :=
  ∃ l r, pathEntry loc t = some l ∧ pathEntry rem t = some r ∧
    if out then l.send = true ∧ r.receive = true else r.send = true ∧ l.receive = true

/-- the entries of all multiple label capabilities -/
def labelEntries (caps : List Cap) : List MultipleLabel := caps.flatMap fun | .multipleLabels l => l | _ => []
/-- both sides list the same number of labels for a family -/
def CommonCount (loc rem : List Cap) (t : AddressType) (n : UInt8) : Prop :=
  ⟨t, n⟩ ∈ labelEntries loc ∧ ⟨t, n⟩ ∈ labelEntries rem

theorem addPathsOf_eq (caps : List Cap) : addPathsOf caps = pathEntries caps := by
  induction caps with
  | nil => rfl
  | cons c cs ih => cases c <;> simp [addPathsOf, pathEntries, ih, List.flatMap_cons]
theorem labelsOf_eq (caps : List Cap) : labelsOf caps = labelEntries caps := by
  induction caps with
  | nil => rfl
  | cons c cs ih => cases c <;> simp [labelsOf, labelEntries, ih, List.flatMap_cons]

/-- settings that are as two lists of capabilities ask for -/
structure AsNegotiated (out : Bool) (loc rem : List Cap) (c : AttrCtx) : Prop where
  ap : ∀ t, c.ap t = true ↔ Negotiated out loc rem t
  labels : ∀ t n, CommonCount loc rem t n → (∀ n', CommonCount loc rem t n' → n' = n) → c.lim t = n
  noLabels : ∀ t, (∀ n, ¬ CommonCount loc rem t n) → c.lim t = 1

/-- ADD-PATH decides, once the numbers of labels do -/
theorem AsNegotiated.equiv {out : Bool} {loc rem : List Cap} {c c' : AttrCtx} (h : AsNegotiated out loc rem c)
    (h' : AsNegotiated out loc rem c') (ha : c.asn4 = c'.asn4)
    (hu : ∀ t n n', CommonCount loc rem t n → CommonCount loc rem t n' → n' = n) : c.Equiv c' := by
  refine ⟨ha, ?_, ?_⟩
  · funext t
    have h1 := h.ap t
    have h2 := h'.ap t
    cases e : c.ap t <;> cases e' : c'.ap t <;> simp_all
  · funext t
    by_cases hc : ∃ n, CommonCount loc rem t n
    · obtain ⟨n, hn⟩ := hc
      rw [h.labels t n hn fun n' => hu t n n' hn, h'.labels t n hn fun n' => hu t n n' hn]
    · have hc : ∀ n, ¬ CommonCount loc rem t n := fun n hn => hc ⟨n, hn⟩
      rw [h.noLabels t hc, h'.noLabels t hc]

theorem negotiated_learn {out : Bool} {loc rem : List Cap} (ord : Order) {c : AttrCtx} (h1 : ∀ t, c.addPath t = none)
    (h2 : ∀ t, c.labels t = none) :
    AsNegotiated out loc rem (learn out loc rem (ord.run (commonLabels (labelsOf loc) (labelsOf rem))) c) := by
  have hmem : ∀ t n, (⟨t, n⟩ : MultipleLabel) ∈ ord.run (commonLabels (labelsOf loc) (labelsOf rem)) ↔ CommonCount loc rem t n := by
    intro t n
    rw [(ord.perm _).mem_iff, labelsOf_eq, labelsOf_eq]
    simp [commonLabels, CommonCount]
  generalize ord.run (commonLabels (labelsOf loc) (labelsOf rem)) = ls at hmem
  refine ⟨fun t => ?_, fun t n hn hu => ?_, fun t hn => ?_⟩
  · unfold AttrCtx.ap
    rw [learn_addPath, apFlags_eq, apFlags_eq, addPathsOf_eq, addPathsOf_eq, h1]
    show _ ↔ ∃ l r, ((pathEntries loc).filter (·.family = t)).getLast? = some l ∧ ((pathEntries rem).filter (·.family = t)).getLast? = some r ∧ _
    cases ((pathEntries loc).filter (·.family = t)).getLast? with
    | none => simp
    | some l =>
      cases ((pathEntries rem).filter (·.family = t)).getLast? with
      | none => simp
      | some r => cases out <;> simp
  · unfold AttrCtx.lim
    rw [learn_labels]
    have hx : (⟨t, n⟩ : MultipleLabel) ∈ ls.filter (·.family = t) := by simp [hmem, hn]
    cases he : (ls.filter (·.family = t)).getLast? with
    | none => rw [List.getLast?_eq_none_iff.1 he] at hx; simp at hx
    | some f =>
      have hf := List.mem_of_getLast? he
      simp only [List.mem_filter, decide_eq_true_eq] at hf
      obtain ⟨hf, rfl⟩ := hf
      exact hu f.count ((hmem _ _).1 hf)
  · unfold AttrCtx.lim
    rw [learn_labels]
    cases he : (ls.filter (·.family = t)).getLast? with
    | none => simp only [h2]; rfl
    | some f =>
      have hf := List.mem_of_getLast? he
      simp only [List.mem_filter, decide_eq_true_eq] at hf
      obtain ⟨hf, rfl⟩ := hf
      exact absurd ((hmem _ _).1 hf) (hn _)

/-! ## Histories -/

/-- what a codec makes of the octets of one message after the other -/
def runMsgs : Bmp.Codec → List (Order × Bytes) → List (Res BmpErr BmpMsg) × Bmp.Codec
  | s, [] => ([], s)
  | s, f :: fs => ((s.frame f.1 f.2).1 :: (runMsgs (s.frame f.1 f.2).2 fs).1, (runMsgs (s.frame f.1 f.2).2 fs).2)

/-- the Peer Up in a message -/
def upIn {R D : Type} : Value R D → Option PeerUp
  | .peerUp u => some u
  | _ => none
/-- the Peer Down in a message -/
def downIn {R D : Type} : Value R D → Option D
  | .peerDown d => some d
  | _ => none
/-- Termination -/
def isTermination {R D : Type} : Value R D → Bool
  | .termination _ => true
  | _ => false
/-- the Peer Up in a message -/
def BmpMsg.up? : BmpMsg → Option PeerUp
  | .v3 v => upIn v
  | .v4 v => upIn v
/-- the header of the Peer Down in a message -/
def BmpMsg.down? : BmpMsg → Option PeerHeader
  | .v3 v => (downIn v).map Down3.header
  | .v4 v => (downIn v).map Down4.header
/-- Termination -/
def BmpMsg.ends : BmpMsg → Bool
  | .v3 v => isTermination v
  | .v4 v => isTermination v

/-- a message that says nothing about the session of peer `k`: neither its Peer Up or Peer Down nor Termination, nor the
Peer Up of a peer that is `k` but for its BGP identifier, with the identifier of `k` in the OPEN received from it -/
def Silent (k : PeerKey) (m : BmpMsg) : Prop :=
  (∀ u, BmpMsg.up? m = some u → u.header.key ≠ k ∧ ∀ o, u.received = .open o → { u.header.key with bgpId := o.bgpId } ≠ k) ∧
  (∀ h, BmpMsg.down? m = some h → h.key ≠ k) ∧ BmpMsg.ends m = false

theorem upIn_some {R D : Type} {v : Value R D} {u : PeerUp} (h : upIn v = some u) : v = .peerUp u := by
  cases v with
  | peerUp w => rw [Option.some.inj h]
  | _ => exact nomatch h

theorem not_touches {R D : Type} {down : D → PeerHeader} {k : PeerKey} {v : Value R D}
    (h1 : ∀ u, upIn v = some u → u.header.key ≠ k ∧ ∀ o, u.received = .open o → { u.header.key with bgpId := o.bgpId } ≠ k)
    (h2 : ∀ h, (downIn v).map down = some h → h.key ≠ k) (h3 : isTermination v = false) : ¬ v.Touches down k := by
  cases v with
  | peerDown d => exact h2 _ rfl
  | termination l => exact nomatch h3
  | peerUp u =>
    have h := h1 u rfl
    rintro (e | ⟨o, ho, e⟩)
    · exact h.1 e
    · exact h.2 o ho e
  | _ => exact id

theorem Silent.touches {k : PeerKey} {m : BmpMsg} (h : Silent k m) : ¬ m.Touches k := by
  cases m with
  | v3 v => exact not_touches h.1 h.2.1 h.2.2
  | v4 v => exact not_touches h.1 h.2.1 h.2.2

theorem updateMsg_up {g : Peers} {ord : Order} {x : BmpMsg} {u : PeerUp} (hx : BmpMsg.up? x = some u) :
    g.updateMsg ord x = g.peerUp ord u := by
  cases x with
  | v3 v => rw [upIn_some (v := v) hx]; rfl
  | v4 v => rw [upIn_some (v := v) hx]; rfl

theorem run_sameAt {k : PeerKey} {fs : List (Order × Bytes)} (s : Bmp.Codec)
    (h : ∀ m, Res.ok m ∈ (runMsgs s fs).1 → Silent k m) : SameAt k s.peers (runMsgs s fs).2.peers := by
  induction fs generalizing s with
  | nil => exact SameAt.refl _ _
  | cons f fs ih =>
    simp only [runMsgs, List.mem_cons] at h ⊢
    exact (frame_sameAt fun m hm => (h m (.inl hm.symm)).touches).trans (ih _ fun m hm => h m (.inr hm))

/-! ## C31 -/

/-- the settings of a peer from its Peer Up on -/
theorem c31_settings {s : Bmp.Codec} {ord : Order} {f : Bytes} {x : BmpMsg} {u : PeerUp} {sent received : Open}
    {later : List (Order × Bytes)} (hf : (s.frame ord f).1 = .ok x) (hx : BmpMsg.up? x = some u)
    (hs : u.sent = .open sent) (hr : u.received = .open received)
    (hk : u.header.type.kind ≠ .locRib ∨ ∀ t, (s.peers.at u.header.key).ctx.attr.addPath t = none ∧ (s.peers.at u.header.key).ctx.attr.labels t = none)
    (hl : ∀ m, Res.ok m ∈ (runMsgs (s.frame ord f).2 later).1 → Silent u.header.key m) (b : Bool) :
    AsNegotiated u.header.type.adjRibOut sent.caps received.caps
      { ((runMsgs (s.frame ord f).2 later).2.peers.at u.header.key).ctx.attr with asn4 := b } := by
  have hsame := run_sameAt _ hl
  obtain ⟨g, hg, h1, -⟩ := frame_peers ord s f
  have hup : (s.frame ord f).2.peers = g.up u.header sent received (ord.run (commonLabels (labelsOf sent.caps) (labelsOf received.caps))) := by
    rw [h1 x hf, updateMsg_up hx]
    unfold Peers.peerUp; rw [hs, hr]
  have key : ∃ c : AttrCtx, (∀ t, c.addPath t = none) ∧ (∀ t, c.labels t = none) ∧
      ((s.frame ord f).2.peers.at u.header.key).ctx.attr.addPath =
        (learn u.header.type.adjRibOut sent.caps received.caps (ord.run (commonLabels (labelsOf sent.caps) (labelsOf received.caps))) c).addPath ∧
      ((s.frame ord f).2.peers.at u.header.key).ctx.attr.labels =
        (learn u.header.type.adjRibOut sent.caps received.caps (ord.run (commonLabels (labelsOf sent.caps) (labelsOf received.caps))) c).labels := by
    rw [hup]
    by_cases hloc : u.header.type.kind = .locRib
    · have hk := hk.resolve_left (by simp [hloc])
      refine ⟨(g.at u.header.key).ctx.attr, fun t => ?_, fun t => ?_, ?_⟩
      · rw [(hg _).addPath]; exact (hk t).1
      · rw [(hg _).labels]; exact (hk t).2
      · unfold Peers.up
        simp only
        rw [if_pos hloc, Peers.at_insert_self]
        exact ⟨rfl, rfl⟩
    · exact ⟨_, fun _ => rfl, fun _ => rfl, up_at hloc⟩
  obtain ⟨c, hc1, hc2, e1, e2⟩ := key
  have hn := negotiated_learn (out := u.header.type.adjRibOut) (loc := sent.caps) (rem := received.caps) ord hc1 hc2
  have e1 := hsame.addPath.trans e1
  have e2 := hsame.labels.trans e2
  refine ⟨fun t => ?_, fun t n hcc hu => ?_, fun t hcc => ?_⟩
  · rw [← hn.ap t]; unfold AttrCtx.ap; simp only [e1]
  · rw [← hn.labels t n hcc hu]; unfold AttrCtx.lim; simp only [e2]
  · rw [← hn.noLabels t hcc]; unfold AttrCtx.lim; simp only [e2]

/-- **C31 (all octets, with the direction of the Peer Up).** After a Peer Up, whatever came before and whatever comes
afterwards that says nothing about the session of this peer, a route monitoring message of the peer, with the direction
that the Peer Up had, is decoded by a BGP parser with ADD-PATH on for exactly the families for which it is negotiated in
that direction. Instances of Loc-RIB are in `c31_locRib_partial`. What is missing: messages of the other direction
(`c31_direction_disproved`), and messages with the BGP identifier of the received OPEN in place of that of the Peer Up
(`c31_second_disproved`). -/
theorem c31_octets_partial (s : Bmp.Codec) (ord ord' : Order) (f : Bytes) (x : BmpMsg) (u : PeerUp) (sent received : Open)
    (later : List (Order × Bytes)) (hf : (s.frame ord f).1 = .ok x) (hx : BmpMsg.up? x = some u)
    (hs : u.sent = .open sent) (hr : u.received = .open received) (hk : u.header.type.kind ≠ .locRib)
    (hl : ∀ m, Res.ok m ∈ (runMsgs (s.frame ord f).2 later).1 → Silent u.header.key m)
    (h : PeerHeader) (hh : h.WF) (hkey : h.key = u.header.key) (hdir : h.type.adjRibOut = u.header.type.adjRibOut) :
    ∃ c : MsgCtx, c.attr.asn4 = h.type.asn4 ∧ (∀ t, c.attr.ap t = true ↔ Negotiated h.type.adjRibOut sent.caps received.caps t) ∧
      ∀ (b : Bytes) (m : Msg), 48 + b.length < 4294967296 →
        (((runMsgs (s.frame ord f).2 later).2.frame ord' (bmpFrame 3 (0 :: (h.write ++ b)))).1 = .ok (.v3 (.routeMonitoring ⟨h, m⟩)) ↔
          m.type = .update ∧ ∃ r i, parseMsg c (⟨b, 48⟩, .none) = (.ok m, (r, i)) ∧ r.buf = []) := by
  have hn := c31_settings hf hx hs hr (.inl hk) hl h.type.asn4
  rw [← hdir, ← hkey] at hn
  generalize (runMsgs (s.frame ord f).2 later).2 = z at hn ⊢
  refine ⟨(z.peers.at h.key).ctx.setAsn4 h.type.asn4, rfl, hn.ap, fun b m hb => ?_⟩
  exact frame_rm3 hh hb

theorem rm_reads {s : Bmp.Codec} {ord : Order} {h : PeerHeader} (hh : h.WF) {c : AttrCtx} (ha : c.asn4 = h.type.asn4)
    (hc : AttrCtx.Equiv c { (s.peers.at h.key).ctx.attr with asn4 := h.type.asn4 }) {m : Msg} (hm : m.WF c) (ht : m.type = .update) :
    (∃ b, BmpMsg.write (.v3 (.routeMonitoring ⟨h, m⟩)) = .ok b ∧ (s.frame ord b).1 = .ok (.v3 (.routeMonitoring ⟨h, m⟩))) ∧
    ∀ l : List RmTlv, (∀ t ∈ l, t.value.WF t.index ∧ ∀ cap, t.value ≠ .stateless cap) → m.len ≤ 65531 →
      (l.map RmTlv.len).sum < 4294000000 →
      ∃ b, BmpMsg.write (.v4 (.routeMonitoring ⟨h, m, l⟩)) = .ok b ∧ (s.frame ord b).1 = .ok (.v4 (.routeMonitoring ⟨h, m, l⟩)) := by
  have hm' := Msg.wf_equiv hc hm
  have hat : ∀ p, some h = some p → Has { (s.peers.at h.key).ctx.attr with asn4 := h.type.asn4 } (s.peers.at p.key) := by
    rintro p hp; obtain rfl := Option.some.inj hp; rfl
  have hlen := (Msg.len_le hm).1
  constructor
  · have hw : BmpMsg.WF { (s.peers.at h.key).ctx.attr with asn4 := h.type.asn4 } (.v3 (.routeMonitoring ⟨h, m⟩)) := by
      refine ⟨?_, hh, rfl, hm', ht⟩
      simp only [BmpMsg.len, Value.len, Rm3.len, PeerHeader.len]; omega
    exact ⟨_, BmpMsg.write_eq hw, frame_reads hw hat⟩
  · intro l hl hml hsum
    have hctx : Rm4.ctx { (s.peers.at h.key).ctx.attr with asn4 := h.type.asn4 } ⟨h, m, l⟩ =
        { (s.peers.at h.key).ctx.attr with asn4 := h.type.asn4 } := by
      unfold Rm4.ctx
      simp only
      generalize ({ (s.peers.at h.key).ctx.attr with asn4 := h.type.asn4 } : AttrCtx) = c'
      clear hsum
      induction l with
      | nil => rfl
      | cons t l ih =>
        rw [List.foldl_cons]
        have e : t.value.apply h.type.adjRibOut c' = c' := by
          have := (hl t List.mem_cons_self).2
          cases ht : t.value with
          | stateless cap => exact absurd ht (this cap)
          | _ => rfl
        rw [e]
        exact ih fun t ht => hl t (List.mem_cons_of_mem _ ht)
    have hw : BmpMsg.WF { (s.peers.at h.key).ctx.attr with asn4 := h.type.asn4 } (.v4 (.routeMonitoring ⟨h, m, l⟩)) := by
      refine ⟨?_, hh, rfl, fun t ht => (hl t ht).1, by rw [hctx]; exact hm', hml, ht⟩
      simp only [BmpMsg.len, Value.len, Rm4.len, PeerHeader.len, show ∀ a b, RmTlv.len (Rm4.pduTlv ⟨a, m, b⟩) = 6 + m.len from fun _ _ => rfl]
      generalize (l.map RmTlv.len).sum = n at hsum ⊢
      omega
    exact ⟨_, BmpMsg.write_eq hw, frame_reads hw hat⟩

/-- **C31 (routes, with the direction of the Peer Up).** In the same situation, an UPDATE whose routes have path
identifiers exactly in the families for which ADD-PATH is negotiated, is read back from the route monitoring message
that carries it, in version 3 and in version 4. Two numbers of labels that both sides list for one family are excluded
(see `c70_disproved`). -/
theorem c31_routes_partial (s : Bmp.Codec) (ord ord' : Order) (f : Bytes) (x : BmpMsg) (u : PeerUp) (sent received : Open)
    (later : List (Order × Bytes)) (hf : (s.frame ord f).1 = .ok x) (hx : BmpMsg.up? x = some u)
    (hs : u.sent = .open sent) (hr : u.received = .open received) (hk : u.header.type.kind ≠ .locRib)
    (hl : ∀ m, Res.ok m ∈ (runMsgs (s.frame ord f).2 later).1 → Silent u.header.key m)
    (h : PeerHeader) (hh : h.WF) (hkey : h.key = u.header.key) (hdir : h.type.adjRibOut = u.header.type.adjRibOut)
    (hu : ∀ t n n', CommonCount sent.caps received.caps t n → CommonCount sent.caps received.caps t n' → n' = n)
    (c : AttrCtx) (ha : c.asn4 = h.type.asn4) (hc : AsNegotiated h.type.adjRibOut sent.caps received.caps c)
    (m : Msg) (hm : m.WF c) (ht : m.type = .update) :
    (∃ b, BmpMsg.write (.v3 (.routeMonitoring ⟨h, m⟩)) = .ok b ∧
      ((runMsgs (s.frame ord f).2 later).2.frame ord' b).1 = .ok (.v3 (.routeMonitoring ⟨h, m⟩))) ∧
    ∀ l : List RmTlv, (∀ t ∈ l, t.value.WF t.index ∧ ∀ cap, t.value ≠ .stateless cap) → m.len ≤ 65531 →
      (l.map RmTlv.len).sum < 4294000000 →
      ∃ b, BmpMsg.write (.v4 (.routeMonitoring ⟨h, m, l⟩)) = .ok b ∧
        ((runMsgs (s.frame ord f).2 later).2.frame ord' b).1 = .ok (.v4 (.routeMonitoring ⟨h, m, l⟩)) := by
  have hn := c31_settings hf hx hs hr (.inl hk) hl h.type.asn4
  rw [← hdir, ← hkey] at hn
  exact rm_reads hh ha (hc.equiv hn ha hu) hm ht

/-- **C31 (Loc-RIB).** For a Loc-RIB instance the same holds of its first Peer Up. What is missing: the settings of an
earlier Peer Up of the instance stay for the families that the new one does not mention (`c31_locRib_disproved`). -/
theorem c31_locRib_partial (ord ord' : Order) (before : List (Order × Bytes)) (f : Bytes) (x : BmpMsg) (u : PeerUp) (sent received : Open)
    (later : List (Order × Bytes)) (hb : ∀ m, Res.ok m ∈ (runMsgs .new before).1 → Silent u.header.key m)
    (hf : ((runMsgs .new before).2.frame ord f).1 = .ok x) (hx : BmpMsg.up? x = some u)
    (hs : u.sent = .open sent) (hr : u.received = .open received)
    (hl : ∀ m, Res.ok m ∈ (runMsgs ((runMsgs .new before).2.frame ord f).2 later).1 → Silent u.header.key m)
    (h : PeerHeader) (hh : h.WF) (hkey : h.key = u.header.key) (hdir : h.type.adjRibOut = u.header.type.adjRibOut) :
    ∃ c : MsgCtx, c.attr.asn4 = h.type.asn4 ∧ (∀ t, c.attr.ap t = true ↔ Negotiated h.type.adjRibOut sent.caps received.caps t) ∧
      ∀ (b : Bytes) (m : Msg), 48 + b.length < 4294967296 →
        (((runMsgs ((runMsgs .new before).2.frame ord f).2 later).2.frame ord' (bmpFrame 3 (0 :: (h.write ++ b)))).1 =
            .ok (.v3 (.routeMonitoring ⟨h, m⟩)) ↔
          m.type = .update ∧ ∃ r i, parseMsg c (⟨b, 48⟩, .none) = (.ok m, (r, i)) ∧ r.buf = []) := by
  have h0 := run_sameAt _ hb
  have hn := c31_settings hf hx hs hr (.inr fun t => by rw [h0.addPath, h0.labels]; exact ⟨rfl, rfl⟩) hl h.type.asn4
  rw [← hdir, ← hkey] at hn
  generalize (runMsgs ((runMsgs .new before).2.frame ord f).2 later).2 = z at hn ⊢
  refine ⟨(z.peers.at h.key).ctx.setAsn4 h.type.asn4, rfl, hn.ap, fun b m hb => ?_⟩
  exact frame_rm3 hh hb

/-! ### Cases -/

/-- an order -/
def asIs : Order := ⟨id, fun _ => .refl _⟩
/-- the header of a peer, with the direction and the identifier given -/
def peerAt (out : Bool) (id : UInt32) : PeerHeader :=
  ⟨.session .global false false false out, none, some (.v4 0x0a000001), 65000, id, none⟩
/-- a header of Loc-RIB -/
def locAt : PeerHeader := ⟨.locRib false, none, none, 65000, 0x0a000001, none⟩
/-- a Peer Up with these capabilities; the OPEN of the peer says that it is 10.0.0.1 -/
def upWith (h : PeerHeader) (loc rem : List Cap) : PeerUp :=
  ⟨h, none, none, none, .open ⟨1, 180, 0x0a000002, [loc]⟩, .open ⟨1, 180, 0x0a000001, [rem]⟩, []⟩
/-- the octets of a message -/
def octetsOf (m : BmpMsg) : Bytes := match m.write with | .ok b => b | _ => []
/-- ADD-PATH for IPv4 unicast -/
def pathsCap (send receive : Bool) : List Cap := [.addPath [⟨.ipv4Unicast, send, receive⟩]]
/-- an UPDATE that withdraws 0.0.0.0/0 with the path identifier 1 -/
def onePath : Msg := .update ⟨[⟨some 1, ⟨[0, 0, 0, 0], 0⟩⟩], [], []⟩
/-- what the same octets are without path identifiers -/
def fourNets : Msg := .update ⟨[⟨none, ⟨[0, 0, 0, 0], 0⟩⟩, ⟨none, ⟨[0, 0, 0, 0], 0⟩⟩, ⟨none, ⟨[0, 0, 0, 0], 0⟩⟩, ⟨none, ⟨[0, 0, 0, 0], 1⟩⟩], [], []⟩
/-- a route monitoring message -/
def monitor (h : PeerHeader) (m : Msg) : BmpMsg := .v3 (.routeMonitoring ⟨h, m⟩)

/-- a Peer Up, something else, and a route -/
example : let up := upWith (peerAt false 0x0a000001) (pathsCap false true) (pathsCap true false)
    let f := octetsOf (.v3 (.peerUp up))
    (Bmp.Codec.new.frame asIs f).1 = .ok (.v3 (.peerUp up)) ∧
    (runMsgs (Bmp.Codec.new.frame asIs f).2 [(asIs, bmpFrame 3 [4]), (asIs, octetsOf (monitor (peerAt false 0x0a000001) onePath))]).1 =
      [.ok (.v3 (.initiation [])), .ok (monitor (peerAt false 0x0a000001) onePath)] := by decide +kernel
example : Negotiated false (pathsCap false true) (pathsCap true false) .ipv4Unicast ∧
    ¬ Negotiated true (pathsCap false true) (pathsCap true false) .ipv4Unicast :=
  ⟨⟨_, _, rfl, rfl, rfl, rfl⟩, by rintro ⟨l, r, hl, -, h, -⟩; obtain rfl := Option.some.inj hl; simp at h⟩
/-- the settings that are negotiated there, and an UPDATE that goes with them -/
example : ∃ c : AttrCtx, c.asn4 = (peerAt false 0x0a000001).type.asn4 ∧ AsNegotiated false (pathsCap false true) (pathsCap true false) c ∧
    onePath.WF c ∧ onePath.type = .update :=
  ⟨learn false (pathsCap false true) (pathsCap true false) [] { defaultCtx.attr with asn4 := true }, rfl,
    negotiated_learn asIs (fun _ => rfl) (fun _ => rfl),
    ⟨⟨by intro a ha; simp only [List.mem_singleton] at ha; subst ha; exact ⟨⟨⟨by decide, by decide⟩, by decide⟩, by decide, by decide⟩,
      by simp, by simp, by decide, by decide⟩, by decide⟩, rfl⟩
/-- the same for the instance of Loc-RIB -/
example : let up := upWith locAt (pathsCap false true) (pathsCap true false)
    (runMsgs .new [(asIs, octetsOf (.v4 (.peerUp up))), (asIs, octetsOf (monitor locAt onePath))]).1 =
      [.ok (.v4 (.peerUp up)), .ok (monitor locAt onePath)] := by decide +kernel

/-- **C31 does not hold of the other direction.** The Peer Up has the direction bit off, as RFC 8671 wants it of every Peer
Up. Routes in adj-rib-out are negotiated to have path identifiers, and are read without. -/
theorem c31_direction_disproved : ∃ u : PeerUp, u.sent = .open ⟨1, 180, 0x0a000002, [pathsCap true false]⟩ ∧
    u.received = .open ⟨1, 180, 0x0a000001, [pathsCap false true]⟩ ∧
    Negotiated true (pathsCap true false) (pathsCap false true) .ipv4Unicast ∧
    (peerAt true 0x0a000001).key = u.header.key ∧
    (runMsgs .new [(asIs, octetsOf (.v3 (.peerUp u))), (asIs, octetsOf (monitor (peerAt true 0x0a000001) onePath))]).1 =
      [.ok (.v3 (.peerUp u)), .ok (monitor (peerAt true 0x0a000001) fourNets)] := by
  refine ⟨upWith (peerAt false 0x0a000001) (pathsCap true false) (pathsCap false true), rfl, rfl, ⟨_, _, rfl, rfl, rfl, rfl⟩, rfl, ?_⟩
  decide +kernel

/-- **C31 does not hold of a second Peer Up of Loc-RIB.** Neither side asks for ADD-PATH any more, and routes are read
with path identifiers. -/
theorem c31_locRib_disproved : ¬ Negotiated false [] [] .ipv4Unicast ∧
    (runMsgs .new [(asIs, octetsOf (.v3 (.peerUp (upWith locAt (pathsCap true true) (pathsCap true true))))),
      (asIs, octetsOf (.v3 (.peerUp (upWith locAt [] [])))), (asIs, octetsOf (monitor locAt fourNets))]).1 =
      [.ok (.v3 (.peerUp (upWith locAt (pathsCap true true) (pathsCap true true)))),
       .ok (.v3 (.peerUp (upWith locAt [] []))), .ok (monitor locAt onePath)] :=
  ⟨by rintro ⟨l, r, hl, -⟩; simp [pathEntry, pathEntries] at hl, by decide +kernel⟩

/-- **C31 does not hold of the identifier in the received OPEN.** The header of the second Peer Up has another BGP
identifier than the OPEN in it. What the first one left for the identifier of the OPEN is not cleared. -/
theorem c31_second_disproved : ¬ Negotiated false [] [] .ipv4Unicast ∧
    (runMsgs .new [(asIs, octetsOf (.v3 (.peerUp (upWith (peerAt false 0) (pathsCap true true) (pathsCap true true))))),
      (asIs, octetsOf (.v3 (.peerUp (upWith (peerAt false 0) [] [])))), (asIs, octetsOf (monitor (peerAt false 0x0a000001) fourNets))]).1 =
      [.ok (.v3 (.peerUp (upWith (peerAt false 0) (pathsCap true true) (pathsCap true true)))),
       .ok (.v3 (.peerUp (upWith (peerAt false 0) [] []))), .ok (monitor (peerAt false 0x0a000001) onePath)] :=
  ⟨by rintro ⟨l, r, hl, -⟩; simp [pathEntry, pathEntries] at hl, by decide +kernel⟩

/-! ## C32 -/

/-- a message: its version and the octets behind the common header; and an order of hash sets -/
abbrev Frame := Order × Version × Bytes
/-- its octets -/
def Frame.octets (f : Frame) : Order × Bytes := (f.1, frameOf f.2.1 f.2.2)
/-- its length fits the common header -/
def Frame.Ok (f : Frame) : Prop := 5 + f.2.2.length < 4294967296
/-- a message of the peer `k`, or of none: `headerOf` is the per-peer header in the octets -/
def Frame.isOf (k : PeerKey) (f : Frame) : Bool := match headerOf f.2.2 with | some h => decide (h.key = k) | none => true

/-- what comes out for the messages of peer `k`, and those of none -/
def outputsOf (k : PeerKey) (s : Bmp.Codec) (fs : List Frame) : List (Res BmpErr BmpMsg) :=
  ((fs.zip (runMsgs s (fs.map Frame.octets)).1).filter fun x => x.1.isOf k).map (·.2)

/-- the Peer Ups of other peers that are among the messages do not carry an OPEN with which they would be peer `k` -/
def NoAlias (k : PeerKey) (out : List (Res BmpErr BmpMsg)) : Prop :=
  ∀ m, Res.ok m ∈ out → ∀ u, BmpMsg.up? m = some u → u.header.key ≠ k → ∀ o, u.received = .open o → { u.header.key with bgpId := o.bgpId } ≠ k

theorem frame_agree {s s' : Bmp.Codec} {f : Frame} (hf : f.Ok)
    (h : ∀ x, headerOf f.2.2 = some x → SameAt x.key s.peers s'.peers) (ord : Order) :
    (s.frame ord (frameOf f.2.1 f.2.2)).1 = (s'.frame ord (frameOf f.2.1 f.2.2)).1 := by
  rw [frame_res, frame_res, (parseBmp_frame _ _ hf s.peers).1, (parseBmp_frame _ _ hf s'.peers).1]
  obtain ⟨h1, h2⟩ := versionBody_eq f.2.1 f.2.2 s.peers s'.peers h
  unfold Bmp.parseBody
  revert h1 h2
  rcases versionBody f.2.1 (⟨f.2.2, 5⟩, s.peers) with ⟨m | m | m, ⟨r, g⟩⟩ <;>
    rcases versionBody f.2.1 (⟨f.2.2, 5⟩, s'.peers) with ⟨m' | m' | m', ⟨r', g'⟩⟩ <;> intro h1 h2 <;>
    simp only [Res.ok.injEq, Res.err.injEq, Res.fault.injEq, reduceCtorEq] at h1 h2 <;> subst h1 <;> try rfl
  subst h2
  simp only
  split <;> rfl

theorem mapAttr_same {c c' : PeerCtx} (h : c.Same c') {f : AttrCtx → AttrCtx}
    (hf : ∀ (a : AttrCtx) (b : Bool), ∃ b', f { a with asn4 := b } = { f a with asn4 := b' }) : (c.mapAttr f).Same (c'.mapAttr f) := by
  obtain ⟨b, hb⟩ := h
  obtain ⟨b', e⟩ := hf c.ctx.attr b
  refine ⟨b', ?_⟩
  unfold PeerCtx.mapAttr
  simp only [hb]
  show ({ c.ctx with attr := f { c.ctx.attr with asn4 := b } } : MsgCtx) = _
  rw [e]; rfl

theorem learn_asn4 (out : Bool) (loc rem : List Cap) (ls : List MultipleLabel) (a : AttrCtx) (b : Bool) :
    ∃ b', learn out loc rem ls { a with asn4 := b } = { learn out loc rem ls a with asn4 := b' } := by
  have h1 : (learn out loc rem ls { a with asn4 := b }).addPath = (learn out loc rem ls a).addPath := by
    funext t; rw [learn_addPath, learn_addPath]
  have h2 : (learn out loc rem ls { a with asn4 := b }).labels = (learn out loc rem ls a).labels := by
    funext t; rw [learn_labels, learn_labels]
  exact ⟨(learn out loc rem ls { a with asn4 := b }).asn4, by
    generalize learn out loc rem ls { a with asn4 := b } = x at h1 h2 ⊢
    cases x; simp only at h1 h2; subst h1 h2; rfl⟩

theorem up_sameAt {g g' : Peers} {k : PeerKey} (h : SameAt k g g') (p : PeerHeader) (sent received : Open) (ls : List MultipleLabel) :
    SameAt k (g.up p sent received ls) (g'.up p sent received ls) := by
  have hl := learn_asn4 p.type.adjRibOut sent.caps received.caps ls
  have key : ∀ {g g' : Peers} {f : AttrCtx → AttrCtx} (k' : PeerKey), SameAt k g g' →
      (∀ (a : AttrCtx) (b : Bool), ∃ b', f { a with asn4 := b } = { f a with asn4 := b' }) →
      SameAt k (g.insert k' ((g.at k').mapAttr f)) (g'.insert k' ((g'.at k').mapAttr f)) := by
    intro g g' f k' h hf
    unfold SameAt
    by_cases e : k = k'
    · subst e; rw [Peers.at_insert_self, Peers.at_insert_self]; exact mapAttr_same h hf
    · rw [Peers.at_insert_ne _ e, Peers.at_insert_ne _ e]; exact h
  unfold Peers.up
  simp only
  split
  · exact key _ h hl
  · exact key _ (key _ h fun a b => ⟨(learn p.type.adjRibOut sent.caps received.caps ls (AttrCtx.clear { a with asn4 := b })).asn4, by
      obtain ⟨b', e⟩ := hl (AttrCtx.clear a) b
      show learn _ _ _ _ { AttrCtx.clear a with asn4 := b } = { learn _ _ _ _ (AttrCtx.clear a) with
        asn4 := (learn p.type.adjRibOut sent.caps received.caps ls { AttrCtx.clear a with asn4 := b }).asn4 }
      rw [e]⟩) hl

/-- the same message has the same effect on what is known about a peer -/
theorem updateMsg_sameAt {g g' : Peers} {k : PeerKey} (h : SameAt k g g') (ord : Order) (m : BmpMsg) :
    SameAt k (g.updateMsg ord m) (g'.updateMsg ord m) := by
  have go : ∀ {R D : Type} (down : D → PeerHeader) (v : Value R D), SameAt k (g.update ord down v) (g'.update ord down v) := by
    intro R D down v
    cases v with
    | peerDown d =>
      show SameAt k (g.erase _) (g'.erase _)
      unfold SameAt
      by_cases e : k = (down d).key
      · subst e; rw [Peers.at_erase_self, Peers.at_erase_self]; exact .refl _
      · rw [Peers.at_erase_ne _ e, Peers.at_erase_ne _ e]; exact h
    | termination l => exact SameAt.refl _ _
    | peerUp u =>
      show SameAt k (g.peerUp ord u) (g'.peerUp ord u)
      unfold Peers.peerUp
      split
      · exact up_sameAt h _ _ _ _
      · exact h
    | _ => exact h
  cases m with
  | v3 v => exact go _ v
  | v4 v => exact go _ v

theorem frame_sameAt_both {s s' : Bmp.Codec} {k : PeerKey} {f : Bytes} (ord : Order) (h : SameAt k s.peers s'.peers)
    (he : (s.frame ord f).1 = (s'.frame ord f).1) : SameAt k (s.frame ord f).2.peers (s'.frame ord f).2.peers := by
  obtain ⟨g, hg, h1, h2⟩ := frame_peers ord s f
  obtain ⟨g', hg', h1', h2'⟩ := frame_peers ord s' f
  have hgg : SameAt k g g' := (SameAt.trans (SameAt.symm (hg k)) h).trans (hg' k)
  by_cases hm : ∃ m, (s.frame ord f).1 = .ok m
  · obtain ⟨m, hm⟩ := hm
    rw [h1 m hm, h1' m (he ▸ hm)]
    exact updateMsg_sameAt hgg ord m
  · rw [h2 fun m e => hm ⟨m, e⟩, h2' fun m e => hm ⟨m, by rw [he]; exact e⟩]
    exact hgg

theorem frame_header {s : Bmp.Codec} {f : Frame} (hf : f.Ok) {ord : Order} {m : BmpMsg}
    (h : (s.frame ord (frameOf f.2.1 f.2.2)).1 = .ok m) : headerOf f.2.2 = m.header? := by
  rw [frame_res, (parseBmp_frame _ _ hf s.peers).1] at h
  unfold Bmp.parseBody at h
  revert h
  rcases hv : versionBody f.2.1 (⟨f.2.2, 5⟩, s.peers) with ⟨x | x | x, ⟨r, g⟩⟩ <;> intro h
  · simp only at h
    split at h
    · simp only [Res.ok.injEq] at h; subst h; exact (versionBody_header hv).1
    · simp at h
  · simp at h
  · simp at h

/-- a message with the header of another peer says nothing about `k`, but for the identifier of its OPEN -/
theorem silent_of_header {k : PeerKey} {m : BmpMsg} {h : PeerHeader} (hm : m.header? = some h) (hk : h.key ≠ k)
    (ha : ∀ u, BmpMsg.up? m = some u → u.header.key ≠ k → ∀ o, u.received = .open o → { u.header.key with bgpId := o.bgpId } ≠ k) :
    Silent k m := by
  have go : ∀ {R D : Type} (rm : R → PeerHeader) (down : D → PeerHeader) (v : Value R D), v.header? rm down = some h →
      (∀ u, upIn v = some u → u.header.key ≠ k → ∀ o, u.received = .open o → { u.header.key with bgpId := o.bgpId } ≠ k) →
      (∀ u, upIn v = some u → u.header.key ≠ k ∧ ∀ o, u.received = .open o → { u.header.key with bgpId := o.bgpId } ≠ k) ∧
      (∀ h, (downIn v).map down = some h → h.key ≠ k) ∧ isTermination v = false := by
    intro R D rm down v hv ha
    have no : ∀ {α : Type} (P : α → Prop), ∀ u, (none : Option α) = some u → P u := fun _ _ h => nomatch h
    cases v with
    | peerUp u =>
      have e : u.header = h := Option.some.inj hv
      refine ⟨fun w hw => ?_, no _, rfl⟩
      have e' : u = w := Option.some.inj hw
      subst e'
      have hk : u.header.key ≠ k := by rw [e]; exact hk
      exact ⟨hk, ha _ rfl hk⟩
    | peerDown d =>
      have e : down d = h := Option.some.inj hv
      refine ⟨no _, fun h' hh => ?_, rfl⟩
      have e' : down d = h' := Option.some.inj hh
      rw [← e', e]; exact hk
    | termination l => exact nomatch hv
    | _ => exact ⟨no _, no _, rfl⟩
  cases m with
  | v3 v => exact go _ _ v hm ha
  | v4 v => exact go _ _ v hm ha

/-- what comes out for a peer depends on what is known about it and on its messages -/
theorem outputs_agree (k : PeerKey) (s s' : Bmp.Codec) (fs : List Frame) (hok : ∀ f ∈ fs, f.Ok)
    (hs : SameAt k s.peers s'.peers) (ha : NoAlias k (runMsgs s (fs.map Frame.octets)).1) :
    outputsOf k s fs = (runMsgs s' ((fs.filter (Frame.isOf k)).map Frame.octets)).1 := by
  induction fs generalizing s s' with
  | nil => rfl
  | cons f fs ih =>
    have hf := hok f List.mem_cons_self
    have hfs := fun g hg => hok g (List.mem_cons_of_mem _ hg)
    simp only [List.map_cons, runMsgs] at ha
    have ha' : NoAlias k (runMsgs (s.frame f.octets.1 f.octets.2).2 (fs.map Frame.octets)).1 := fun m hm => ha m (List.mem_cons_of_mem _ hm)
    have ha0 := fun m (hm : (s.frame f.octets.1 f.octets.2).1 = .ok m) => ha m (by rw [hm]; exact List.mem_cons_self)
    unfold outputsOf
    simp only [List.map_cons, runMsgs, List.zip_cons_cons]
    by_cases hk : f.isOf k = true
    · have he := frame_agree (s := s) (s' := s') hf (fun x hx => by
        have : x.key = k := by simpa [Frame.isOf, hx] using hk
        rw [this]; exact hs) f.1
      rw [List.filter_cons_of_pos (by exact hk), List.filter_cons_of_pos hk]
      simp only [List.map_cons, runMsgs]
      rw [show (s.frame f.octets.1 f.octets.2).1 = (s'.frame f.octets.1 f.octets.2).1 from he]
      congr 1
      exact ih _ _ hfs (frame_sameAt_both _ hs he) ha'
    · rw [List.filter_cons_of_neg (by exact hk), List.filter_cons_of_neg hk]
      refine ih _ _ hfs ?_ ha'
      refine (SameAt.symm (frame_sameAt fun m hm => (?_ : Silent k m).touches)).trans hs
      have hh := frame_header hf hm
      unfold Frame.isOf at hk
      cases hd : headerOf f.2.2 with
      | none => rw [hd] at hk; simp at hk
      | some h =>
        rw [hd] at hk hh
        exact silent_of_header hh.symm (by simpa using hk) (ha0 m hm)

/-- **C32 (other peers).** What comes out for the messages of a peer is what comes out if the other peers had not been
there. What is missing: the Peer Up of a peer whose OPEN has the BGP identifier of this one, if all else in their
headers is the same (`c32_other_disproved`). -/
theorem c32_others_partial (k : PeerKey) (s : Bmp.Codec) (fs : List Frame) (hok : ∀ f ∈ fs, f.Ok)
    (ha : NoAlias k (runMsgs s (fs.map Frame.octets)).1) :
    outputsOf k s fs = (runMsgs s ((fs.filter (Frame.isOf k)).map Frame.octets)).1 :=
  outputs_agree k s s fs hok (SameAt.refl _ _) ha

/-- **C32 (Peer Down).** After its Peer Down, whatever came before, what comes out for the messages of a peer is what
comes out of a new codec. What is missing: the same Peer Up of another (`c32_other_disproved`), and what was negotiated
by the session and stays under the BGP identifier of its OPEN (`c32_down_disproved`). -/
theorem c32_down_partial (s : Bmp.Codec) (ord : Order) (f : Bytes) (x : BmpMsg) (h : PeerHeader)
    (hf : (s.frame ord f).1 = .ok x) (hx : BmpMsg.down? x = some h) (fs : List Frame) (hok : ∀ f ∈ fs, f.Ok)
    (ha : NoAlias h.key (runMsgs (s.frame ord f).2 (fs.map Frame.octets)).1) :
    outputsOf h.key (s.frame ord f).2 fs = (runMsgs .new ((fs.filter (Frame.isOf h.key)).map Frame.octets)).1 := by
  refine outputs_agree _ _ _ fs hok ?_ ha
  obtain ⟨g, hg, h1, -⟩ := frame_peers ord s f
  rw [h1 x hf]
  have go : ∀ {R D : Type} (down : D → PeerHeader) (v : Value R D), (downIn v).map down = some h → g.update ord down v = g.erase h.key := by
    intro R D down v hv
    cases v with
    | peerDown d => obtain rfl := Option.some.inj hv; rfl
    | _ => exact nomatch hv
  have e : g.updateMsg ord x = g.erase h.key := by
    cases x with
    | v3 v => exact go _ v hx
    | v4 v => exact go _ v hx
  rw [e]
  unfold SameAt
  rw [Peers.at_erase_self]
  exact .refl _

theorem run_same {s s' : Bmp.Codec} (fs : List Frame) (hok : ∀ f ∈ fs, f.Ok) (h : s.peers.Same s'.peers) :
    (runMsgs s (fs.map Frame.octets)).1 = (runMsgs s' (fs.map Frame.octets)).1 := by
  induction fs generalizing s s' with
  | nil => rfl
  | cons f fs ih =>
    have he := frame_agree (s := s) (s' := s') (hok f List.mem_cons_self) (fun x _ => h x.key) f.1
    simp only [List.map_cons, runMsgs]
    rw [show (s.frame f.octets.1 f.octets.2).1 = (s'.frame f.octets.1 f.octets.2).1 from he]
    congr 1
    exact ih (fun g hg => hok g (List.mem_cons_of_mem _ hg)) fun k => frame_sameAt_both _ (h k) he

/-- **C32 (Termination).** After a Termination, whatever came before, everything is decoded as by a new codec. -/
theorem c32_termination (s : Bmp.Codec) (ord : Order) (f : Bytes) (x : BmpMsg) (hf : (s.frame ord f).1 = .ok x)
    (hx : BmpMsg.ends x = true) (fs : List Frame) (hok : ∀ f ∈ fs, f.Ok) :
    (runMsgs (s.frame ord f).2 (fs.map Frame.octets)).1 = (runMsgs .new (fs.map Frame.octets)).1 := by
  refine run_same fs hok ?_
  obtain ⟨g, hg, h1, -⟩ := frame_peers ord s f
  rw [h1 x hf]
  have go : ∀ {R D : Type} (down : D → PeerHeader) (v : Value R D), isTermination v = true → g.update ord down v = .empty := by
    intro R D down v hv
    cases v with
    | termination l => rfl
    | _ => exact nomatch hv
  have e : g.updateMsg ord x = .empty := by
    cases x with
    | v3 v => exact go _ v hx
    | v4 v => exact go _ v hx
  rw [e]
  exact Peers.Same.refl _

/-- the octets of a message behind its common header -/
def bodyOf (m : BmpMsg) : Bytes := (octetsOf m).drop 5
/-- a Peer Down -/
def downOf (h : PeerHeader) : BmpMsg := .v3 (.peerDown ⟨h, .remoteNoData⟩)

/-- two peers; one goes down, and what it negotiated is gone, while the other is not concerned -/
example : let a := peerAt false 0x0a000001
    let b : PeerHeader := { a with peerAs := 65001 }
    let up := fun h => BmpMsg.v3 (.peerUp (upWith h (pathsCap true true) (pathsCap true true)))
    let fs : List Frame := [(asIs, .v3, bodyOf (up a)), (asIs, .v3, bodyOf (up b)), (asIs, .v3, bodyOf (downOf a)),
      (asIs, .v3, bodyOf (monitor a onePath)), (asIs, .v3, bodyOf (monitor b onePath)), (asIs, .v4, bodyOf (.v4 (.termination []))),
      (asIs, .v3, bodyOf (monitor b onePath))]
    (runMsgs .new (fs.map Frame.octets)).1 = [.ok (up a), .ok (up b), .ok (downOf a), .ok (monitor a fourNets), .ok (monitor b onePath),
      .ok (.v4 (.termination [])), .ok (monitor b fourNets)] ∧
    outputsOf b.key .new fs = [.ok (up b), .ok (monitor b onePath), .ok (.v4 (.termination [])), .ok (monitor b fourNets)] := by
  decide +kernel

/-- **C32 does not hold of a peer with the identifier of another's OPEN.** The Peer Up with the identifier 0 in its header
turns on path identifiers for the peer 10.0.0.1. -/
theorem c32_other_disproved : (peerAt false 0).key ≠ (peerAt false 0x0a000001).key ∧
    let up := BmpMsg.v3 (.peerUp (upWith (peerAt false 0) (pathsCap true true) (pathsCap true true)))
    let rm := octetsOf (monitor (peerAt false 0x0a000001) fourNets)
    (runMsgs .new [(asIs, rm)]).1 = [.ok (monitor (peerAt false 0x0a000001) fourNets)] ∧
    (runMsgs .new [(asIs, octetsOf up), (asIs, rm)]).1 = [.ok up, .ok (monitor (peerAt false 0x0a000001) onePath)] :=
  ⟨by decide, by decide +kernel⟩

/-- **C32 does not hold of all that a session negotiated.** The Peer Down of the same session does not remove it. -/
theorem c32_down_disproved :
    let up := BmpMsg.v3 (.peerUp (upWith (peerAt false 0) (pathsCap true true) (pathsCap true true)))
    let rm := octetsOf (monitor (peerAt false 0x0a000001) fourNets)
    (runMsgs .new [(asIs, rm)]).1 = [.ok (monitor (peerAt false 0x0a000001) fourNets)] ∧
    (runMsgs .new [(asIs, octetsOf up), (asIs, octetsOf (downOf (peerAt false 0))), (asIs, rm)]).1 =
      [.ok up, .ok (downOf (peerAt false 0)), .ok (monitor (peerAt false 0x0a000001) onePath)] := by
  decide +kernel

/-! ## What identifies a peer, and the flags of its header -/

/-- **C31, C32 (the flags of a peer header).** Read from any octets, of the peers that are BGP sessions the A flag (0x20)
says that AS numbers have two octets and the O flag (0x10) that the routes are those sent to the peer; the other peers
have four-octet AS numbers and no direction. -/
theorem c31_flags (t f : UInt8) (b : Bytes) (o : Nat) (h : PeerHeader) (r : Reader)
    (hp : Bmp.parseHeader ⟨t :: f :: b, o⟩ = (.ok h, r)) :
    (t < 3 → (h.type.asn4 = true ↔ f &&& 0x20 = 0) ∧ (h.type.adjRibOut = true ↔ f &&& 0x10 ≠ 0)) ∧
    (3 ≤ t → h.type.asn4 = true ∧ h.type.adjRibOut = false) := by
  have hf : ∀ f : UInt8, ((f &&& 0x20 == 0x20) = false ↔ f &&& 0x20 = 0) ∧ ((f &&& 0x10 == 0x10) = true ↔ f &&& 0x10 ≠ 0) := by
    intro f; obtain ⟨v⟩ := f; revert v; decide +kernel
  have key : ∃ k, PeerKind.ofCode t = some k ∧ h.type = PeerType.make k f := by
    unfold Bmp.parseHeader at hp
    obtain ⟨ty, r1, h1, hp⟩ := Parser.bind_eq_ok.mp hp
    obtain ⟨rd, r2, -, hp⟩ := Parser.bind_eq_ok.mp hp
    obtain ⟨a, r3, -, hp⟩ := Parser.bind_eq_ok.mp hp
    obtain ⟨as, r4, -, hp⟩ := Parser.bind_eq_ok.mp hp
    obtain ⟨id, r5, -, hp⟩ := Parser.bind_eq_ok.mp hp
    obtain ⟨s, r6, -, hp⟩ := Parser.bind_eq_ok.mp hp
    obtain ⟨m, r7, -, hp⟩ := Parser.bind_eq_ok.mp hp
    obtain ⟨off, r8, -, hp⟩ := Parser.bind_eq_ok.mp hp
    obtain ⟨tm, r9, -, hp⟩ := Parser.bind_eq_ok.mp hp
    obtain ⟨rfl, -⟩ := Parser.pure_eq_ok.mp hp
    have h1 := Parser.mapErr_eq_ok.mp h1
    unfold parsePeerType at h1
    obtain ⟨c, q1, e1, h1⟩ := Parser.bind_eq_ok.mp h1
    have e1 := Parser.mapErr_eq_ok.mp e1
    simp only [readU8, Prod.mk.injEq, Res.ok.injEq] at e1
    obtain ⟨rfl, rfl⟩ := e1
    obtain ⟨off, q2, e2, h1⟩ := Parser.bind_eq_ok.mp h1
    obtain ⟨rfl, rfl⟩ := Parser.getOffset_eq_ok.mp e2
    obtain ⟨k, q3, e3, h1⟩ := Parser.bind_eq_ok.mp h1
    obtain ⟨e5, rfl⟩ := Parser.ofOption_eq_ok.mp e3
    obtain ⟨g, q4, e4, h1⟩ := Parser.bind_eq_ok.mp h1
    have e4 := Parser.mapErr_eq_ok.mp e4
    simp only [readU8, Prod.mk.injEq, Res.ok.injEq] at e4
    obtain ⟨rfl, rfl⟩ := e4
    obtain ⟨rfl, -⟩ := Parser.pure_eq_ok.mp h1
    exact ⟨k, e5, rfl⟩
  obtain ⟨k, hk, hty⟩ := key
  rw [hty]
  have hsess : ∀ t k, PeerKind.ofCode t = some k → (t < 3 → ∃ i, k = .session i) ∧ (3 ≤ t → ∀ i, k ≠ .session i) := by
    intro t k hk
    unfold PeerKind.ofCode at hk
    split at hk
    · subst t; exact ⟨fun _ => ⟨_, (Option.some.inj hk).symm⟩, fun h => absurd h (by decide)⟩
    · split at hk
      · subst t; exact ⟨fun _ => ⟨_, (Option.some.inj hk).symm⟩, fun h => absurd h (by decide)⟩
      · split at hk
        · subst t; exact ⟨fun _ => ⟨_, (Option.some.inj hk).symm⟩, fun h => absurd h (by decide)⟩
        · rename_i h0 h1 h2
          refine ⟨fun h => ?_, fun _ i => ?_⟩
          · exfalso
            have h0' : t.toNat ≠ 0 := fun e => h0 (UInt8.toNat_inj.mp e)
            have h1' : t.toNat ≠ 1 := fun e => h1 (UInt8.toNat_inj.mp e)
            have h2' : t.toNat ≠ 2 := fun e => h2 (UInt8.toNat_inj.mp e)
            have h3' : t.toNat < 3 := h
            omega
          · split at hk
            · rw [← Option.some.inj hk]; simp
            · obtain ⟨n, -, rfl⟩ := Option.map_eq_some_iff.mp hk
              simp
  refine ⟨fun h => ?_, fun h => ?_⟩
  · obtain ⟨i, rfl⟩ := (hsess t k hk).1 h
    simp only [PeerType.make, PeerType.asn4, PeerType.adjRibOut, Bool.not_eq_true']
    exact hf f
  · have hn := (hsess t k hk).2 h
    cases k with
    | session i => exact absurd rfl (hn i)
    | locRib => exact ⟨rfl, rfl⟩
    | experimental n => exact ⟨rfl, rfl⟩

/-- a header with the A and O flags -/
example : ∃ h r, Bmp.parseHeader ⟨0 :: 0x30 :: (List.replicate 40 0), 0⟩ = (.ok h, r) ∧ h.type.asn4 = false ∧ h.type.adjRibOut = true :=
  ⟨_, _, rfl, rfl, rfl⟩

/-- **C32 (what identifies a peer).** Two headers are taken for the same peer exactly if address, distinguisher, AS number,
BGP identifier and the type octet are the same. -/
theorem c32_identity (a b : PeerHeader) : a.key = b.key ↔
    a.address = b.address ∧ a.rd = b.rd ∧ a.peerAs = b.peerAs ∧ a.bgpId = b.bgpId ∧ a.write.head? = b.write.head? := by
  have hc : ∀ j k : PeerKind, j.code = k.code ↔ j = k := by
    have : ∀ j, PeerKind.ofCode (PeerKind.code j) = some j := by
      rintro (i | - | n)
      · cases i <;> rfl
      · rfl
      · revert n; decide
    intro j k
    exact ⟨fun e => Option.some.inj (by rw [← this j, e, this k]), fun e => by rw [e]⟩
  have hw : ∀ h : PeerHeader, h.write.head? = some h.type.kind.code := fun _ => rfl
  rw [hw, hw, Option.some.injEq, hc]
  simp only [PeerHeader.key, PeerKey.mk.injEq]
  constructor
  · rintro ⟨h1, h2, h3, h4, h5⟩; exact ⟨h1, h3, h4, h5, h2⟩
  · rintro ⟨h1, h3, h4, h5, h2⟩; exact ⟨h1, h2, h3, h4, h5⟩

example : (peerAt false 1).key ≠ ({ peerAt false 1 with rd := some (.as2 1 1) } : PeerHeader).key ∧
    (peerAt true 1).key = (peerAt false 1).key := by decide

end Verif.Props
