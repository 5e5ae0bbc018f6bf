import Verif.Bmp.MsgLemmas
import Verif.Bmp.CodecLemmas
/-!
# What the codec knows about the peers
-/
namespace Verif.Bgp
open Verif

/-! ## Settings that mean the same -/

/-- contexts that are the same to the parsers of attributes -/
structure AttrCtx.Equiv (c c' : AttrCtx) : Prop where
  asn4 : c.asn4 = c'.asn4
  ap : c.ap = c'.ap
  lim : c.lim = c'.lim

theorem nlriFor_equiv {c c' : AttrCtx} (h : c.Equiv c') : nlriFor c = nlriFor c' := by
  unfold nlriFor; rw [h.ap, h.lim]
theorem NlriList.wf_equiv {c c' : AttrCtx} (h : c.Equiv c') (l : NlriList) : l.WF c = l.WF c' := by
  unfold NlriList.WF; rw [h.ap, h.lim]
theorem MpReach.wf_equiv {c c' : AttrCtx} (h : c.Equiv c') (l : MpReach) : l.WF c = l.WF c' := by
  unfold MpReach.WF; simp only [NlriList.wf_equiv h]
theorem MpUnreach.wf_equiv {c c' : AttrCtx} (h : c.Equiv c') (l : MpUnreach) : l.WF c = l.WF c' := by
  unfold MpUnreach.WF; rw [nlriFor_equiv h]; simp only [NlriList.wf_equiv h]
theorem AttrValue.wf_equiv {c c' : AttrCtx} (h : c.Equiv c') (l : AttrValue) : l.WF c = l.WF c' := by
  unfold AttrValue.WF; simp only [h.asn4, MpReach.wf_equiv h, MpUnreach.wf_equiv h]
theorem Msg.wf_equiv {c c' : AttrCtx} (h : c.Equiv c') {m : Msg} (hm : m.WF c) : m.WF c' := by
  cases m with
  | update m =>
    refine ⟨⟨?_, fun a ha => ?_, ?_, hm.1.withdrawnLen, hm.1.attrsLen⟩, hm.2⟩
    · rw [← h.ap]; exact hm.1.withdrawn
    · have := hm.1.attrs a ha
      exact ⟨by rw [← AttrValue.wf_equiv h]; exact this.value, this.fits, this.flags⟩
    · rw [← h.ap]; exact hm.1.nlri
  | _ => exact hm

end Verif.Bgp

namespace Verif.Bmp
open Verif Bgp

/-! ## Maps filled from lists -/

theorem apFlags_eq (l : List AddPathFamily) (t : AddressType) :
    apFlags l t = (l.filter (·.family = t)).getLast?.map fun f => (f.send, f.receive) := by
  have go : ∀ (l : List AddPathFamily) (m : HMap AddressType (Bool × Bool)),
      (l.foldl (fun m f => m.insert f.family (f.send, f.receive)) m) t =
        match (l.filter (·.family = t)).getLast? with
        | some f => some (f.send, f.receive)
        | none => m t := by
    intro l
    induction l with
    | nil => intro m; rfl
    | cons f l ih =>
      intro m
      rw [List.foldl_cons, ih, List.filter_cons]
      by_cases hf : f.family = t
      · simp only [hf, decide_true, if_true, List.getLast?_cons]
        cases (l.filter (·.family = t)).getLast? with
        | none => simp [HMap.insert_self]
        | some x => rfl
      · simp only [hf, decide_false, Bool.false_eq_true, if_false]
        cases (l.filter (·.family = t)).getLast? with
        | none => simp only; rw [HMap.insert_ne]; exact fun h => hf h.symm
        | some x => rfl
  unfold apFlags
  rw [go]
  cases (l.filter (·.family = t)).getLast? <;> rfl

theorem labels_fold (l : List MultipleLabel) (c : AttrCtx) (out : Bool) (t : AddressType) :
    (AttrCtx.update c out (.multipleLabels l)).labels t =
      match (l.filter (·.family = t)).getLast? with
      | some f => some f.count
      | none => c.labels t := by
  unfold AttrCtx.update
  simp only
  induction l generalizing c with
  | nil => rfl
  | cons f l ih =>
    rw [List.foldl_cons, ih, List.filter_cons]
    by_cases hf : f.family = t
    · simp only [hf, decide_true, if_true, List.getLast?_cons]
      cases (l.filter (·.family = t)).getLast? with
      | none => simp [AttrCtx.insertLabel]
      | some x => rfl
    · simp only [hf, decide_false, Bool.false_eq_true, if_false]
      cases (l.filter (·.family = t)).getLast? with
      | none => simp only [AttrCtx.insertLabel]; rw [if_neg fun h => hf h.symm]
      | some x => rfl

theorem labels_addPath (l : List MultipleLabel) (c : AttrCtx) (out : Bool) :
    (AttrCtx.update c out (.multipleLabels l)).addPath = c.addPath := by
  unfold AttrCtx.update
  simp only
  induction l generalizing c with
  | nil => rfl
  | cons f l ih => rw [List.foldl_cons, ih]; rfl

theorem learn_addPath (out : Bool) (loc rem : List Cap) (ls : List MultipleLabel) (c : AttrCtx) (t : AddressType) :
    (learn out loc rem ls c).addPath t =
      match apFlags (addPathsOf loc) t, apFlags (addPathsOf rem) t with
      | some l, some r => some (if out then l.1 && r.2 else r.1 && l.2)
      | _, _ => c.addPath t := by
  unfold learn; rw [labels_addPath]; rfl

theorem learn_labels (out : Bool) (loc rem : List Cap) (ls : List MultipleLabel) (c : AttrCtx) (t : AddressType) :
    (learn out loc rem ls c).labels t =
      match (ls.filter (·.family = t)).getLast? with
      | some f => some f.count
      | none => c.labels t := by
  unfold learn; rw [labels_fold]; rfl

/-- learning the same twice -/
theorem learn_twice (out : Bool) (loc rem : List Cap) (ls : List MultipleLabel) (c : AttrCtx) :
    (learn out loc rem ls (learn out loc rem ls c)).addPath = (learn out loc rem ls c).addPath ∧
    (learn out loc rem ls (learn out loc rem ls c)).labels = (learn out loc rem ls c).labels := by
  constructor
  · funext t
    rw [learn_addPath, learn_addPath]
    cases apFlags (addPathsOf loc) t <;> cases apFlags (addPathsOf rem) t <;> rfl
  · funext t
    rw [learn_labels, learn_labels]
    cases (ls.filter (·.family = t)).getLast? <;> rfl

/-! ## Peer Up -/

/-- the key of a Peer Up after it -/
theorem up_at {g : Peers} {h : PeerHeader} {sent received : Open} {ls : List MultipleLabel} (hk : h.type.kind ≠ .locRib) :
    ((g.up h sent received ls).at h.key).ctx.attr.addPath =
      (learn h.type.adjRibOut sent.caps received.caps ls (AttrCtx.clear (g.at h.key).ctx.attr)).addPath ∧
    ((g.up h sent received ls).at h.key).ctx.attr.labels =
      (learn h.type.adjRibOut sent.caps received.caps ls (AttrCtx.clear (g.at h.key).ctx.attr)).labels := by
  unfold Peers.up
  simp only
  rw [if_neg hk]
  by_cases ho : h.otherKey received.bgpId = h.key
  · rw [ho, Peers.at_insert_self, Peers.at_insert_self]
    exact learn_twice _ _ _ _ _
  · rw [Peers.at_insert_ne _ (Ne.symm ho), Peers.at_insert_self]
    exact ⟨rfl, rfl⟩

theorem up_at_ne {g : Peers} {h : PeerHeader} {sent received : Open} {ls : List MultipleLabel} {k : PeerKey}
    (h1 : h.key ≠ k) (h2 : h.otherKey received.bgpId ≠ k) : (g.up h sent received ls).at k = g.at k := by
  unfold Peers.up
  simp only
  split
  · rw [Peers.at_insert_ne _ (Ne.symm h1)]
  · rw [Peers.at_insert_ne _ (Ne.symm h2), Peers.at_insert_ne _ (Ne.symm h1)]

/-- the keys for which a message changes what is known -/
def Value.Touches {R D : Type} (down : D → PeerHeader) (k : PeerKey) : Value R D → Prop
  | .peerDown d => (down d).key = k
  | .termination _ => True
  | .peerUp u => u.header.key = k ∨ ∃ o, u.received = .open o ∧ u.header.otherKey o.bgpId = k
  | _ => False
/-- the keys for which a message changes what is known -/
def BmpMsg.Touches (k : PeerKey) : BmpMsg → Prop
  | .v3 v => v.Touches Down3.header k
  | .v4 v => v.Touches Down4.header k

theorem peerUp_at_ne {g : Peers} {ord : Order} {u : PeerUp} {k : PeerKey} (h1 : u.header.key ≠ k)
    (h2 : ∀ o, u.received = .open o → u.header.otherKey o.bgpId ≠ k) : (g.peerUp ord u).at k = g.at k := by
  unfold Peers.peerUp
  split
  · rename_i s r _ hr; exact up_at_ne h1 (h2 r hr)
  · rfl

theorem Peers.at_erase_ne (g : Peers) {k k' : PeerKey} (h : k' ≠ k) : Peers.at (g.erase k) k' = g.at k' := by
  unfold Peers.at; rw [HMap.erase_ne]; exact h
theorem Peers.at_erase_self (g : Peers) (k : PeerKey) : Peers.at (g.erase k) k = .default := by
  unfold Peers.at; rw [HMap.erase_self]; rfl

theorem updateMsg_at_ne {g : Peers} {ord : Order} {m : BmpMsg} {k : PeerKey} (h : ¬ m.Touches k) :
    (g.updateMsg ord m).at k = g.at k := by
  have go : ∀ {R D : Type} (down : D → PeerHeader) (v : Value R D), ¬ v.Touches down k → (g.update ord down v).at k = g.at k := by
    intro R D down v hv
    cases v with
    | peerDown d => exact Peers.at_erase_ne g fun e => hv e.symm
    | termination l => exact absurd trivial hv
    | peerUp u => exact peerUp_at_ne (fun e => hv (.inl e)) fun o ho e => hv (.inr ⟨o, ho, e⟩)
    | _ => rfl
  cases m with
  | v3 v => exact go _ v h
  | v4 v => exact go _ v h

/-! ## Frames -/

theorem frame_res (ord : Order) (s : Codec) (f : Bytes) : (s.frame ord f).1 = (parseBmp (⟨f, 0⟩, s.peers)).1 := by
  unfold Codec.frame
  rcases parseBmp (⟨f, 0⟩, s.peers) with ⟨m | e | x, r, g⟩ <;> rfl

/-- the peers after a frame -/
theorem frame_peers (ord : Order) (s : Codec) (f : Bytes) : ∃ g, s.peers.Same g ∧
    (∀ m, (s.frame ord f).1 = .ok m → (s.frame ord f).2.peers = g.updateMsg ord m) ∧
    ((∀ m, (s.frame ord f).1 ≠ .ok m) → (s.frame ord f).2.peers = g) := by
  have hk := keeps_bmp (⟨f, 0⟩, s.peers)
  unfold Codec.frame
  revert hk
  rcases parseBmp (⟨f, 0⟩, s.peers) with ⟨m | e | x, r, g⟩ <;> intro hk
  · refine ⟨g, hk, ?_, ?_⟩
    · rintro m' hm; simp only [Res.ok.injEq] at hm; subst hm; rfl
    · intro h; exact absurd rfl (h m)
  · exact ⟨g, hk, by rintro m' hm; simp at hm, fun _ => rfl⟩
  · exact ⟨g, hk, by rintro m' hm; simp at hm, fun _ => rfl⟩

/-- a frame that does not touch a key leaves its settings -/
theorem frame_sameAt {ord : Order} {s : Codec} {f : Bytes} {k : PeerKey} (h : ∀ m, (s.frame ord f).1 = .ok m → ¬ m.Touches k) :
    SameAt k s.peers (s.frame ord f).2.peers := by
  obtain ⟨g, hg, h1, h2⟩ := frame_peers ord s f
  by_cases hm : ∃ m, (s.frame ord f).1 = .ok m
  · obtain ⟨m, hm⟩ := hm
    rw [h1 m hm]
    unfold SameAt
    rw [updateMsg_at_ne (h m hm)]
    exact hg k
  · rw [h2 fun m e => hm ⟨m, e⟩]
    exact hg k

/-- a message that is read back under the settings that are there -/
theorem frame_reads {ord : Order} {s : Codec} {m : BmpMsg} {c : AttrCtx} (hw : m.WF c) (hc : At c m.peer s.peers) :
    (s.frame ord m.bytes).1 = .ok m := by
  obtain ⟨g', e, -⟩ := (crd_bmp hw).all 0 s.peers hc
  rw [frame_res, e]

/-- a route monitoring message with given octets behind the header of the peer -/
theorem rm3_run {h : PeerHeader} (hh : h.WF) (b : Bytes) (o : Nat) (g : Peers) :
    parseRm3 (⟨h.write ++ b, o⟩, g) =
      (let x := parseMsg ((g.at h.key).ctx.setAsn4 h.type.asn4) (⟨b, o + 42⟩, (g.at h.key).ignored)
       let g' : Peers := g.insert h.key ⟨(g.at h.key).ctx.setAsn4 h.type.asn4, x.2.2⟩
       match x with
       | (.ok m, (r, _)) => if m.type = .update then (.ok ⟨h, m⟩, (r, g')) else (.err (.build (o + 42) m.type), (r, g'))
       | (.err e, (r, _)) => (.err (.msg e), (r, g'))
       | (.fault y, (r, _)) => (.fault y, (r, g'))) := by
  unfold parseRm3
  rw [CParser.bind_ok (s' := (⟨b, o + 42⟩, g)) (a := h)
    (by rw [CParser.lift_run, Parser.mapErr_ok ((reads_bmpHeader hh).run _ _), length_bmpHeader])]
  have hin : ∀ x : PeerCtx, (do
      setAsn4 h.type.asn4
      let o ← CParser.lift Parser.getOffset
      let m ← CParser.mapErr RmErr3.msg bgpMsg
      pure (o, m) : CParser PeerCtx RmErr3 (Nat × Msg)) (⟨b, o + 42⟩, x) =
      (match parseMsg (x.ctx.setAsn4 h.type.asn4) (⟨b, o + 42⟩, x.ignored) with
       | (.ok m, (r, i)) => (.ok (o + 42, m), (r, ⟨x.ctx.setAsn4 h.type.asn4, i⟩))
       | (.err e, (r, i)) => (.err (.msg e), (r, ⟨x.ctx.setAsn4 h.type.asn4, i⟩))
       | (.fault y, (r, i)) => (.fault y, (r, ⟨x.ctx.setAsn4 h.type.asn4, i⟩))) := by
    intro x
    rw [CParser.bind_ok (p := setAsn4 h.type.asn4) (s' := (⟨b, o + 42⟩, ⟨x.ctx.setAsn4 h.type.asn4, x.ignored⟩)) (a := ()) rfl,
      CParser.bind_ok (p := CParser.lift Parser.getOffset) (a := o + 42) (s' := (⟨b, o + 42⟩, ⟨x.ctx.setAsn4 h.type.asn4, x.ignored⟩)) rfl]
    show CParser.bind _ _ _ = _
    unfold CParser.bind
    rw [CParser.mapErr_run]
    unfold bgpMsg
    simp only
    rcases parseMsg (x.ctx.setAsn4 h.type.asn4) (⟨b, o + 42⟩, x.ignored) with ⟨m | e | y, r, i⟩ <;> rfl
  show CParser.bind _ _ _ = _
  unfold CParser.bind atPeer
  simp only [hin]
  rcases parseMsg ((g.at h.key).ctx.setAsn4 h.type.asn4) (⟨b, o + 42⟩, (g.at h.key).ignored) with ⟨m | e | y, r, i⟩
  · simp only [ne_eq, ite_not]
    split <;> rfl
  · rfl
  · rfl

/-- the same for the whole message -/
theorem frame_rm3 {ord : Order} {s : Codec} {h : PeerHeader} (hh : h.WF) {b : Bytes} (hb : 48 + b.length < 4294967296) {m : Msg} :
    (s.frame ord (frameOf .v3 (0 :: (h.write ++ b)))).1 = .ok (.v3 (.routeMonitoring ⟨h, m⟩)) ↔
      m.type = .update ∧ ∃ r i, parseMsg ((s.peers.at h.key).ctx.setAsn4 h.type.asn4) (⟨b, 48⟩, .none) = (.ok m, (r, i)) ∧ r.buf = [] := by
  have hl := parseMsg_log ((s.peers.at h.key).ctx.setAsn4 h.type.asn4) ⟨b, 48⟩ (s.peers.at h.key).ignored .none
  rw [frame_res, (parseBmp_frame .v3 _ (by simp; omega) s.peers).1]
  unfold parseBody
  have e : versionBody .v3 (⟨0 :: (h.write ++ b), 5⟩, s.peers) =
      (match parseRm3 (⟨h.write ++ b, 6⟩, s.peers) with
       | (.ok m, r) => (.ok (.v3 (.routeMonitoring m)), r)
       | (.err e, r) => (.err (.v3 (.routeMonitoring e)), r)
       | (.fault x, r) => (.fault x, r)) := by
    have ev : parseValue parseRm3 parseDown3 (⟨0 :: (h.write ++ b), 5⟩, s.peers) =
        (match parseRm3 (⟨h.write ++ b, 6⟩, s.peers) with
         | (.ok m, r) => (.ok (.routeMonitoring m), r)
         | (.err e, r) => (.err (.routeMonitoring e), r)
         | (.fault x, r) => (.fault x, r)) := by
      unfold parseValue
      rw [CParser.bind_ok (p := CParser.lift (Parser.mapErr ValueErr.parse Verif.readU8)) (s' := (⟨h.write ++ b, 6⟩, s.peers)) (a := 0) rfl,
        CParser.bind_ok (p := CParser.lift Parser.getOffset) (s' := (⟨h.write ++ b, 6⟩, s.peers)) (a := 6) rfl]
      unfold valueBody
      rw [if_pos rfl]
      rcases hp : parseRm3 (⟨h.write ++ b, 6⟩, s.peers) with ⟨m | e | x, r⟩
      · rw [CParser.bind_ok (by rw [CParser.mapErr_run, hp]; rfl)]; rfl
      · rw [CParser.bind_err (by rw [CParser.mapErr_run, hp]; rfl)]
      · rw [CParser.bind_fault (by rw [CParser.mapErr_run, hp]; rfl)]
    rw [show versionBody .v3 = (do
      let v ← CParser.mapErr .v3 (parseValue parseRm3 parseDown3)
      pure (.v3 v)) from rfl]
    rcases hp : parseRm3 (⟨h.write ++ b, 6⟩, s.peers) with ⟨m | e | x, r⟩ <;> rw [hp] at ev
    · rw [CParser.bind_ok (by rw [CParser.mapErr_run, ev]; rfl)]; rfl
    · rw [CParser.bind_err (by rw [CParser.mapErr_run, ev]; rfl)]
    · rw [CParser.bind_fault (by rw [CParser.mapErr_run, ev]; rfl)]
  rw [e, rm3_run hh]
  revert hl
  rcases parseMsg ((s.peers.at h.key).ctx.setAsn4 h.type.asn4) (⟨b, 6 + 42⟩, (s.peers.at h.key).ignored) with ⟨m1 | e1 | y1, r1, i1⟩ <;>
    rcases parseMsg ((s.peers.at h.key).ctx.setAsn4 h.type.asn4) (⟨b, 48⟩, Ignored.none) with ⟨m2 | e2 | y2, r2, i2⟩ <;> intro hl
  all_goals try (simp at hl; done)
  all_goals try (simp; done)
  simp only [Res.ok.injEq] at hl
  obtain ⟨rfl, rfl⟩ := hl
  simp only
  by_cases ht : m1.type = .update
  · rw [if_pos ht]
    simp only
    by_cases hr : r1.buf = []
    · rw [if_pos hr]
      simp only [Res.ok.injEq, BmpMsg.v3.injEq, Value.routeMonitoring.injEq, Rm3.mk.injEq, true_and, Prod.mk.injEq]
      constructor
      · rintro rfl; exact ⟨ht, r1, i2, ⟨rfl, rfl, rfl⟩, hr⟩
      · rintro ⟨_, _, _, ⟨h1, _⟩, _⟩; exact h1
    · rw [if_neg hr]
      simp only [reduceCtorEq, false_iff, not_and]
      rintro _ ⟨r, i, h1, h2⟩
      simp only [Prod.mk.injEq] at h1
      exact hr (by rw [h1.2.1]; exact h2)
  · rw [if_neg ht]
    simp only [reduceCtorEq, false_iff, not_and]
    rintro h1 ⟨r, i, h2, h3⟩
    simp only [Prod.mk.injEq, Res.ok.injEq] at h2
    exact ht (by rw [h2.1]; exact h1)

end Verif.Bmp
