import Verif.Bmp.PeerLemmas
import Verif.Bgp.MsgSafe
/-!
# BMP messages neither panic nor hang, as long as few labels are asked for
-/
namespace Verif.Bmp
open Verif Bgp Parser CParser

/-! ## Parsers without context -/

theorem safe_parseInfo : Safe 2 parseInfo := by
  unfold parseInfo infoBody
  refine safe_bind_l (safe_mapErr _ safe_readU16) fun _ => ?_
  psafe [safe_restBytes _]
theorem safe_parseTermInfo : Safe 2 parseTermInfo := by
  unfold parseTermInfo
  refine safe_bind_l (safe_mapErr _ safe_readU16) fun _ => ?_
  refine safe_bind_r safe_getOffset fun o => safe_bind_r (safe_ofOption _ _) fun t => safe_bind_r (safe_mapErr _ safe_readU16).zero fun l => ?_
  refine safe_bind_r (safe_mapErr _ (safe_takeSlice _)).zero fun d => safe_bind_r (safe_onSub (k := 0) _ ?_) fun x => ?_
  · cases t <;> unfold termBody <;> psafe [safe_restBytes _]
  · psafe
theorem safe_parseCounter : Safe 2 parseCounter := by
  unfold parseCounter
  refine safe_bind_l (safe_mapErr _ safe_readU16) fun c => ?_
  refine safe_bind_r (safe_mapErr _ safe_readU16).zero fun l => ?_
  refine safe_bind_r (safe_mapErr _ (safe_takeSlice _)).zero fun d => safe_bind_r (safe_onSub (k := 0) _ ?_) fun x => ?_
  · unfold counterBody; psafe [safe_restBytes _, safe_readFamily.zero]
  · psafe
theorem safe_times {ε α : Type} {p : Parser ε α} (h : Safe 0 p) (n : Nat) : Safe 0 (times p n) := by
  induction n with
  | zero => exact safe_pure _
  | succ n ih => unfold times; exact safe_bind_r h fun _ => safe_bind_r ih fun _ => safe_pure _
theorem safe_parseStats : Safe 0 parseStats := by
  unfold parseStats
  refine safe_bind_r (safe_mapErr _ safe_bmpHeader).zero fun _ => safe_bind_r (safe_mapErr _ safe_readU32).zero fun _ => ?_
  exact safe_bind_r (safe_times (safe_mapErr _ safe_parseCounter).zero _) fun _ => safe_pure _
theorem safe_parseDownTlv : Safe 2 parseDownTlv := by
  unfold parseDownTlv
  refine (safe_tlv16 fun _ _ _ => ?_).mono (by omega)
  psafe [safe_restBytes _]
theorem safe_parsePath : Safe 0 parsePath := by unfold parsePath; psafe
theorem safe_sliceBytes {ε : Type} : Safe 0 (sliceBytes : Parser ε Bytes) := ⟨fun r => Adv.refl r⟩

/-! ## Limits -/

/-- as many labels as the parsers can take -/
def PeerLim (c : PeerCtx) : Prop := c.ctx.attr.LimOk
/-- the same of all peers -/
def PeersLim (g : Peers) : Prop := ∀ k, PeerLim (g.at k)

/-- few enough labels for the family -/
def FewLabels (e : MultipleLabel) : Prop :=
  (e.family = .ipv4MplsLabeledVpn ∨ e.family = .ipv6MplsLabeledVpn → e.count.toNat ≤ 7) ∧
  (e.family = .ipv4NlriMplsLabels ∨ e.family = .ipv6NlriMplsLabels → e.count.toNat ≤ 10)
/-- the capability asks for few labels -/
def FewLabelsCap : Cap → Prop
  | .multipleLabels l => ∀ e ∈ l, FewLabels e
  | _ => True

theorem update_labels_lim {c : AttrCtx} (hc : c.LimOk) {l : List MultipleLabel} (h : ∀ e ∈ l, FewLabels e) (out : Bool) :
    (AttrCtx.update c out (.multipleLabels l)).LimOk := by
  have key : ∀ t n, (c.lim t).toNat ≤ n → (∀ e ∈ l, e.family = t → e.count.toNat ≤ n) →
      ((AttrCtx.update c out (.multipleLabels l)).lim t).toNat ≤ n := by
    intro t n h1 h2
    unfold AttrCtx.lim
    rw [labels_fold]
    cases he : (l.filter (·.family = t)).getLast? with
    | none => exact h1
    | some f =>
      have hf := List.mem_of_getLast? he
      simp only [List.mem_filter, decide_eq_true_eq] at hf
      exact h2 f hf.1 hf.2
  obtain ⟨h1, h2, h3, h4⟩ := hc
  exact ⟨key _ _ h1 fun e he ht => (h e he).1 (.inl ht), key _ _ h2 fun e he ht => (h e he).1 (.inr ht),
    key _ _ h3 fun e he ht => (h e he).2 (.inl ht), key _ _ h4 fun e he ht => (h e he).2 (.inr ht)⟩

theorem update_lim {c : AttrCtx} (hc : c.LimOk) {cap : Cap} (h : FewLabelsCap cap) (out : Bool) : (AttrCtx.update c out cap).LimOk := by
  cases cap with
  | multipleLabels l => exact update_labels_lim hc h out
  | addPath l =>
    have : (AttrCtx.update c out (.addPath l)).labels = c.labels := by
      unfold AttrCtx.update
      simp only
      clear hc h
      induction l generalizing c with
      | nil => rfl
      | cons f l ih => rw [List.foldl_cons, ih]; rfl
    unfold AttrCtx.LimOk AttrCtx.lim at hc ⊢
    rw [this]; exact hc
  | _ => exact hc

/-! ## Parsers with context, on parts of given octets -/

/-- `CInv` for input that is part of `B` -/
def CInvB {σ ε α : Type} (B : Bytes) (I : σ → Prop) (k : Nat) (p : CParser σ ε α) : Prop :=
  ∀ r g, r.buf <:+: B → I g → COut k r (p (r, g)) ∧ I (p (r, g)).2.2

section
variable {σ ε ε' α β : Type} {B : Bytes} {I : σ → Prop}

theorem CInv.onB {k : Nat} {p : CParser σ ε α} (h : CInv I I k p) : CInvB B I k p := fun r g _ hg => h r g hg
theorem CInvB.mapErr {k : Nat} {p : CParser σ ε α} (f : ε → ε') (h : CInvB B I k p) : CInvB B I k (CParser.mapErr f p) := by
  intro r g hr hg
  obtain ⟨h1, h2⟩ := h r g hr hg
  refine ⟨?_, h2⟩
  rw [CParser.mapErr_run]
  rcases hp : p (r, g) with ⟨_ | _ | _, _⟩ <;> rw [hp] at h1 <;> exact h1
theorem Adv.infix {k : Nat} {r r' : Reader} (h : Adv k r r') (hr : r.buf <:+: B) : r'.buf <:+: B := by
  obtain ⟨n, _, _, rfl⟩ := h
  exact (List.drop_suffix _ _).isInfix.trans hr
/-- sequencing, with what is known of the value -/
theorem CInvB.bindP {j k : Nat} {p : CParser σ ε α} {f : α → CParser σ ε β} (hp : CInvB B I j p)
    (hf : ∀ r g a s', r.buf <:+: B → p (r, g) = (.ok a, s') → CInvB B I k (f a)) : CInvB B I (j + k) (p >>= f) := by
  intro r g hr hg
  obtain ⟨h1, h2⟩ := hp r g hr hg
  rcases he : p (r, g) with ⟨a | e | x, ⟨r1, g1⟩⟩ <;> rw [he] at h1 h2
  · rw [bind_ok he]
    obtain ⟨h3, h4⟩ := hf r g a _ hr he r1 g1 (Adv.infix h1 hr) h2
    refine ⟨?_, h4⟩
    rcases he2 : f a (r1, g1) with ⟨b | e | x, ⟨r2, g2⟩⟩ <;> rw [he2] at h3
    · exact Adv.trans h1 h3
    · trivial
    · exact h3.elim
  · rw [bind_err he]; exact ⟨trivial, h2⟩
  · exact h1.elim
theorem CInvB.bind_l {k : Nat} {p : CParser σ ε α} {f : α → CParser σ ε β} (hp : CInvB B I k p)
    (hf : ∀ a, CInvB B I 0 (f a)) : CInvB B I k (p >>= f) := CInvB.bindP hp fun _ _ a _ _ _ => hf a
theorem CInvB.bind_r {k : Nat} {p : CParser σ ε α} {f : α → CParser σ ε β} (hp : CInvB B I 0 p)
    (hf : ∀ a, CInvB B I k (f a)) : CInvB B I k (p >>= f) := by
  have := CInvB.bindP hp fun _ _ a _ _ _ => hf a
  rwa [Nat.zero_add] at this
theorem CInvB.ite {k : Nat} {c : Prop} [Decidable c] {p q : CParser σ ε α} (hp : c → CInvB B I k p)
    (hq : ¬ c → CInvB B I k q) : CInvB B I k (if c then p else q) := by
  by_cases h : c
  · rw [if_pos h]; exact hp h
  · rw [if_neg h]; exact hq h
theorem CInvB.onSub {k : Nat} {p : CParser σ ε α} {sub : Reader} (hs : sub.buf <:+: B) (h : CInvB B I k p) :
    CInvB B I 0 (CParser.onSub sub p) := by
  intro r g _ hg
  obtain ⟨h1, h2⟩ := h sub g hs hg
  unfold CParser.onSub
  rcases he : p (sub, g) with ⟨a | e | x, ⟨r1, g1⟩⟩ <;> rw [he] at h1 h2 <;> simp only
  · exact ⟨Adv.refl r, h2⟩
  · exact ⟨trivial, h2⟩
  · exact h1.elim
/-- a slice is part of the input -/
theorem CInvB.slice {k n : Nat} {g : ParseError → ε} {f : Reader → CParser σ ε β} (hf : ∀ d : Reader, d.buf <:+: B → CInvB B I k (f d)) :
    CInvB B I k (CParser.lift (Parser.mapErr g (takeSlice n)) >>= f) := by
  have := CInvB.bindP (B := B) (I := I) (j := 0) (k := k) (p := CParser.lift (Parser.mapErr g (takeSlice n))) (f := f)
    (CInv.onB (cinv_lift (safe_mapErr _ (safe_takeSlice n)).zero)) fun r c d s' hr he => hf d ?_
  · rwa [Nat.zero_add] at this
  · rw [lift_run, Parser.mapErr_run] at he
    rcases ht : Verif.takeSlice n r with ⟨a | e | x, r1⟩ <;> rw [ht] at he <;>
      simp only [Res.mapErr, Prod.mk.injEq, Res.ok.injEq, reduceCtorEq, false_and] at he
    obtain ⟨rfl, -⟩ := he
    obtain ⟨h, -⟩ := takeSlice_eq_ok.1 ht
    exact (List.prefix_append _ _).isInfix.trans (h ▸ hr)
theorem CInvB.cmany {p : CParser σ ε (Option α)} (h : CInvB B I 1 p) : CInvB B I 0 (CParser.cmany p) := by
  have aux : ∀ n r g, r.buf.length ≤ n → r.buf <:+: B → I g → COut 0 r (cmanyF p n (r, g)) ∧ I (cmanyF p n (r, g)).2.2 := by
    intro n
    induction n with
    | zero => intro r g _ _ hg; exact ⟨Adv.refl r, hg⟩
    | succ n ih =>
      intro r g hn hr hg
      unfold cmanyF
      by_cases hb : r.buf = []
      · simp only [if_pos hb]; exact ⟨Adv.refl r, hg⟩
      · simp only [if_neg hb]
        obtain ⟨h1, h2⟩ := h r g hr hg
        rcases he : p (r, g) with ⟨a | e | x, ⟨r1, g1⟩⟩ <;> rw [he] at h1 h2 <;> simp only
        · have h1 : Adv 1 r r1 := h1
          have hi := Adv.infix h1 hr
          have hl : r1.buf.length < r.buf.length := by
            obtain ⟨m, hm, hm', rfl⟩ := h1
            simp only [List.length_drop]; omega
          rw [if_pos hl]
          obtain ⟨i1, i2⟩ := ih r1 g1 (by omega) hi h2
          rcases hm : cmanyF p n (r1, g1) with ⟨b | e | x, ⟨r2, g2⟩⟩ <;> rw [hm] at i1 i2
          · exact ⟨(Adv.trans h1 i1).mono (Nat.zero_le _), i2⟩
          · exact ⟨trivial, i2⟩
          · exact i1.elim
        · exact ⟨trivial, h2⟩
        · exact h1.elim
  exact fun r g hr hg => aux _ r g (Nat.le_refl _) hr hg
end

section
variable {ε α : Type}

theorem COut.ctx {σ τ : Type} {k : Nat} {r : Reader} {x : Res ε α × (Reader × σ)} (h : COut k r x) (g : τ) :
    COut k r (x.1, (x.2.1, g)) := by
  rcases x with ⟨a | e | x, ⟨r1, g1⟩⟩ <;> exact h
theorem COut.after {σ : Type} {j k : Nat} {r r1 : Reader} {x : Res ε α × (Reader × σ)} (h1 : Adv j r r1) (h : COut k r1 x) :
    COut 0 r x := by
  rcases x with ⟨a | e | x, ⟨r1, g1⟩⟩
  · exact (Adv.trans h1 h).mono (Nat.zero_le _)
  · exact h
  · exact h

theorem cinv_bgpMsg : CInv PeerLim PeerLim 19 bgpMsg := by
  intro r g hg
  have h := (csafe_parseMsg (c := g.ctx) hg).out r g.ignored
  unfold bgpMsg
  rcases he : parseMsg g.ctx (r, g.ignored) with ⟨a | e | x, ⟨r1, i⟩⟩ <;> rw [he] at h
  · exact ⟨h, hg⟩
  · exact ⟨trivial, hg⟩
  · exact h.elim
theorem cinv_setAsn4 (b : Bool) : CInv PeerLim PeerLim 0 (setAsn4 b : CParser PeerCtx ε Unit) := cinv_modify fun _ h => h
theorem CInv.atPeer {k : Nat} (key : PeerKey) {p : CParser PeerCtx ε α} (h : CInv PeerLim PeerLim k p) :
    CInv PeersLim PeersLim k (atPeer key p) := by
  intro r g hg
  obtain ⟨h1, h2⟩ := h r (g.at key) (hg key)
  refine ⟨COut.ctx h1 _, fun k' => ?_⟩
  show PeerLim (Peers.at (HMap.insert g key _) k')
  by_cases e : k' = key
  · subst e; rw [Peers.at_insert_self]; exact h2
  · rw [Peers.at_insert_ne _ e]; exact hg k'
theorem CInvB.atPeer {B : Bytes} {k : Nat} (key : PeerKey) {p : CParser PeerCtx ε α} (h : CInvB B PeerLim k p) :
    CInvB B PeersLim k (atPeer key p) := by
  intro r g hr hg
  obtain ⟨h1, h2⟩ := h r (g.at key) hr (hg key)
  refine ⟨COut.ctx h1 _, fun k' => ?_⟩
  show PeerLim (Peers.at (HMap.insert g key _) k')
  by_cases e : k' = key
  · subst e; rw [Peers.at_insert_self]; exact h2
  · rw [Peers.at_insert_ne _ e]; exact hg k'
end

/-! ## Messages -/

theorem cinv_mirroring : CInv PeersLim PeersLim 0 parseMirroring := by
  unfold parseMirroring
  refine CInv.bind_r (cinv_lift (safe_mapErr _ safe_bmpHeader).zero) fun h => CInv.bind_r (CInv.atPeer _ ?_) fun _ => cinv_pure _
  refine CInv.bind_r (cinv_setAsn4 _) fun _ => CInv.cmany (CInv.mapErr _ (CInv.bind_l ?_ fun _ => cinv_pure _))
  unfold parseMirrorValue
  refine CInv.mono (k := 2) (CInv.bind_l (cinv_lift (safe_mapErr _ safe_readU16)) fun c => ?_) (by omega)
  refine CInv.bind_r (cinv_lift safe_getOffset) fun o => CInv.bind_r (cinv_lift (safe_ofOption _ _)) fun t => ?_
  refine CInv.bind_r (cinv_lift (safe_mapErr _ safe_readU16).zero) fun l => ?_
  refine CInv.bind_r (cinv_lift (safe_mapErr _ (safe_takeSlice _)).zero) fun d => CInv.bind_r (CInv.onSub (k := 0) _ ?_) fun x => ?_
  · cases t <;> unfold mirrorBody
    · exact CInv.bind_r (CInv.mapErr _ cinv_bgpMsg.zero) fun _ => cinv_pure _
    · exact cinv_lift (by psafe)
    · exact cinv_lift (by psafe)
  · exact CInv.ite (fun _ => cinv_pure _) fun _ => cinv_fail _ _

theorem cinv_reason : CInv PeerLim PeerLim 0 parseReason := by
  unfold parseReason reasonBody
  refine CInv.bind_r (cinv_lift (safe_mapErr _ safe_readU8).zero) fun c => CInv.bind_r (cinv_lift safe_getOffset) fun o => ?_
  refine CInv.ite (fun _ => CInv.bind_r (CInv.mapErr _ cinv_bgpMsg.zero) fun _ => cinv_pure _) fun _ => ?_
  refine CInv.ite (fun _ => CInv.bind_r (cinv_lift (safe_mapErr _ safe_readU16).zero) fun _ => cinv_pure _) fun _ => ?_
  refine CInv.ite (fun _ => CInv.bind_r (CInv.mapErr _ cinv_bgpMsg.zero) fun _ => cinv_pure _) fun _ => ?_
  refine CInv.ite (fun _ => cinv_pure _) fun _ => CInv.ite (fun _ => cinv_pure _) fun _ => ?_
  refine CInv.ite (fun _ => CInv.bind_r (cinv_lift (safe_mapErr _ safe_parseInfo).zero) fun _ => cinv_pure _) fun _ => ?_
  split
  · exact CInv.bind_r (cinv_lift (safe_restBytes _)) fun _ => cinv_pure _
  · exact cinv_fail _ _

theorem cinv_down3 : CInv PeersLim PeersLim 0 parseDown3 := by
  unfold parseDown3
  refine CInv.bind_r (cinv_lift safe_getOffset) fun o => CInv.bind_r (cinv_lift (safe_mapErr _ safe_bmpHeader).zero) fun h => ?_
  refine CInv.bind_r (CInv.atPeer _ (CInv.bind_r (cinv_setAsn4 _) fun _ => CInv.mapErr _ cinv_reason)) fun r => ?_
  split
  · exact cinv_fail _ _
  · exact cinv_pure _
theorem cinv_down4 : CInv PeersLim PeersLim 0 parseDown4 := by
  unfold parseDown4
  refine CInv.bind_r (cinv_lift safe_getOffset) fun o => CInv.bind_r (cinv_lift (safe_mapErr _ safe_bmpHeader).zero) fun h => ?_
  refine CInv.bind_r (CInv.atPeer _ (CInv.bind_r (cinv_setAsn4 _) fun _ => CInv.mapErr _ cinv_reason)) fun r => ?_
  refine CInv.bind_r (cinv_lift (safe_many ((safe_mapErr _ safe_parseDownTlv).mono (by omega)))) fun l => ?_
  split
  · exact cinv_fail _ _
  · exact cinv_pure _

theorem cinv_up : CInv PeersLim PeersLim 0 parseUp := by
  unfold parseUp
  refine CInv.bind_r (cinv_lift safe_getOffset) fun o => CInv.bind_r (cinv_lift (safe_mapErr _ safe_bmpHeader).zero) fun h => ?_
  refine CInv.bind_r (cinv_lift (safe_mapErr _ safe_readU128).zero) fun _ => CInv.bind_r (cinv_lift (safe_mapErr _ safe_readU16).zero) fun _ => ?_
  refine CInv.bind_r (cinv_lift (safe_mapErr _ safe_readU16).zero) fun _ => ?_
  refine CInv.bind_r (CInv.atPeer _ (CInv.bind_r (cinv_setAsn4 _) fun _ => CInv.bind_r (CInv.mapErr _ cinv_bgpMsg.zero) fun _ =>
    CInv.bind_r (cinv_setAsn4 _) fun _ => CInv.bind_r (CInv.mapErr _ cinv_bgpMsg.zero) fun _ => cinv_pure _)) fun m => ?_
  refine CInv.bind_r (cinv_lift (safe_many ((safe_mapErr _ safe_parseInfo).mono (by omega)))) fun l => ?_
  split
  · exact cinv_fail _ _
  · exact cinv_pure _

theorem cinv_rm3 : CInv PeersLim PeersLim 0 parseRm3 := by
  unfold parseRm3
  refine CInv.bind_r (cinv_lift (safe_mapErr _ safe_bmpHeader).zero) fun h => ?_
  refine CInv.bind_r (CInv.atPeer _ (CInv.bind_r (cinv_setAsn4 _) fun _ => CInv.bind_r (cinv_lift safe_getOffset) fun _ =>
    CInv.bind_r (CInv.mapErr _ cinv_bgpMsg.zero) fun _ => cinv_pure _)) fun m => ?_
  exact CInv.ite (fun _ => cinv_fail _ _) fun _ => cinv_pure _

/-- no capability in the octets asks for many labels -/
def FewLabelsIn (B : Bytes) : Prop := ∀ (d : Reader) (cap : Cap) (r' : Reader), d.buf <:+: B → parseCap d = (.ok cap, r') → FewLabelsCap cap

theorem cinvB_tlvBody {B : Bytes} (hB : FewLabelsIn B) (out : Bool) (t : UInt16) : CInvB B PeerLim 0 (tlvBody out t) := by
  unfold tlvBody
  refine CInvB.ite (fun _ => CInv.onB (cinv_lift (by psafe [safe_sliceBytes]))) fun _ => ?_
  refine CInvB.ite (fun _ => CInv.onB (CInv.bind_r (CInv.mapErr _ cinv_bgpMsg.zero) fun _ => cinv_pure _)) fun _ => ?_
  refine CInvB.ite (fun _ => CInv.onB (cinv_lift ?_)) fun _ => ?_
  · exact safe_bind_r (safe_many ((safe_mapErr _ safe_readU16).mono (by omega))) fun _ => safe_pure _
  refine CInvB.ite (fun _ => ?_) fun _ => ?_
  · refine CInvB.bindP (j := 0) (k := 0) (CInv.onB (cinv_lift (safe_mapErr _ safe_cap).zero)) fun r g cap s' hr he => ?_
    have hc : FewLabelsCap cap := by
      rw [lift_run, Parser.mapErr_run] at he
      rcases hp : parseCap r with ⟨a | e | x, r1⟩ <;> rw [hp] at he <;> simp only [Res.mapErr, Prod.mk.injEq, Res.ok.injEq, reduceCtorEq, false_and] at he
      obtain ⟨rfl, -⟩ := he
      exact hB r _ r1 hr hp
    exact CInv.onB (CInv.bind_r (cinv_modify fun g hg => update_lim hg hc out) fun _ => cinv_pure _)
  refine CInvB.ite (fun _ => CInv.onB (cinv_lift (safe_mapErr _ safe_parsePath))) fun _ => ?_
  exact CInv.onB (cinv_lift (by psafe [safe_sliceBytes]))

theorem cinvB_rmTlv {B : Bytes} (hB : FewLabelsIn B) (out : Bool) : CInvB B PeerLim 1 (parseRmTlv out) := by
  unfold parseRmTlv
  refine CInvB.bind_r (CInv.onB (cinv_lift safe_getOffset)) fun o => ?_
  refine CInvB.bind_l (CInv.onB (CInv.mono (cinv_lift (safe_mapErr _ safe_readU16)) (by omega))) fun t => ?_
  refine CInvB.bind_r (CInv.onB (cinv_lift (safe_mapErr _ safe_readU16).zero)) fun l => ?_
  refine CInvB.bind_r (CInv.onB (cinv_lift (safe_mapErr _ safe_readU16).zero)) fun i => ?_
  refine CInvB.bind_r (CInv.onB (cinv_lift safe_getOffset)) fun o' => CInvB.bind_r (CInv.onB (cinv_lift safe_getRemaining)) fun n => ?_
  refine CInvB.ite (fun _ => CInv.onB (cinv_fail _ _)) fun _ => CInvB.slice fun d hd => ?_
  refine CInvB.bind_r (CInvB.onSub hd (cinvB_tlvBody hB out t)) fun x => ?_
  split
  · exact CInv.onB (cinv_fail _ _)
  · exact CInv.onB (cinv_pure _)

theorem cinvB_rm4Item {B : Bytes} (hB : FewLabelsIn B) (out : Bool) : CInvB B PeerLim 1 (rm4Item out) := by
  unfold rm4Item
  refine CInvB.bind_r (CInv.onB (cinv_lift (safe_mapErr _ safe_peekU16))) fun t => CInvB.ite (fun _ => ?_) fun _ => ?_
  · refine CInv.onB (CInv.mono (k := 2) (cinv_lift ?_) (by omega))
    refine safe_bind_l (safe_mapErr _ safe_readU16) fun _ => ?_
    psafe
  · exact CInvB.bind_l (CInvB.mapErr _ (cinvB_rmTlv hB out)) fun _ => CInv.onB (cinv_pure _)

theorem cinvB_rm4 {B : Bytes} (hB : FewLabelsIn B) : CInvB B PeersLim 0 parseRm4 := by
  unfold parseRm4
  refine CInvB.bind_r (CInv.onB (cinv_lift safe_getOffset)) fun o => CInvB.bind_r (CInv.onB (cinv_lift (safe_mapErr _ safe_bmpHeader).zero)) fun h => ?_
  refine CInvB.bind_r (CInvB.atPeer _ (CInvB.bind_r (CInv.onB (cinv_setAsn4 _)) fun _ => ?_)) fun x => ?_
  · have hb : CInvB B PeerLim 0 (rm4Body h.type.adjRibOut) := by
      unfold rm4Body
      refine CInvB.bind_r (CInvB.cmany (CInvB.bind_l (cinvB_rm4Item hB _) fun _ => CInv.onB (cinv_pure _))) fun l => ?_
      split
      · exact CInv.onB (CInv.bind_r (CInv.onSub _ (CInv.mapErr _ cinv_bgpMsg)) fun _ => cinv_pure _)
      · exact CInv.onB (CInv.bind_r (cinv_lift safe_getOffset) fun _ => cinv_fail _ _)
    intro r g hr hg
    obtain ⟨h1, -⟩ := hb r g hr hg
    refine ⟨?_, hg⟩
    unfold scratch
    revert h1
    rcases rm4Body h.type.adjRibOut (r, g) with ⟨a | e | x, ⟨r1, g1⟩⟩ <;> exact id
  · split
    · exact CInv.onB (cinv_fail _ _)
    · exact CInv.onB (cinv_pure _)

theorem cinvB_value {R D RE : Type} {B : Bytes} {rm : CParser Peers RE R} {down : CParser Peers DownErr D}
    (h1 : CInvB B PeersLim 0 rm) (h2 : CInv PeersLim PeersLim 0 down) : CInvB B PeersLim 0 (parseValue rm down) := by
  unfold parseValue valueBody
  refine CInvB.bind_r (CInv.onB (cinv_lift (safe_mapErr _ safe_readU8).zero)) fun c => CInvB.bind_r (CInv.onB (cinv_lift safe_getOffset)) fun o => ?_
  refine CInvB.ite (fun _ => CInvB.bind_r (CInvB.mapErr _ h1) fun _ => CInv.onB (cinv_pure _)) fun _ => CInv.onB ?_
  refine CInv.ite (fun _ => CInv.bind_r (cinv_lift (safe_mapErr _ safe_parseStats)) fun _ => cinv_pure _) fun _ => ?_
  refine CInv.ite (fun _ => CInv.bind_r (CInv.mapErr _ h2) fun _ => cinv_pure _) fun _ => ?_
  refine CInv.ite (fun _ => CInv.bind_r (CInv.mapErr _ cinv_up) fun _ => cinv_pure _) fun _ => ?_
  refine CInv.ite (fun _ => CInv.bind_r (cinv_lift (safe_many ((safe_mapErr _ safe_parseInfo).mono (by omega)))) fun _ => cinv_pure _) fun _ => ?_
  refine CInv.ite (fun _ => CInv.bind_r (cinv_lift (safe_many ((safe_mapErr _ safe_parseTermInfo).mono (by omega)))) fun _ => cinv_pure _) fun _ => ?_
  refine CInv.ite (fun _ => CInv.bind_r (CInv.mapErr _ cinv_mirroring) fun _ => cinv_pure _) fun _ => ?_
  split
  · exact CInv.bind_r (cinv_lift (safe_restBytes _)) fun _ => cinv_pure _
  · exact cinv_fail _ _

/-- version 4 asks for few labels in its octets; version 3 cannot ask -/
theorem cinvB_bmp {B : Bytes} (hB : B.head? = some 4 → FewLabelsIn B) (g : Peers) (hg : PeersLim g) :
    COut 0 ⟨B, 0⟩ (parseBmp (⟨B, 0⟩, g)) ∧ PeersLim (parseBmp (⟨B, 0⟩, g)).2.2 := by
  have key : ∀ v : Version, (v = .v4 → FewLabelsIn B) → CInvB B PeersLim 0 (versionBody v) := by
    intro v hv
    cases v
    · exact CInvB.bind_r (CInvB.mapErr _ (cinvB_value (CInv.onB cinv_rm3) cinv_down3)) fun _ => CInv.onB (cinv_pure _)
    · exact CInvB.bind_r (CInvB.mapErr _ (cinvB_value (cinvB_rm4 (hv rfl)) cinv_down4)) fun _ => CInv.onB (cinv_pure _)
  have rest : ∀ (c : UInt8), (c = 4 → FewLabelsIn B) → CInvB B PeersLim 0 (do
      let o ← CParser.lift getOffset
      let v ← CParser.lift (ofOption (.version (o - 1) c) (Version.ofCode c))
      let l ← CParser.lift (mapErr .parse readU32)
      let o ← CParser.lift getOffset
      if l.toNat < 5 then CParser.fail (.length (o - 4) l) else do
        let d ← CParser.lift (mapErr .parse (takeSlice (l.toNat - 5)))
        let x ← CParser.onSub d (versionBody v)
        if x.2.buf = [] then pure x.1 else CParser.fail (.unparsed x.2.offset l x.2.buf.length) : CParser Peers BmpErr BmpMsg) := by
    intro c hc
    refine CInvB.bind_r (CInv.onB (cinv_lift safe_getOffset)) fun o => ?_
    refine CInvB.bindP (j := 0) (k := 0) (CInv.onB (cinv_lift (safe_ofOption _ _))) fun r g v s' _ he => ?_
    have hv : v = .v4 → FewLabelsIn B := by
      rintro rfl
      refine hc ?_
      rw [lift_run] at he
      cases ho : Version.ofCode c with
      | none => rw [ho] at he; simp [ofOption] at he
      | some w =>
        rw [ho] at he
        have : w = .v4 := by simpa [ofOption] using congrArg Prod.fst he
        subst this
        exact (Version.code_ofCode ho).symm
    refine CInvB.bind_r (CInv.onB (cinv_lift (safe_mapErr _ safe_readU32).zero)) fun l => CInvB.bind_r (CInv.onB (cinv_lift safe_getOffset)) fun o => ?_
    refine CInvB.ite (fun _ => CInv.onB (cinv_fail _ _)) fun _ => CInvB.slice fun d hd => ?_
    refine CInvB.bind_r (CInvB.onSub hd (key v hv)) fun x => ?_
    exact CInvB.ite (fun _ => CInv.onB (cinv_pure _)) fun _ => CInv.onB (cinv_fail _ _)
  unfold parseBmp
  cases B with
  | nil => exact ⟨trivial, hg⟩
  | cons c B =>
    have h1 : (CParser.lift (Parser.mapErr BmpErr.parse Verif.readU8) : CParser Peers BmpErr UInt8) (⟨c :: B, 0⟩, g) = (.ok c, (⟨B, 1⟩, g)) := rfl
    rw [bind_ok h1]
    obtain ⟨h2, h3⟩ := rest c (fun e => hB (by rw [e]; rfl)) ⟨B, 1⟩ g (List.suffix_cons _ _).isInfix hg
    exact ⟨COut.after (j := 1) ⟨1, Nat.le_refl _, by simp, rfl⟩ h2, h3⟩

end Verif.Bmp
