import Verif.Core.CRel
import Verif.Bmp.Codec
/-!
# What parsing a BMP message does to the contexts, and how it depends on them
-/
namespace Verif.Bmp
open Verif Bgp CParser

/-! ## Contexts of a peer -/

/-- the same settings -/
def EqCtx (c c' : PeerCtx) : Prop := c.ctx = c'.ctx
/-- the same settings but for the width of AS numbers, which every message sets before it is used -/
def PeerCtx.Same (c c' : PeerCtx) : Prop := ∃ b, c'.ctx = c.ctx.setAsn4 b

theorem PeerCtx.Same.refl (c : PeerCtx) : c.Same c := ⟨c.ctx.attr.asn4, rfl⟩
theorem PeerCtx.Same.trans {a b c : PeerCtx} (h : a.Same b) (h' : b.Same c) : a.Same c := by
  obtain ⟨x, hx⟩ := h
  obtain ⟨y, hy⟩ := h'
  exact ⟨y, by rw [hy, hx]; rfl⟩
theorem PeerCtx.Same.symm {a b : PeerCtx} (h : a.Same b) : b.Same a := by
  obtain ⟨x, hx⟩ := h
  exact ⟨a.ctx.attr.asn4, by rw [hx]; rfl⟩
theorem EqCtx.same {c c' : PeerCtx} (h : EqCtx c c') : c.Same c' := ⟨c.ctx.attr.asn4, by rw [← h]; rfl⟩

theorem PeerCtx.Same.addPath {c c' : PeerCtx} (h : c.Same c') : c'.ctx.attr.addPath = c.ctx.attr.addPath := by
  obtain ⟨b, h⟩ := h; rw [h]; rfl
theorem PeerCtx.Same.labels {c c' : PeerCtx} (h : c.Same c') : c'.ctx.attr.labels = c.ctx.attr.labels := by
  obtain ⟨b, h⟩ := h; rw [h]; rfl
theorem PeerCtx.Same.setAsn4 {c c' : PeerCtx} (h : c.Same c') (b : Bool) : c'.ctx.setAsn4 b = c.ctx.setAsn4 b := by
  obtain ⟨b, h⟩ := h; rw [h]; rfl

/-- the same settings for each peer -/
def Peers.Same (g g' : Peers) : Prop := ∀ k, (g.at k).Same (g'.at k)

theorem Peers.Same.refl (g : Peers) : g.Same g := fun _ => .refl _
theorem Peers.Same.trans {a b c : Peers} (h : a.Same b) (h' : b.Same c) : a.Same c := fun k => (h k).trans (h' k)

theorem Peers.at_insert_self (g : Peers) (k : PeerKey) (c : PeerCtx) : Peers.at (g.insert k c) k = c := by
  simp [Peers.at, HMap.insert_self]
theorem Peers.at_insert_ne (g : Peers) {k k' : PeerKey} (h : k' ≠ k) (c : PeerCtx) :
    Peers.at (g.insert k c) k' = g.at k' := by
  unfold Peers.at; rw [HMap.insert_ne]; exact h

section
variable {ε ε' α β : Type}

/-- parsing a message with a log is parsing it with an empty log -/
theorem parseMsg_log (c : MsgCtx) (r : Reader) (i j : Ignored) :
    (parseMsg c (r, i)).1 = (parseMsg c (r, j)).1 ∧ (parseMsg c (r, i)).2.1 = (parseMsg c (r, j)).2.1 := by
  rcases h : parseMsg c (r, .none) with ⟨x, ⟨r', d⟩⟩
  rw [(logs_parseMsg c).eq h, (logs_parseMsg c).eq h]
  exact ⟨rfl, rfl⟩

theorem keeps_bgpMsg : Keeps EqCtx bgpMsg := fun _ => rfl
theorem csame_bgpMsg : CSame EqCtx EqCtx bgpMsg := by
  intro r g g' h
  have h : g.ctx = g'.ctx := h
  unfold bgpMsg
  simp only [h]
  have := parseMsg_log g'.ctx r g.ignored g'.ignored
  exact ⟨this.1, this.2, rfl⟩

theorem keeps_setAsn4 (b : Bool) : Keeps PeerCtx.Same (setAsn4 b : CParser PeerCtx ε Unit) := fun _ => ⟨b, rfl⟩
theorem csame_setAsn4 (b : Bool) : CSame PeerCtx.Same EqCtx (setAsn4 b : CParser PeerCtx ε Unit) :=
  fun _ _ _ h => ⟨rfl, rfl, (h.setAsn4 b).symm⟩

theorem Keeps.same {p : CParser PeerCtx ε α} (h : Keeps EqCtx p) : Keeps PeerCtx.Same p := fun s => (h s).same

theorem keeps_atPeer {k : PeerKey} {p : CParser PeerCtx ε α} (h : Keeps PeerCtx.Same p) : Keeps Peers.Same (atPeer k p) := by
  intro s k'
  by_cases hk : k' = k
  · subst hk
    show PeerCtx.Same _ (Peers.at (HMap.insert s.2 k' _) k')
    rw [Peers.at_insert_self]
    exact h (s.1, s.2.at k')
  · show PeerCtx.Same _ (Peers.at (HMap.insert s.2 k _) k')
    rw [Peers.at_insert_ne _ hk]
    exact .refl _

theorem csame_atPeer {k : PeerKey} {p : CParser PeerCtx ε α} (h : CSame PeerCtx.Same EqCtx p) :
    CSame Peers.Same Peers.Same (atPeer k p) := by
  intro r g g' hg
  obtain ⟨h1, h2, h3⟩ := h r (g.at k) (g'.at k) (hg k)
  refine ⟨h1, h2, fun k' => ?_⟩
  show PeerCtx.Same (Peers.at (HMap.insert g k _) k') (Peers.at (HMap.insert g' k _) k')
  by_cases hk : k' = k
  · subst hk; rw [Peers.at_insert_self, Peers.at_insert_self]; exact EqCtx.same h3
  · rw [Peers.at_insert_ne _ hk, Peers.at_insert_ne _ hk]; exact hg k'

theorem keeps_scratch (p : CParser PeerCtx ε α) : Keeps EqCtx (scratch p) := fun _ => rfl
theorem csame_scratch {p : CParser PeerCtx ε α} (h : CSame EqCtx EqCtx p) : CSame EqCtx EqCtx (scratch p) := by
  intro r g g' hg
  obtain ⟨h1, h2, _⟩ := h r g g' hg
  exact ⟨h1, h2, hg⟩
end

/-! ## Keeping the settings -/

theorem EqCtx.trans {a b c : PeerCtx} (h : EqCtx a b) (h' : EqCtx b c) : EqCtx a c := Eq.trans h h'
theorem EqCtx.rfl' (g : PeerCtx) : EqCtx g g := rfl

/-- one step of `pkeeps` -/
macro "pkeeps_step" : tactic => `(tactic| first
  | with_reducible exact keeps_pure EqCtx.rfl' _ | with_reducible exact keeps_fail EqCtx.rfl' _ | with_reducible exact keeps_lift EqCtx.rfl' _
  | with_reducible exact keeps_pure Peers.Same.refl _ | with_reducible exact keeps_fail Peers.Same.refl _ | with_reducible exact keeps_lift Peers.Same.refl _
  | with_reducible exact keeps_pure PeerCtx.Same.refl _ | with_reducible exact keeps_fail PeerCtx.Same.refl _ | with_reducible exact keeps_lift PeerCtx.Same.refl _
  | with_reducible exact keeps_bgpMsg | with_reducible exact keeps_scratch _ | with_reducible exact keeps_setAsn4 _ | with_reducible exact Keeps.same keeps_bgpMsg
  | with_reducible exact Keeps.same (keeps_scratch _)
  | with_reducible refine Keeps.mapErr _ ?_
  | with_reducible refine Keeps.onSub _ ?_
  | with_reducible refine Keeps.bind (R := EqCtx) EqCtx.trans ?_ fun _ => ?_
  | with_reducible refine Keeps.bind (R := PeerCtx.Same) PeerCtx.Same.trans ?_ fun _ => ?_
  | with_reducible refine Keeps.bind (R := Peers.Same) Peers.Same.trans ?_ fun _ => ?_
  | with_reducible refine Keeps.cmany (R := EqCtx) EqCtx.rfl' EqCtx.trans ?_
  | with_reducible refine Keeps.cmany (R := PeerCtx.Same) PeerCtx.Same.refl PeerCtx.Same.trans ?_
  | with_reducible refine keeps_atPeer ?_
  | with_reducible refine Keeps.ite (fun _ => ?_) (fun _ => ?_)
  | split)
/-- `pkeeps [h₁, …]` proves `Keeps R p` structurally -/
syntax "pkeeps" ("[" term,* "]")? : tactic
macro_rules
  | `(tactic| pkeeps) => `(tactic| repeat' pkeeps_step)
  | `(tactic| pkeeps [$t,*]) => do
    let ts := t.getElems
    let mut tac ← `(tactic| pkeeps_step)
    for x in ts do
      tac ← `(tactic| first | with_reducible exact $x | ($tac:tactic))
    `(tactic| repeat' ($tac:tactic))

theorem keeps_mirrorBody (l : UInt16) (t : MirrorType) : Keeps EqCtx (mirrorBody l t) := by
  cases t <;> unfold mirrorBody <;> pkeeps
theorem keeps_mirrorValue : Keeps EqCtx parseMirrorValue := by
  unfold parseMirrorValue; pkeeps [keeps_mirrorBody _ _]
theorem keeps_mirroring : Keeps Peers.Same parseMirroring := by
  unfold parseMirroring; pkeeps [Keeps.same keeps_mirrorValue]
theorem keeps_reason : Keeps EqCtx parseReason := by
  unfold parseReason reasonBody; pkeeps
theorem keeps_down3 : Keeps Peers.Same parseDown3 := by
  unfold parseDown3; pkeeps [Keeps.same keeps_reason]
theorem keeps_down4 : Keeps Peers.Same parseDown4 := by
  unfold parseDown4; pkeeps [Keeps.same keeps_reason]
theorem keeps_up : Keeps Peers.Same parseUp := by
  unfold parseUp; pkeeps
theorem keeps_rm3 : Keeps Peers.Same parseRm3 := by
  unfold parseRm3; pkeeps
theorem keeps_rm4 : Keeps Peers.Same parseRm4 := by
  unfold parseRm4; pkeeps
theorem keeps_value {R D RE : Type} {rm : CParser Peers RE R} {down : CParser Peers DownErr D} (hr : Keeps Peers.Same rm)
    (hd : Keeps Peers.Same down) : Keeps Peers.Same (parseValue rm down) := by
  unfold parseValue valueBody; pkeeps [hr, hd, keeps_up, keeps_mirroring]
theorem keeps_versionBody (v : Version) : Keeps Peers.Same (versionBody v) := by
  cases v <;> unfold versionBody <;> pkeeps [keeps_value keeps_rm3 keeps_down3, keeps_value keeps_rm4 keeps_down4]
/-- parsing a message leaves what was negotiated for each peer -/
theorem keeps_bmp : Keeps Peers.Same parseBmp := by
  unfold parseBmp; pkeeps [keeps_versionBody _]

/-! ## Depending on the settings only -/

/-- one step of `pcsame` -/
macro "pcsame_step" : tactic => `(tactic| first
  | with_reducible exact csame_pure _ | with_reducible exact csame_fail _ | with_reducible exact csame_lift _
  | with_reducible exact csame_bgpMsg | with_reducible exact csame_setAsn4 _
  | with_reducible refine csame_scratch ?_
  | with_reducible refine CSame.mapErr _ ?_
  | with_reducible refine CSame.onSub _ ?_
  | with_reducible refine CSame.bind (S := EqCtx) (fun h => h) (csame_setAsn4 _) fun _ => ?_
  | with_reducible refine CSame.bind' ?_ fun _ => ?_
  | with_reducible refine CSame.cmany ?_
  | with_reducible refine csame_atPeer ?_
  | with_reducible refine CSame.ite (fun _ => ?_) (fun _ => ?_)
  | split)
/-- `pcsame [h₁, …]` proves `CSame R S p` structurally -/
syntax "pcsame" ("[" term,* "]")? : tactic
macro_rules
  | `(tactic| pcsame) => `(tactic| repeat' pcsame_step)
  | `(tactic| pcsame [$t,*]) => do
    let ts := t.getElems
    let mut tac ← `(tactic| pcsame_step)
    for x in ts do
      tac ← `(tactic| first | with_reducible exact $x | ($tac:tactic))
    `(tactic| repeat' ($tac:tactic))

theorem csame_setAsn4' {ε : Type} (b : Bool) : CSame EqCtx EqCtx (setAsn4 b : CParser PeerCtx ε Unit) :=
  fun _ _ _ h => ⟨rfl, rfl, show MsgCtx.setAsn4 _ _ = MsgCtx.setAsn4 _ _ by rw [show _ = _ from h]⟩

theorem csame_mirrorBody (l : UInt16) (t : MirrorType) : CSame EqCtx EqCtx (mirrorBody l t) := by
  cases t <;> unfold mirrorBody <;> pcsame
theorem csame_mirrorValue : CSame EqCtx EqCtx parseMirrorValue := by
  unfold parseMirrorValue; pcsame [csame_mirrorBody _ _]
theorem csame_mirroring : CSame Peers.Same Peers.Same parseMirroring := by
  unfold parseMirroring; pcsame [csame_mirrorValue]
theorem csame_reason : CSame EqCtx EqCtx parseReason := by
  unfold parseReason reasonBody; pcsame
theorem csame_down3 : CSame Peers.Same Peers.Same parseDown3 := by
  unfold parseDown3; pcsame [csame_reason]
theorem csame_down4 : CSame Peers.Same Peers.Same parseDown4 := by
  unfold parseDown4; pcsame [csame_reason]
theorem csame_up : CSame Peers.Same Peers.Same parseUp := by
  unfold parseUp; pcsame [csame_setAsn4' _]
theorem csame_rm3 : CSame Peers.Same Peers.Same parseRm3 := by
  unfold parseRm3; pcsame
theorem csame_update (out : Bool) (c : Cap) {ε : Type} :
    CSame EqCtx EqCtx (CParser.modify fun g => g.update out c : CParser PeerCtx ε Unit) :=
  csame_modify fun {g g'} h => show (PeerCtx.update g out c).ctx = (PeerCtx.update g' out c).ctx by
    unfold PeerCtx.update; rw [show g.ctx = g'.ctx from h]
theorem csame_tlvBody (out : Bool) (t : UInt16) : CSame EqCtx EqCtx (tlvBody out t) := by
  unfold tlvBody; pcsame [csame_update _ _]
theorem csame_rmTlv (out : Bool) : CSame EqCtx EqCtx (parseRmTlv out) := by
  unfold parseRmTlv; pcsame [csame_tlvBody _ _]
theorem csame_rm4Body (out : Bool) : CSame EqCtx EqCtx (rm4Body out) := by
  unfold rm4Body rm4Item; pcsame [csame_rmTlv _]
theorem csame_rm4 : CSame Peers.Same Peers.Same parseRm4 := by
  unfold parseRm4; pcsame [csame_rm4Body _]
theorem csame_value {R D RE : Type} {rm : CParser Peers RE R} {down : CParser Peers DownErr D}
    (hr : CSame Peers.Same Peers.Same rm) (hd : CSame Peers.Same Peers.Same down) :
    CSame Peers.Same Peers.Same (parseValue rm down) := by
  unfold parseValue valueBody; pcsame [hr, hd, csame_up, csame_mirroring]
theorem csame_versionBody (v : Version) : CSame Peers.Same Peers.Same (versionBody v) := by
  cases v <;> unfold versionBody <;> pcsame [csame_value csame_rm3 csame_down3, csame_value csame_rm4 csame_down4]
/-- how a message is parsed depends on what was negotiated only -/
theorem csame_bmp : CSame Peers.Same Peers.Same parseBmp := by
  unfold parseBmp; pcsame [csame_versionBody _]

end Verif.Bmp
