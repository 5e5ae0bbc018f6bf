import Verif.Bgp.CodecLemmas
/-!
# Nothing is ignored when every error fails
-/
namespace Verif.Bgp
open Verif CParser

variable {σ ε ε' α β : Type}

/-- a successful run leaves the context as it was -/
def Keeps (p : CParser σ ε α) : Prop := ∀ s a s', p s = (.ok a, s') → s'.2 = s.2

theorem keeps_pure (a : α) : Keeps (pure a : CParser σ ε α) := by
  intro s b s' h
  obtain ⟨_, rfl⟩ := Prod.mk.injEq .. ▸ h
  rfl

theorem keeps_fail (e : ε) : Keeps (CParser.fail e : CParser σ ε α) := by
  intro s b s' h
  simp [CParser.fail] at h

theorem keeps_lift (p : Parser ε α) : Keeps (CParser.lift p : CParser σ ε α) := fun _ _ _ h => (lift_eq_ok h).2

theorem keeps_bind {p : CParser σ ε α} {f : α → CParser σ ε β} (hp : Keeps p) (hf : ∀ a, Keeps (f a)) : Keeps (p >>= f) := by
  intro s b s' h
  obtain ⟨a, s1, h1, h2⟩ := bind_eq_ok h
  rw [hf a _ _ _ h2, hp _ _ _ h1]

theorem keeps_mapErr (f : ε → ε') {p : CParser σ ε α} (hp : Keeps p) : Keeps (CParser.mapErr f p) := fun _ _ _ h => hp _ _ _ (mapErr_eq_ok h)

theorem keeps_onSub {p : CParser σ ε α} (sub : Reader) (hp : Keeps p) : Keeps (CParser.onSub sub p) := by
  rintro s ⟨a, sub'⟩ s' h
  exact hp (sub, s.2) a (sub', s'.2) (onSub_eq_ok h).1

theorem keeps_cmany {p : CParser σ ε (Option α)} (hp : Keeps p) : Keeps (CParser.cmany p) := fun _ _ _ h =>
  cmany_ok_induction (Q := fun s _ s' => s'.2 = s.2) (fun _ _ => rfl) (fun _ _ _ _ _ _ h1 _ _ ih => ih.trans (hp _ _ _ h1)) h

theorem keeps_ite {c : Prop} [Decidable c] {p q : CParser σ ε α} (hp : c → Keeps p) (hq : ¬ c → Keeps q) : Keeps (if c then p else q) := by
  split
  · exact hp ‹_›
  · exact hq ‹_›

theorem keeps_attempt (p : Parser ε α) : Keeps (CParser.attempt p : CParser σ ε' (Except ε α)) := by
  intro s a s' h
  unfold CParser.attempt at h
  split at h
  · obtain ⟨_, rfl⟩ := Prod.mk.injEq .. ▸ h; rfl
  · obtain ⟨_, rfl⟩ := Prod.mk.injEq .. ▸ h; rfl
  · simp at h

/-- what never succeeds keeps everything -/
theorem keeps_never {p : CParser σ ε α} {f : α → CParser σ ε β} (hf : ∀ a s b s', f a s ≠ (.ok b, s')) : Keeps (p >>= f) := by
  intro s b s' h
  obtain ⟨a, s1, _, h2⟩ := bind_eq_ok h
  exact absurd h2 (hf a s1 b s')

/-- every error fails the message -/
def MsgCtx.Strict (c : MsgCtx) : Prop := c.failWithdraw = true ∧ c.failUpdate = true ∧ c.failCap = true ∧ c.failAttr = true

theorem keeps_capStep {c : MsgCtx} (hc : c.Strict) : Keeps (capStep c) := by
  refine keeps_bind (keeps_attempt _) fun x => ?_
  cases x with
  | ok x => exact keeps_pure _
  | error e => exact keeps_ite (fun _ => keeps_fail _) fun h => absurd hc.2.2.1 h

theorem keeps_nlriStep {c : MsgCtx} (hc : c.Strict) (ap upd : Bool) : Keeps (nlriStep c ap upd) := by
  refine keeps_bind (keeps_lift _) fun id => keeps_bind (keeps_lift _) fun o => keeps_bind (keeps_lift _) fun n => keeps_ite (fun _ => keeps_pure _) fun _ => ?_
  have h : ∀ (a : Unit) (s : Reader × Ignored) (b : Option NetAddr) (s' : Reader × Ignored), (fun (_ : Unit) => (if (!upd && !c.failWithdraw) = true then do
      CParser.modify fun g => { g with withdraw := g.withdraw ++ [n] }
      pure none
    else if (upd && !c.failUpdate) = true then do
      CParser.modify fun g => { g with update := g.update ++ [n] }
      pure none
    else CParser.fail (.invalidNetwork o n) : MParser UpdateErr (Option NetAddr))) a s ≠ (.ok b, s') := by
    intro a s b s'
    simp only [hc.1, hc.2.1, Bool.not_true, Bool.and_false, Bool.false_eq_true, if_false]
    simp [CParser.fail]
  exact keeps_ite (fun _ => keeps_never h) fun _ => keeps_never (p := pure ()) h

theorem keeps_attrStep {c : MsgCtx} (hc : c.Strict) : Keeps (attrStep c) := by
  refine keeps_bind (keeps_attempt _) fun x => ?_
  cases x with
  | ok x => exact keeps_pure _
  | error e =>
    cases e with
    | parse e => exact keeps_fail _
    | _ => exact keeps_ite (fun _ => keeps_fail _) fun h => absurd hc.2.2.2 h

theorem keeps_parseOpen {c : MsgCtx} (hc : c.Strict) : Keeps (parseOpen c) := by
  refine keeps_bind (keeps_lift _) fun x => keeps_ite (fun _ => keeps_pure _) fun _ => keeps_bind (keeps_lift _) fun b =>
    keeps_bind (keeps_onSub _ (keeps_mapErr _ (keeps_cmany ?_))) fun x => keeps_pure _
  refine keeps_bind ?_ fun _ => keeps_pure _
  refine keeps_bind (keeps_lift _) fun code => keeps_bind (keeps_lift _) fun o => keeps_ite (fun _ => keeps_bind (keeps_lift _) fun _ => ?_) fun _ => keeps_fail _
  exact keeps_bind (keeps_lift _) fun l => keeps_bind (keeps_lift _) fun b => keeps_bind (keeps_onSub _ (keeps_cmany (keeps_capStep hc))) fun x => keeps_pure _

theorem keeps_parseUpdate {c : MsgCtx} (hc : c.Strict) : Keeps (parseUpdate c) :=
  keeps_bind (keeps_lift _) fun _ => keeps_bind (keeps_lift _) fun _ => keeps_bind (keeps_onSub _ (keeps_cmany (keeps_nlriStep hc _ _))) fun _ =>
    keeps_bind (keeps_lift _) fun _ => keeps_bind (keeps_lift _) fun _ => keeps_bind (keeps_onSub _ (keeps_cmany (keeps_attrStep hc))) fun _ =>
      keeps_bind (keeps_cmany (keeps_nlriStep hc _ _)) fun _ => keeps_pure _

/-- when every error fails the message, a message that is parsed has recorded nothing -/
theorem keeps_parseMsg {c : MsgCtx} (hc : c.Strict) : Keeps (parseMsg c) := by
  refine keeps_bind (keeps_lift _) fun _ => keeps_bind (keeps_lift _) fun _ => keeps_bind (keeps_onSub _ ?_) fun _ =>
    keeps_ite (fun _ => keeps_fail _) fun _ => keeps_pure _
  rename_i x
  generalize x.2.1 = t
  cases t with
  | «open» => exact keeps_bind (keeps_mapErr _ (keeps_parseOpen hc)) fun _ => keeps_pure _
  | update => exact keeps_bind (keeps_mapErr _ (keeps_parseUpdate hc)) fun _ => keeps_pure _
  | notification => exact keeps_bind (keeps_lift _) fun _ => keeps_pure _
  | keepAlive => exact keeps_pure _
  | routeRefresh => exact keeps_bind (keeps_lift _) fun _ => keeps_pure _

/-- a message of a strict codec comes with what was recorded before it -/
theorem decode_strict {s s' : Codec} (hs : s.ctx.Strict) {b b' : Bytes} {m : Msg} {g : Ignored} (h : s.decode b = (.out (.ok (m, g)), s', b')) :
    g = s.ignored ∧ s'.ignored = .none ∧ s'.ctx.Strict := by
  obtain ⟨_, _, _, h4, _, h6⟩ := decode_out h
  have hc : (s.ctx.setAsn4 s.asn4).Strict := hs
  rcases hp : parseMsg (s.ctx.setAsn4 s.asn4) (⟨b.take (declared b), 0⟩, .none) with ⟨m' | e | f, ⟨r, d⟩⟩
  · rw [hp] at h6
    have hk := keeps_parseMsg hc _ _ _ hp
    simp only at hk
    subst hk
    obtain ⟨h7, h8, _⟩ := h6
    simp only [Res.ok.injEq, Prod.mk.injEq] at h7
    refine ⟨?_, h8, by rw [h4]; exact hc⟩
    rw [h7.2]; simp [Ignored.app, Ignored.none]
  · rw [hp] at h6; simp at h6
  · rw [hp] at h6; simp at h6

end Verif.Bgp
