import Verif.Bgp.Codec
import Verif.Bgp.MsgLemmas
/-!
# Lemmas about the codec
-/
namespace Verif.Bgp
open Verif CParser

/-! ## The log of ignored errors -/

/-- joining what two parts of a message recorded -/
def Ignored.app (a b : Ignored) : Ignored :=
  ⟨a.withdraw ++ b.withdraw, a.update ++ b.update, a.caps ++ b.caps, a.attrs ++ b.attrs⟩

instance : Log Ignored where
  nil := .none
  app := .app
  assoc a b c := by simp [Ignored.app]
  nil_app a := by simp [Ignored.app, Ignored.none]
  app_nil a := by simp [Ignored.app, Ignored.none]

theorem logs_capStep (c : MsgCtx) : Logs (capStep c) := by
  refine Logs.bind (logs_attempt _) fun x => ?_
  cases x with
  | ok x => exact logs_pure _
  | error e =>
    refine Logs.ite (logs_fail _) (Logs.bind (logs_modify fun g => ?_) fun _ => logs_pure _)
    simp [Log.app, Log.nil, Ignored.app, Ignored.none]

theorem logs_parseParam (c : MsgCtx) : Logs (parseParam c) := by
  refine Logs.bind (logs_lift _) fun code => Logs.bind (logs_lift _) fun o => Logs.ite (Logs.bind (logs_lift _) fun _ => ?_) (logs_fail _)
  exact Logs.bind (logs_lift _) fun l => Logs.bind (logs_lift _) fun b =>
    Logs.bind (logs_onSub _ (logs_cmany (logs_capStep c))) fun x => logs_pure _

theorem logs_parseOpen (c : MsgCtx) : Logs (parseOpen c) := by
  refine Logs.bind (logs_lift _) fun x => Logs.ite (logs_pure _) (Logs.bind (logs_lift _) fun b =>
    Logs.bind (logs_onSub _ (Logs.mapErr _ (logs_cmany ?_))) fun x => logs_pure _)
  exact Logs.bind (logs_parseParam c) fun _ => logs_pure _

theorem logs_nlriStep (c : MsgCtx) (ap upd : Bool) : Logs (nlriStep c ap upd) := by
  refine Logs.bind (logs_lift _) fun id => Logs.bind (logs_lift _) fun o => Logs.bind (logs_lift _) fun n =>
    Logs.ite (logs_pure _) ?_
  have h : ∀ (_ : Unit), Logs (if (!upd && !c.failWithdraw) = true then do
      CParser.modify fun g => { g with withdraw := g.withdraw ++ [n] }
      pure none
    else if (upd && !c.failUpdate) = true then do
      CParser.modify fun g => { g with update := g.update ++ [n] }
      pure none
    else CParser.fail (.invalidNetwork o n) : MParser UpdateErr (Option NetAddr)) := fun _ =>
    Logs.ite (Logs.bind (logs_modify fun g => by simp [Log.app, Log.nil, Ignored.app, Ignored.none]) fun _ => logs_pure _)
      (Logs.ite (Logs.bind (logs_modify fun g => by simp [Log.app, Log.nil, Ignored.app, Ignored.none]) fun _ => logs_pure _)
        (logs_fail _))
  exact Logs.ite (Logs.bind (logs_modify fun g => by simp [Log.app, Log.nil, Ignored.app, Ignored.none]) fun _ => h ())
    (Logs.bind (logs_pure ()) h)

theorem logs_attrStep (c : MsgCtx) : Logs (attrStep c) := by
  refine Logs.bind (logs_attempt _) fun x => ?_
  have h : ∀ e : AttrErr, Logs (if c.failAttr then CParser.fail (.attr e)
    else do
      CParser.lift (Parser.mapErr .parse (recovery c.attr.asn4 e).run)
      CParser.modify fun g => { g with attrs := g.attrs ++ [e] }
      pure none : MParser UpdateErr (Option PathAttr)) := fun e =>
    Logs.ite (logs_fail _) (Logs.bind (logs_lift _) fun _ =>
      Logs.bind (logs_modify fun g => by simp [Log.app, Log.nil, Ignored.app, Ignored.none]) fun _ => logs_pure _)
  cases x with
  | ok x => exact logs_pure _
  | error e =>
    cases e with
    | parse e => exact logs_fail _
    | _ => exact h _

theorem logs_parseUpdate (c : MsgCtx) : Logs (parseUpdate c) :=
  Logs.bind (logs_lift _) fun _ => Logs.bind (logs_lift _) fun _ => Logs.bind (logs_onSub _ (logs_cmany (logs_nlriStep ..)))
    fun _ => Logs.bind (logs_lift _) fun _ => Logs.bind (logs_lift _) fun _ =>
      Logs.bind (logs_onSub _ (logs_cmany (logs_attrStep c))) fun _ => Logs.bind (logs_cmany (logs_nlriStep ..)) fun _ =>
        logs_pure _

theorem logs_parseBody (c : MsgCtx) (t : MsgType) : Logs (parseBody c t) := by
  cases t with
  | «open» => exact Logs.bind (Logs.mapErr _ (logs_parseOpen c)) fun _ => logs_pure _
  | update => exact Logs.bind (Logs.mapErr _ (logs_parseUpdate c)) fun _ => logs_pure _
  | notification => exact Logs.bind (logs_lift _) fun _ => logs_pure _
  | keepAlive => exact logs_pure _
  | routeRefresh => exact Logs.bind (logs_lift _) fun _ => logs_pure _

theorem logs_parseMsg (c : MsgCtx) : Logs (parseMsg c) :=
  Logs.bind (logs_lift _) fun _ => Logs.bind (logs_lift _) fun _ => Logs.bind (logs_onSub _ (logs_parseBody c _)) fun _ =>
    Logs.ite (logs_fail _) (logs_pure _)

/-! ## One call -/

theorem declared_append {b : Bytes} (h : 19 ≤ b.length) (more : Bytes) : declared (b ++ more) = declared b := by
  unfold declared
  rw [List.drop_append_of_le_length (by omega), List.take_append_of_le_length (by simp; omega)]

theorem codec_local : Local Codec.decode where
  wait := by
    intro s b s' b' h
    unfold Codec.decode at h
    split at h
    · simp only at h
      split at h
      · simp only [Prod.mk.injEq, true_and] at h; exact ⟨h.1.symm, h.2.symm⟩
      · split at h <;> simp at h
    · simp only [Prod.mk.injEq, true_and] at h; exact ⟨h.1.symm, h.2.symm⟩
  out := by
    intro s b x s' b' h more
    unfold Codec.decode at h ⊢
    by_cases h19 : 19 ≤ b.length
    · rw [if_pos h19] at h
      rw [if_pos (by simp; omega), declared_append h19]
      simp only at h ⊢
      by_cases hn : b.length < declared b
      · rw [if_pos hn] at h; simp at h
      · rw [if_neg hn] at h
        rw [if_neg (by simp; omega), List.take_append_of_le_length (by omega), List.drop_append_of_le_length (by omega)]
        split at h
        all_goals
          simp only [Prod.mk.injEq] at h ⊢
          exact ⟨h.1, h.2.1, by rw [h.2.2]⟩
    · rw [if_neg h19] at h; simp at h

/-- when a frame is there, what is decoded is that frame, with the negotiated AS number width -/
theorem decode_out {s s' : Codec} {b b' : Bytes} {x : Res MsgErr (Msg × Ignored)}
    (h : s.decode b = (.out x, s', b')) :
    19 ≤ b.length ∧ declared b ≤ b.length ∧ b' = b.drop (declared b) ∧ s'.ctx = s.ctx.setAsn4 s.asn4 ∧ s'.sent = s.sent ∧
    match parseMsg (s.ctx.setAsn4 s.asn4) (⟨b.take (declared b), 0⟩, .none) with
    | (.ok m, (_, d)) => x = .ok (m, s.ignored.app d) ∧ s'.ignored = .none ∧ s'.recv = s.received m
    | (.err e, (_, d)) => x = .err e ∧ s'.ignored = s.ignored.app d ∧ s'.recv = s.recv
    | (.fault f, (_, d)) => x = .fault f ∧ s'.ignored = s.ignored.app d ∧ s'.recv = s.recv := by
  unfold Codec.decode at h
  by_cases h19 : 19 ≤ b.length
  · rw [if_pos h19] at h
    simp only at h
    by_cases hn : b.length < declared b
    · rw [if_pos hn] at h; simp at h
    · rw [if_neg hn] at h
      refine ⟨h19, by omega, ?_⟩
      rcases hp : parseMsg (s.ctx.setAsn4 s.asn4) (⟨b.take (declared b), 0⟩, .none) with ⟨m | e | f, ⟨r, d⟩⟩
      all_goals
        rw [(logs_parseMsg _).eq hp] at h
        simp only [Prod.mk.injEq, Dec.out.injEq] at h
        obtain ⟨rfl, rfl, rfl⟩ := h
        exact ⟨rfl, rfl, rfl, rfl, rfl, rfl⟩
  · rw [if_neg h19] at h; simp at h

theorem decode_wait {s s' : Codec} {b b' : Bytes} (h : s.decode b = (.wait, s', b')) :
    s' = s ∧ b' = b ∧ (b.length < 19 ∨ b.length < declared b) := by
  obtain ⟨rfl, rfl⟩ := codec_local.wait h
  refine ⟨rfl, rfl, ?_⟩
  unfold Codec.decode at h
  split at h
  · simp only at h
    split at h
    · right; assumption
    · split at h <;> simp at h
  · left; omega

theorem decode_short (s : Codec) {b : Bytes} (h : b.length < 19 ∨ b.length < declared b) : s.decode b = (.wait, s, b) := by
  unfold Codec.decode
  by_cases h19 : 19 ≤ b.length
  · rw [if_pos h19]
    simp only
    rw [if_pos (by omega)]
  · rw [if_neg h19]

end Verif.Bgp
