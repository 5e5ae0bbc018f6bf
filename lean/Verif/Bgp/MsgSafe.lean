import Verif.Bgp.MsgLemmas
/-!
# The message parsers neither panic nor loop

Every lenient loop of the message parsers (capabilities, NLRI, path attributes) consumes at least one octet per
iteration, also when it carries on after an error.
-/
namespace Verif.Bgp
open Verif Verif.Parser

theorem fwd_panic {ε α : Type} : Fwd (Parser.panic : Parser ε α) := ⟨Adv.refl⟩

theorem fwd_attrSlice {ε : Type} (g : ParseError → ε) (ext : Bool) : Fwd (attrSlice g ext) := by
  unfold attrSlice; pfwd
theorem fwd_attrLen {ε : Type} (g : ParseError → ε) (ext : Bool) : Fwd (attrLen g ext) := by
  unfold attrLen; pfwd
theorem fwd_attrMany {ε α : Type} (g : ParseError → ε) (ext : Bool) (p : Parser ε α) : Fwd (attrMany g ext p) := by
  unfold attrMany; pfwd [fwd_attrSlice _ _]
theorem fwd_fixedAttr {α : Type} (n : Nat) (ext : Bool) {p : Parser ParseError α} (h : Fwd p) :
    Fwd (fixedAttr n ext p) := by
  unfold fixedAttr; pfwd [fwd_attrLen _ _, h]
theorem fwd_word32Attr (ext : Bool) : Fwd (word32Attr ext) := by
  unfold word32Attr; pfwd [fwd_attrSlice _ _]

/-- the cursor after a path attribute value never moves backwards, whatever the outcome -/
theorem fwd_attrValue (c : AttrCtx) (ext : Bool) (code : UInt8) : Fwd (attrValue c ext code) := by
  unfold attrValue parseOrigin parseAsPath parseAs4Path parseAggregator listAttr parseMpReach parseMpUnreach parseAigp
    parseLsAttrs parseSid parseUnknownAttr
  pfwd [fwd_attrSlice _ _, fwd_attrLen _ _, fwd_attrMany _ _ _, fwd_word32Attr _, fwd_panic, fwd_fixedAttr _ _ fwd_readU32,
    fwd_fixedAttr _ _ (fwd_pure _), fwd_fixedAttr _ _ (fwd_bind fwd_readU32 fun _ => fwd_bind fwd_readU32 fun _ => fwd_pure _),
    fwd_fixedAttr _ _ (fwd_bind fwd_readU16 fun _ => fwd_bind fwd_readU32 fun _ => fwd_pure _)]

/-- an attribute takes its flags and type code unless there are fewer than two octets left, and then the error is a
parse error -/
theorem attr_err_adv {c : AttrCtx} {r r' : Reader} {e : AttrErr} (h : parseAttr c r = (.err e, r'))
    (he : ∀ x, e ≠ .parse x) : Adv 2 r r' := by
  obtain ⟨_ | ⟨f, _ | ⟨code, bs⟩⟩, o⟩ := r
  · exact absurd ((Res.err.inj (congrArg Prod.fst h)).symm) (he _)
  · exact absurd ((Res.err.inj (congrArg Prod.fst h)).symm) (he _)
  · have h2 : Adv 2 ⟨f :: code :: bs, o⟩ ⟨bs, o + 1 + 1⟩ := ⟨2, by omega, by simp, by simp⟩
    have hr : parseAttr c ⟨f :: code :: bs, o⟩ = (do
        let v ← attrValue c (hasBit f 0x10) code
        match PathAttr.make (hasBit f 0x80) (hasBit f 0x40) (hasBit f 0x20) (hasBit f 0x10) v with
        | .ok a => pure a
        | .error e => fail (.invalid o e v.known v.code)) ⟨bs, o + 1 + 1⟩ := rfl
    rw [hr] at h
    have h3 : Fwd (do
        let v ← attrValue c (hasBit f 0x10) code
        match PathAttr.make (hasBit f 0x80) (hasBit f 0x40) (hasBit f 0x20) (hasBit f 0x10) v with
        | .ok a => pure a
        | .error e => fail (.invalid o e v.known v.code) : Parser AttrErr PathAttr) :=
      fwd_bind (fwd_attrValue _ _ _) fun v => by
        split
        · exact fwd_pure _
        · exact fwd_fail _
    have := h3.adv ⟨bs, o + 1 + 1⟩
    rw [h] at this
    exact h2.trans this

theorem safe_advanceAttr : Safe 0 advanceAttr := by
  unfold advanceAttr
  refine safe_bind_r safe_readU8.zero fun f => safe_bind_r safe_readU8.zero fun _ => ?_
  refine safe_bind_r (safe_ite (fun _ => (safe_map _ safe_readU16).zero) fun _ => (safe_map _ safe_readU8).zero) fun l => ?_
  exact safe_bind_r (safe_takeSlice _).zero fun _ => safe_pure _
theorem safe_advanceAttrFixed (n : Nat) : Safe 0 (advanceAttrFixed n) := by
  unfold advanceAttrFixed
  exact safe_bind_r safe_readU8.zero fun f => safe_bind_r (safe_takeSlice _).zero fun _ => safe_pure _
theorem safe_recovery (x : Recovery) : Safe 0 x.run := by
  cases x
  · exact safe_fail _ _
  · exact safe_bind_r (safe_takeSlice _).zero fun _ => safe_pure _
  · exact safe_advanceAttrFixed _
  · exact safe_advanceAttr

open CParser

/-- one iteration of the attribute loop -/
theorem cout_attrStep {c : MsgCtx} (hc : c.attr.LimOk) (r : Reader) (g : Ignored) : COut 1 r (attrStep c (r, g)) := by
  unfold attrStep
  have hs := (safe_parseAttr hc).out r
  rcases hp : parseAttr c.attr r with ⟨a | e | x, r'⟩ <;> rw [hp] at hs
  · rw [CParser.bind_ok (attempt_ok hp g)]
    exact hs.mono (by omega)
  · rw [CParser.bind_ok (attempt_err hp g)]
    by_cases he : ∃ x, e = .parse x
    · obtain ⟨x, rfl⟩ := he
      exact trivial
    · have ha := attr_err_adv hp fun x hx => he ⟨x, hx⟩
      have key : COut 1 r ((if c.failAttr then CParser.fail (.attr e)
          else do
            CParser.lift (Parser.mapErr .parse (recovery c.attr.asn4 e).run)
            CParser.modify fun g => { g with attrs := g.attrs ++ [e] }
            pure none : MParser UpdateErr (Option PathAttr)) (r', g)) := by
        by_cases hf : c.failAttr = true
        · rw [if_pos hf]; trivial
        · rw [if_neg hf]
          have h2 : CSafe 0 (do
              CParser.lift (Parser.mapErr .parse (recovery c.attr.asn4 e).run)
              CParser.modify fun g => { g with attrs := g.attrs ++ [e] }
              pure none : MParser UpdateErr (Option PathAttr)) :=
            csafe_bind (csafe_lift (safe_mapErr _ (safe_recovery _))) fun _ =>
              csafe_bind (csafe_modify _) fun _ => csafe_pure _
          have h3 := h2.out r' g
          revert h3
          generalize (do
              CParser.lift (Parser.mapErr .parse (recovery c.attr.asn4 e).run)
              CParser.modify fun g => { g with attrs := g.attrs ++ [e] }
              pure none : MParser UpdateErr (Option PathAttr)) (r', g) = y
          obtain ⟨_ | _ | _, s⟩ := y
          · exact fun h3 => (Adv.trans ha h3).mono (by omega)
          · exact fun _ => trivial
          · exact fun h3 => h3
      cases e <;> first | exact key | exact (he ⟨_, rfl⟩).elim
  · exact hs.elim

/-- one iteration of the capability loop -/
theorem cout_capStep (c : MsgCtx) (r : Reader) (g : Ignored) (hr : r.buf ≠ []) : COut 1 r (capStep c (r, g)) := by
  unfold capStep
  have hs := safe_cap.out r
  have ha := cap_adv hr
  rcases hp : parseCap r with ⟨a | e | x, r'⟩ <;> rw [hp] at hs ha
  · rw [CParser.bind_ok (attempt_ok hp g)]; exact hs
  · rw [CParser.bind_ok (attempt_err hp g)]
    show COut 1 r ((if c.failCap then CParser.fail (.capability e) else do
      CParser.modify fun g => { g with caps := g.caps ++ [e] }
      pure none : MParser ParamErr (Option Cap)) (r', g))
    by_cases hf : c.failCap = true
    · rw [if_pos hf]; trivial
    · rw [if_neg hf]; exact ha
  · exact hs.elim

theorem csafe_nlriStep (c : MsgCtx) (ap u : Bool) : CSafe 1 (nlriStep c ap u) := by
  unfold nlriStep
  refine csafe_bind_r (csafe_lift ?_) fun id => ?_
  · split
    · exact safe_map _ (safe_mapErr _ safe_readU32.zero)
    · exact safe_pure _
  refine csafe_bind_r (csafe_lift safe_getOffset) fun o => ?_
  refine csafe_bind_l (csafe_lift (safe_mapErr _ (safe_parseNet 4))) fun n => ?_
  refine csafe_ite (fun _ => csafe_pure _) fun _ => ?_
  have h : CSafe 0 (if (!u && !c.failWithdraw) = true then do
        CParser.modify fun g => { g with withdraw := g.withdraw ++ [n] }
        pure none
      else if (u && !c.failUpdate) = true then do
        CParser.modify fun g => { g with update := g.update ++ [n] }
        pure none
      else CParser.fail (UpdateErr.invalidNetwork o n) : MParser UpdateErr (Option NetAddr)) := by
    refine csafe_ite (fun _ => csafe_bind_l (csafe_modify _) fun _ => csafe_pure _) fun _ => ?_
    exact csafe_ite (fun _ => csafe_bind_l (csafe_modify _) fun _ => csafe_pure _) fun _ => csafe_fail _ _
  exact csafe_ite (fun _ => csafe_bind_l (csafe_modify _) fun _ => h) fun _ => h

theorem csafe_parseNlri (c : MsgCtx) (ap u : Bool) : CSafe 0 (parseNlri c ap u) :=
  csafe_cmany fun r g _ => (csafe_nlriStep c ap u).out r g

theorem csafe_parseUpdate {c : MsgCtx} (hc : c.attr.LimOk) : CSafe 0 (parseUpdate c) := by
  unfold parseUpdate
  refine csafe_bind_r (csafe_lift (safe_mapErr _ safe_readU16.zero)) fun l => ?_
  refine csafe_bind_r (csafe_lift (safe_mapErr _ (safe_takeSlice _).zero)) fun buf => ?_
  refine csafe_bind_r (csafe_onSub _ (csafe_parseNlri ..)) fun x => ?_
  refine csafe_bind_r (csafe_lift (safe_mapErr _ safe_readU16.zero)) fun l => ?_
  refine csafe_bind_r (csafe_lift (safe_mapErr _ (safe_takeSlice _).zero)) fun buf => ?_
  refine csafe_bind_r (csafe_onSub _ (csafe_cmany fun r g _ => cout_attrStep hc r g)) fun y => ?_
  exact csafe_bind_r (csafe_parseNlri ..) fun _ => csafe_pure _

theorem csafe_parseParam (c : MsgCtx) : CSafe 1 (parseParam c) := by
  unfold parseParam parseCapParam
  refine csafe_bind_r (csafe_lift (safe_mapErr _ safe_peekU8)) fun code => ?_
  refine csafe_bind_r (csafe_lift safe_getOffset) fun o => ?_
  refine csafe_ite (fun _ => ?_) fun _ => csafe_fail _ _
  refine csafe_bind_l (csafe_lift (safe_mapErr _ safe_readU8)) fun _ => ?_
  refine csafe_bind_r (csafe_lift (safe_mapErr _ safe_readU8.zero)) fun l => ?_
  refine csafe_bind_r (csafe_lift (safe_mapErr _ (safe_takeSlice _).zero)) fun buf => ?_
  exact csafe_bind_r (csafe_onSub _ (csafe_cmany fun r g h => cout_capStep c r g h)) fun y => csafe_pure _

theorem csafe_parseParams (c : MsgCtx) : CSafe 0 (parseParams c) :=
  csafe_cmany fun r g _ => (csafe_bind_l (csafe_parseParam c) fun _ => csafe_pure _).out r g

theorem safe_parseOpenFixed : Safe 0 parseOpenFixed := by unfold parseOpenFixed; psafe

theorem csafe_parseOpen (c : MsgCtx) : CSafe 0 (parseOpen c) := by
  unfold parseOpen
  refine csafe_bind_r (csafe_lift safe_parseOpenFixed) fun x => ?_
  refine csafe_ite (fun _ => csafe_pure _) fun _ => ?_
  refine csafe_bind_r (csafe_lift (safe_mapErr _ (safe_takeSlice _).zero)) fun buf => ?_
  exact csafe_bind_r (csafe_onSub _ (csafe_mapErr _ (csafe_parseParams c))) fun y => csafe_pure _

theorem safe_parseNotif : Safe 0 parseNotif := by
  unfold parseNotif parseNotifBody
  psafe
theorem safe_parseRefresh : Safe 0 parseRefresh := by
  unfold parseRefresh
  psafe

theorem csafe_parseBody {c : MsgCtx} (hc : c.attr.LimOk) (t : MsgType) : CSafe 0 (parseBody c t) := by
  cases t
  · exact csafe_bind_l (csafe_mapErr _ (csafe_parseOpen c)) fun _ => csafe_pure _
  · exact csafe_bind_l (csafe_mapErr _ (csafe_parseUpdate hc)) fun _ => csafe_pure _
  · exact csafe_bind_l (csafe_lift (safe_mapErr _ safe_parseNotif)) fun _ => csafe_pure _
  · exact csafe_pure _
  · exact csafe_bind_l (csafe_lift (safe_mapErr _ safe_parseRefresh)) fun _ => csafe_pure _

theorem safe_takeFrame (l : UInt16) : Safe (l.toNat - 18) (takeFrame l) := by
  refine ⟨fun r => ?_⟩
  have := (safe_takeSlice (l.toNat - 18)).out r
  unfold takeFrame
  rcases hp : takeSlice (l.toNat - 18) r with ⟨_ | _ | _, _⟩ <;> rw [hp] at this <;> exact this

theorem safe_parseHeader : Safe 3 parseHeader := by
  unfold parseHeader
  refine safe_bind (j := 2) (k := 1) (safe_mapErr _ safe_readU16) fun l => ?_
  refine safe_bind_r safe_getOffset fun o => ?_
  refine safe_ite (fun _ => safe_fail _ _) fun h => ?_
  refine safe_bind_l ((safe_takeFrame l).mono (by simp only [minLen] at h; omega)) fun buf => ?_
  refine safe_bind_r (safe_onSub _ (safe_mapErr _ safe_readU8)) fun x => ?_
  psafe

theorem safe_parseMarker : Safe 16 parseMarker := by
  unfold parseMarker
  refine safe_bind_l (safe_mapErr _ safe_readU128) fun _ => ?_
  psafe

theorem csafe_parseMsg {c : MsgCtx} (hc : c.attr.LimOk) : CSafe 19 (parseMsg c) := by
  unfold parseMsg
  refine csafe_bind (j := 16) (k := 3) (csafe_lift safe_parseMarker) fun _ => ?_
  refine csafe_bind_l (csafe_lift safe_parseHeader) fun x => ?_
  refine csafe_bind_r (csafe_onSub _ (csafe_parseBody hc _)) fun y => ?_
  exact csafe_ite (fun _ => csafe_fail _ _) fun _ => csafe_pure _

end Verif.Bgp
