import Verif.Collector.Lemmas
import Verif.YangPush.Validation
/-!
# What a turn of the validation of YANG push notifications does
-/
namespace Verif.YangPush
open Collector

variable {A X P L C : Type} [DecidableEq A] [DecidableEq X]

theorem look_nil' {κ α : Type} [DecidableEq κ] (k : κ) : List.look ([] : List (κ × α)) k = none := rfl

theorem entry_nil (ip : A) (id : UInt32) : PeerCache.entry ([] : PeerCache A X P C) ip id = none := rfl

theorem entry_set (c : PeerCache A X P C) (ip ip' : A) (id id' : UInt32) (e : CachedSub A X P C) :
    (c.set ip id e).entry ip' id' = if ip = ip' ∧ id = id' then some e else c.entry ip' id' := by
  unfold PeerCache.set PeerCache.entry
  rw [lookup_put]
  by_cases h : ip = ip'
  · subst h
    simp only [if_true, Option.bind_some, lookup_put, true_and]
    split
    · rfl
    · cases c.look ip <;> rfl
  · simp [h]

theorem checkNew_key (c : PeerCache A X P C) (ip : A) (info : SubInfo A X) :
    (checkNew c ip info).entry ip info.id = (c.entry ip info.id).filter fun x => x.info.same info := by
  unfold checkNew
  cases hc : c.look ip with
  | none => simp [PeerCache.entry, hc]
  | some subs =>
    simp only [PeerCache.entry, hc, Option.bind_some]
    cases he : subs.look info.id with
    | none =>
      simp only [Option.map_none, Option.getD_none, if_true, Option.filter_none]
      split
      · simp [lookup_del]
      · simp [lookup_put, lookup_del]
    | some e =>
      simp only [Option.map_some, Option.getD_some, Option.filter_some]
      by_cases hs : e.info.same info = true
      · simp only [hs, Bool.not_true, Bool.false_eq_true, if_false, if_true]
        have : subs ≠ [] := by rintro rfl; cases he
        simp [this, lookup_put, he]
      · simp only [hs, Bool.false_eq_true, if_false]
        simp only [Bool.not_eq_true] at hs
        simp only [hs, Bool.not_false, if_true]
        split
        · simp [lookup_del]
        · simp [lookup_put, lookup_del]

theorem checkNew_other (c : PeerCache A X P C) (ip ip' : A) (info : SubInfo A X) (id : UInt32) (h : ¬ (ip = ip' ∧ info.id = id)) :
    (checkNew c ip info).entry ip' id = c.entry ip' id := by
  unfold checkNew
  cases hc : c.look ip with
  | none => rfl
  | some subs =>
    simp only
    by_cases hip : ip = ip'
    · subst hip
      have hid : info.id ≠ id := fun e => h ⟨rfl, e⟩
      have key : ∀ b : Bool, (if b = true then del subs info.id else subs).look id = subs.look id := by
        intro b
        cases b
        · rfl
        · simp [lookup_del, hid]
      generalize ((subs.look info.id).map fun x => !x.info.same info).getD true = b
      have hk := key b
      generalize (if b = true then del subs info.id else subs) = s at hk ⊢
      split
      · rename_i hn
        have : s = [] := by simpa using hn
        subst this
        simp only [PeerCache.entry, lookup_del, if_true, hc, Option.bind_some, Option.bind_none]
        rw [← hk]
        rfl
      · simp only [PeerCache.entry, lookup_put, if_true, hc, Option.bind_some, hk]
    · generalize (if ((subs.look info.id).map fun x => !x.info.same info).getD true = true then del subs info.id else subs) = s
      split
      · simp [PeerCache.entry, lookup_del, hip]
      · simp [PeerCache.entry, lookup_put, hip]

theorem same_refl (i : SubInfo A X) : i.same i = true := by simp [SubInfo.same]

theorem same_iff (a b : SubInfo A X) : a.same b = true ↔ a.peer.ip = b.peer.ip ∧ a.id = b.id ∧ a.target = b.target ∧ a.stopTime = b.stopTime ∧
    a.transport = b.transport ∧ a.encoding = b.encoding ∧ a.purpose = b.purpose ∧ a.trigger = b.trigger ∧ a.models = b.models ∧ a.contentId = b.contentId := by
  simp [SubInfo.same]

theorem same_trans {a b c : SubInfo A X} (h : a.same b = true) (h' : b.same c = true) : a.same c = true := by
  rw [same_iff] at *
  obtain ⟨h1, h2, h3, h4, h5, h6, h7, h8, h9, h10⟩ := h
  obtain ⟨g1, g2, g3, g4, g5, g6, g7, g8, g9, g10⟩ := h'
  exact ⟨h1.trans g1, h2.trans g2, h3.trans g3, h4.trans g4, h5.trans g5, h6.trans g6, h7.trans g7, h8.trans g8, h9.trans g9, h10.trans g10⟩

theorem same_symm {a b : SubInfo A X} (h : a.same b = true) : b.same a = true := by
  rw [same_iff] at *
  obtain ⟨h1, h2, h3, h4, h5, h6, h7, h8, h9, h10⟩ := h
  exact ⟨h1.symm, h2.symm, h3.symm, h4.symm, h5.symm, h6.symm, h7.symm, h8.symm, h9.symm, h10.symm⟩

theorem starts_id {k : Contents X} {s : Started X} (h : k.starts = some s) : s.id = k.id := by
  cases k <;> simp [Contents.starts] at h <;> subst h <;> rfl

theorem buildInfo_some {r : Request A P} {s : Started X} {info : SubInfo A X} (h : buildInfo r s = some info) :
    s.modules ≠ none ∧ info.id = s.id ∧ info.peer = r.peer := by
  unfold buildInfo at h
  split at h
  · cases h
  · rename_i m hm
    cases h
    exact ⟨by simp [hm], rfl, rfl⟩

theorem buildInfo_none {r : Request A P} {s : Started X} : buildInfo r s = none ↔ s.modules = none := by
  unfold buildInfo
  split <;> simp [*]

/-- what is said of a notification with the entry of its subscription -/
def verdict (env : Env X P L C) (e : CachedSub A X P C) (info : SubInfo A X) (d : Decoded X) (r : Request A P) : List (Output A X P) :=
  match e.contentId, e.ctx, info.isEmpty with
  | some contentId, some ctx, false => if validate env ctx d.legacy r.packet then [.forward (some contentId) info d] else [.dropped .invalid r]
  | _, _, _ => [.forward none info d]

/-- the turns that a packet can take -/
inductive Turn (env : Env X P L C) (c : PeerCache A X P C) (r : Request A P) : PeerCache A X P C → List (Output A X P) → Prop
  | undecodable (hd : env.decode r.packet = none) : Turn env c r c [.dropped .undecodable r]
  | noSubscription {d} (hd : env.decode r.packet = some d) (hk : d.contents = none) : Turn env c r c [.dropped .noSubscription r]
  | known {d k s info e} (hd : env.decode r.packet = some d) (hk : d.contents = some k) (hs : k.starts = some s) (hb : buildInfo r s = some info)
      (he : c.entry r.peer.ip k.id = some e) (hsame : e.info.same info = true) :
      Turn env c r ((checkNew c r.peer.ip info).set r.peer.ip k.id e) (verdict env e info d r)
  | new {d k s info} (hd : env.decode r.packet = some d) (hk : d.contents = some k) (hs : k.starts = some s) (hb : buildInfo r s = some info)
      (he : ∀ e, c.entry r.peer.ip k.id = some e → e.info.same info = false) :
      Turn env c r (cachePacket env (checkNew c r.peer.ip info) info r).1 (.lookupInfo info :: (cachePacket env (checkNew c r.peer.ip info) info r).2)
  | other {d k e} (hd : env.decode r.packet = some d) (hk : d.contents = some k) (hs : k.starts = none) (he : c.entry r.peer.ip k.id = some e) :
      Turn env c r (c.set r.peer.ip e.info.id ((c.entry r.peer.ip e.info.id).getD (.fresh e.info)))
        (verdict env ((c.entry r.peer.ip e.info.id).getD (.fresh e.info)) e.info d r)
  | unknown {d k} (hd : env.decode r.packet = some d) (hk : d.contents = some k)
      (hs : (∃ s, k.starts = some s ∧ s.modules = none) ∨ (k.starts = none ∧ c.entry r.peer.ip k.id = none)) :
      Turn env c r (cachePacket env c (.empty r.collector r.interface r.peer k.id) r).1
        (.lookupId r.collector r.interface r.peer k.id :: (cachePacket env c (.empty r.collector r.interface r.peer k.id) r).2)

theorem turn (env : Env X P L C) (c : PeerCache A X P C) (r : Request A P) : Turn env c r (process env c r).1 (process env c r).2 := by
  unfold process
  cases hd : env.decode r.packet with
  | none => exact .undecodable hd
  | some d =>
    simp only
    unfold extract
    cases hk : d.contents with
    | none => exact .noSubscription hd hk
    | some k =>
      simp only
      unfold findInfo
      cases hs : k.starts with
      | none =>
        simp only
        cases he : c.entry r.peer.ip k.id with
        | none => exact .unknown hd hk (.inr ⟨hs, he⟩)
        | some e =>
          simp only [Option.map_some, cachedContentId, he, Option.filter_some, same_refl, if_true, List.nil_append]
          exact .other hd hk hs he
      | some s =>
        simp only
        cases hb : buildInfo r s with
        | none => exact .unknown hd hk (.inl ⟨s, hs, buildInfo_none.mp hb⟩)
        | some info =>
          have hid : k.id = info.id := by rw [(buildInfo_some hb).2.1, starts_id hs]
          simp only [cachedContentId, hid, checkNew_key]
          cases he : c.entry r.peer.ip info.id with
          | none =>
            simp only [Option.filter_none, Option.map_none]
            exact .new hd hk hs hb (by rw [hid, he]; intro e h; cases h)
          | some e =>
            simp only [Option.filter_some]
            by_cases hsame : e.info.same info = true
            · simp only [hsame, if_true, Option.filter_some, Option.map_some, List.nil_append]
              have hf : (checkNew c r.peer.ip info).entry r.peer.ip info.id = some e := by rw [checkNew_key, he, Option.filter_some, if_pos hsame]
              have := Turn.known (env := env) (c := c) hd hk hs hb (hid ▸ he) hsame
              rw [hid] at this
              unfold finish
              simp only [hf, Option.getD_some]
              exact this
            · simp only [hsame, Bool.false_eq_true, if_false, Option.filter_none, Option.map_none]
              refine .new hd hk hs hb ?_
              rw [hid, he]
              intro e' h
              cases h
              simpa using hsame

/-- what a packet that cannot be told about yet does to the entries -/
theorem cachePacket_entry (env : Env X P L C) (c : PeerCache A X P C) (info : SubInfo A X) (r : Request A P) (ip : A) (id : UInt32) :
    ∃ more, (more = [] ∨ more = [r]) ∧ (cachePacket env c info r).1.entry ip id =
      if r.peer.ip = ip ∧ info.id = id then
        some { (c.entry r.peer.ip info.id).getD (.fresh info) with packets := ((c.entry r.peer.ip info.id).getD (.fresh info)).packets ++ more }
      else c.entry ip id := by
  unfold cachePacket
  simp only
  split
  · exact ⟨[], .inl rfl, by rw [entry_set, List.append_nil]⟩
  · split
    · exact ⟨[], .inl rfl, by rw [entry_set, List.append_nil]⟩
    · exact ⟨[r], .inr rfl, by rw [entry_set]⟩

/-- either a packet is dropped with a warning or it is held -/
theorem cachePacket_outs (env : Env X P L C) (c : PeerCache A X P C) (info : SubInfo A X) (r : Request A P) :
    (cachePacket env c info r).2 = [] ∨ ∃ reason, (cachePacket env c info r).2 = [.dropped reason r] := by
  unfold cachePacket
  simp only
  split
  · exact .inr ⟨_, rfl⟩
  · split
    · exact .inr ⟨_, rfl⟩
    · exact .inl rfl

theorem verdict_cases (env : Env X P L C) (e : CachedSub A X P C) (info : SubInfo A X) (d : Decoded X) (r : Request A P) :
    (verdict env e info d r = [.forward none info d] ∧ (e.contentId = none ∨ e.ctx = none ∨ info.isEmpty = true)) ∨
    ∃ contentId ctx, e.contentId = some contentId ∧ e.ctx = some ctx ∧ info.isEmpty = false ∧
      ((validate env ctx d.legacy r.packet = true ∧ verdict env e info d r = [.forward (some contentId) info d]) ∨
       (validate env ctx d.legacy r.packet = false ∧ verdict env e info d r = [.dropped .invalid r])) := by
  unfold verdict
  cases h1 : e.contentId with
  | none => exact .inl ⟨rfl, .inl rfl⟩
  | some cid =>
    cases h2 : e.ctx with
    | none => exact .inl ⟨rfl, .inr (.inl rfl)⟩
    | some ctx =>
      cases h3 : info.isEmpty with
      | true => exact .inl ⟨rfl, .inr (.inr rfl)⟩
      | false =>
        refine .inr ⟨cid, ctx, rfl, rfl, rfl, ?_⟩
        cases h4 : validate env ctx d.legacy r.packet with
        | true => exact .inl ⟨rfl, by simp [h4]⟩
        | false => exact .inr ⟨rfl, by simp [h4]⟩

theorem run_append (env : Env X P L C) (c : PeerCache A X P C) (es fs : List (Event A X P L)) :
    validationRun env c (es ++ fs) =
      ((validationRun env (validationRun env c es).1 fs).1, (validationRun env c es).2 ++ (validationRun env (validationRun env c es).1 fs).2) := by
  induction es generalizing c with
  | nil => simp [validationRun]
  | cons e es ih => simp only [List.cons_append, validationRun, ih, List.append_assoc]

theorem run_single (env : Env X P L C) (c : PeerCache A X P C) (e : Event A X P L) : validationRun env c [e] = step env c e := by
  simp [validationRun]

end Verif.YangPush
