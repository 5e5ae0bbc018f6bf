import Verif.YangPush.ValidationLemmas
import Verif.YangPush.ValidationSpec
/-!
# What the validation of YANG push notifications remembers
-/
namespace Verif.YangPush.Notif
open Collector

variable {A X P L C : Type} [DecidableEq A] [DecidableEq X]

theorem alike_iff (a b : SubInfo A X) : a.same b = true ↔ Alike a b := same_iff a b

theorem begins_iff {env : Env X P L C} {r : Request A P} {s : Started X} :
    Begins env r s ↔ ∃ d k, env.decode r.packet = some d ∧ d.contents = some k ∧ k.starts = some s := by
  constructor
  · rintro ⟨d, hd, hk | hk⟩
    · exact ⟨d, _, hd, hk, rfl⟩
    · exact ⟨d, _, hd, hk, rfl⟩
  · rintro ⟨d, k, hd, hk, hs⟩
    refine ⟨d, hd, ?_⟩
    cases k <;> simp [Contents.starts] at hs <;> subst hs
    · exact .inl hk
    · exact .inr hk

theorem describes_iff {env : Env X P L C} {r : Request A P} {info : SubInfo A X} :
    Describes env r info ↔ ∃ s, Begins env r s ∧ buildInfo r s = some info := by
  constructor
  · rintro ⟨s, modules, hb, hm, h1, h2, h3, h4, h5, h6, h7, h8, h9, h10, h11, h12⟩
    refine ⟨s, hb, ?_⟩
    unfold buildInfo
    rw [hm]
    cases info
    simp_all
  · rintro ⟨s, hb, h⟩
    unfold buildInfo at h
    cases hm : s.modules with
    | none => rw [hm] at h; cases h
    | some modules =>
      rw [hm] at h
      cases h
      exact ⟨s, modules, hb, hm, rfl, rfl, rfl, rfl, rfl, rfl, rfl, rfl, rfl, rfl, rfl, rfl⟩

theorem describes_about {env : Env X P L C} {r : Request A P} {info : SubInfo A X} (h : Describes env r info) : About env r info.peer.ip info.id := by
  obtain ⟨s, hb, hi⟩ := describes_iff.mp h
  obtain ⟨d, k, hd, hk, hs⟩ := begins_iff.mp hb
  obtain ⟨_, h2, h3⟩ := buildInfo_some hi
  exact ⟨by rw [h3], d, k, hd, hk, by rw [h2, starts_id hs]⟩

theorem about_unique {env : Env X P L C} {r : Request A P} {ip ip' : A} {id id' : UInt32} (h : About env r ip id) (h' : About env r ip' id') : ip = ip' ∧ id = id' := by
  obtain ⟨h1, d, k, h2, h3, h4⟩ := h
  obtain ⟨g1, d', k', g2, g3, g4⟩ := h'
  rw [h2] at g2
  cases g2
  rw [h3] at g3
  cases g3
  exact ⟨h1.symm.trans g1, h4.symm.trans g4⟩

/-- entries are about the subscription they are kept for -/
def Placed (c : PeerCache A X P C) : Prop := ∀ ip id e, c.entry ip id = some e → e.info.peer.ip = ip ∧ e.info.id = id

/-- what a packet does to the entries: nothing, or it is the first of a new description, or it is not known what it is about -/
theorem process_entry {env : Env X P L C} {c : PeerCache A X P C} (hp : Placed c) (r : Request A P) (ip : A) (id : UInt32) :
    (process env c r).1.entry ip id = c.entry ip id ∨
    (About env r ip id ∧ ∃ more, (more = [] ∨ more = [r]) ∧
      ((∃ info, Describes env r info ∧ info.peer.ip = ip ∧ info.id = id ∧ (∀ e, c.entry ip id = some e → e.info.same info = false) ∧
        (process env c r).1.entry ip id = some ⟨none, info, none, more⟩) ∨
       ((Nameless env r ∨ c.entry ip id = none) ∧ (∀ info, ¬ Describes env r info) ∧
        (process env c r).1.entry ip id = some
          { (c.entry ip id).getD (.fresh (.empty r.collector r.interface r.peer id)) with
            packets := ((c.entry ip id).getD (.fresh (.empty r.collector r.interface r.peer id))).packets ++ more }))) := by
  have ht := turn env c r
  generalize (process env c r).1 = c', (process env c r).2 = outs at ht
  cases ht with
  | undecodable => exact .inl rfl
  | noSubscription => exact .inl rfl
  | @known d k s info e hd hk hs hb he hsame =>
    left
    have hid : info.id = k.id := by rw [(buildInfo_some hb).2.1, starts_id hs]
    rw [entry_set]
    split
    · rename_i h
      obtain ⟨rfl, rfl⟩ := h
      exact he.symm
    · rename_i h
      exact checkNew_other _ _ _ _ _ (by rw [hid]; exact h)
  | @new d k s info hd hk hs hb he =>
    have hid : info.id = k.id := by rw [(buildInfo_some hb).2.1, starts_id hs]
    have hpeer : info.peer = r.peer := (buildInfo_some hb).2.2
    obtain ⟨more, hmore, h⟩ := cachePacket_entry env (checkNew c r.peer.ip info) info r ip id
    rw [h]
    split
    · rename_i h
      obtain ⟨rfl, rfl⟩ := h
      refine .inr ⟨⟨rfl, d, k, hd, hk, hid.symm⟩, more, hmore, .inl ⟨info, describes_iff.mpr ⟨s, begins_iff.mpr ⟨d, k, hd, hk, hs⟩, hb⟩, by rw [hpeer], rfl, ?_, ?_⟩⟩
      · rw [hid]; exact he
      · rw [checkNew_key]
        have : (c.entry r.peer.ip info.id).filter (fun x => x.info.same info) = none := by
          cases hc : c.entry r.peer.ip info.id with
          | none => rfl
          | some e => rw [Option.filter_some, if_neg]; rw [he e (hid ▸ hc)]; decide
        rw [this]
        simp [CachedSub.fresh]
    · rename_i h
      left
      exact checkNew_other _ _ _ _ _ h
  | @other d k e hd hk hs he =>
    left
    have hid : e.info.id = k.id := (hp _ _ _ he).2
    rw [entry_set, hid, he]
    split
    · rename_i h
      obtain ⟨rfl, rfl⟩ := h
      exact he.symm
    · rfl
  | @unknown d k hd hk hs =>
    obtain ⟨more, hmore, h⟩ := cachePacket_entry env c (.empty r.collector r.interface r.peer k.id) r ip id
    rw [h]
    split
    · rename_i h
      obtain ⟨rfl, rfl⟩ := h
      have hid : (SubInfo.empty r.collector r.interface r.peer k.id : SubInfo A X).id = k.id := rfl
      refine .inr ⟨⟨rfl, d, k, hd, hk, rfl⟩, more, hmore, .inr ⟨?_, ?_, rfl⟩⟩
      · rcases hs with ⟨s, hs, hm⟩ | ⟨_, h⟩
        · exact .inl ⟨s, begins_iff.mpr ⟨d, k, hd, hk, hs⟩, hm⟩
        · exact .inr h
      · intro info hdesc
        obtain ⟨s', hb', hi'⟩ := describes_iff.mp hdesc
        obtain ⟨d', k', hd', hk', hs'⟩ := begins_iff.mp hb'
        rw [hd] at hd'
        cases hd'
        rw [hk] at hk'
        cases hk'
        rcases hs with ⟨s, hs, hm⟩ | ⟨hs, _⟩
        · rw [hs] at hs'
          cases hs'
          exact (buildInfo_some hi').1 hm
        · rw [hs] at hs'
          cases hs'
    · exact .inl rfl

theorem process_placed {env : Env X P L C} {c : PeerCache A X P C} (hp : Placed c) (r : Request A P) : Placed (process env c r).1 := by
  intro ip id e he
  rcases process_entry (env := env) hp r ip id with h | ⟨ha, more, _, ⟨info, _, h1, h2, _, h⟩ | ⟨_, _, h⟩⟩
  · rw [h] at he
    exact hp ip id e he
  · rw [h] at he
    cases he
    exact ⟨h1, h2⟩
  · rw [h] at he
    cases he
    cases hc : c.entry ip id with
    | none => exact ⟨ha.1, rfl⟩
    | some e => exact hp ip id e hc

theorem process_other {env : Env X P L C} {c : PeerCache A X P C} (hp : Placed c) {r : Request A P} {ip : A} {id : UInt32} (h : ¬ About env r ip id) :
    (process env c r).1.entry ip id = c.entry ip id := by
  rcases process_entry (env := env) hp r ip id with h' | ⟨ha, _⟩
  · exact h'
  · exact absurd ha h

/-- what is said of a packet whose entry is not changed -/
theorem process_forward {env : Env X P L C} {c : PeerCache A X P C} (hp : Placed c) {r : Request A P} {cid : Option String} {info : SubInfo A X} {d : Decoded X}
    (h : .forward cid info d ∈ (process env c r).2) :
    ∃ k e, env.decode r.packet = some d ∧ d.contents = some k ∧ c.entry r.peer.ip k.id = some e ∧ e.info.same info = true ∧
      (k.starts = none → info = e.info) ∧ (∀ s, k.starts = some s → Describes env r info) ∧ .forward cid info d ∈ verdict env e info d r := by
  have ht := turn env c r
  generalize (process env c r).1 = c', (process env c r).2 = outs at ht h
  cases ht with
  | undecodable => simp at h
  | noSubscription => simp at h
  | @known d' k s info' e hd hk hs hb he hsame =>
    have : d = d' ∧ info = info' := by
      rcases verdict_cases env e info' d' r with ⟨hv, _⟩ | ⟨_, _, _, _, _, ⟨_, hv⟩ | ⟨_, hv⟩⟩ <;> rw [hv] at h <;> simp at h <;> exact ⟨h.2.2, h.2.1⟩
    obtain ⟨rfl, rfl⟩ := this
    exact ⟨k, e, hd, hk, he, hsame, (by intro hn; rw [hs] at hn; cases hn),
      fun s' hs' => describes_iff.mpr ⟨s, begins_iff.mpr ⟨d, k, hd, hk, hs⟩, hb⟩, h⟩
  | @new d' k s info' hd hk hs hb he =>
    rcases cachePacket_outs env (checkNew c r.peer.ip info') info' r with hc | ⟨reason, hc⟩ <;> rw [hc] at h <;> simp at h
  | @other d' k e hd hk hs he =>
    have hid : e.info.id = k.id := (hp _ _ _ he).2
    rw [hid, he, Option.getD_some] at h
    have : d = d' ∧ info = e.info := by
      rcases verdict_cases env e e.info d' r with ⟨hv, _⟩ | ⟨_, _, _, _, _, ⟨_, hv⟩ | ⟨_, hv⟩⟩ <;> rw [hv] at h <;> simp at h <;> exact ⟨h.2.2, h.2.1⟩
    obtain ⟨rfl, rfl⟩ := this
    exact ⟨k, e, hd, hk, he, same_refl _, fun _ => rfl, (by intro s h; rw [hs] at h; cases h), h⟩
  | @unknown d' k hd hk hs =>
    rcases cachePacket_outs env c (.empty r.collector r.interface r.peer k.id) r with hc | ⟨reason, hc⟩ <;> rw [hc] at h <;> simp at h

/-! ## Packets that are held -/

theorem processAll_induct {env : Env X P L C} {Q : PeerCache A X P C → Prop} {R : Request A P → Prop} (hq : ∀ c r, Q c → R r → Q (process env c r).1)
    (rs : List (Request A P)) : ∀ c, Q c → (∀ r ∈ rs, R r) →
    Q (processAll env c rs).1 ∧ ∀ o ∈ (processAll env c rs).2, ∃ c' r, Q c' ∧ R r ∧ r ∈ rs ∧ o ∈ (process env c' r).2 := by
  induction rs with
  | nil => intro c hc _; exact ⟨hc, by intro o ho; cases ho⟩
  | cons r rs ih =>
    intro c hc hr
    have h1 := hq c r hc (hr r (List.mem_cons_self ..))
    obtain ⟨h2, h3⟩ := ih _ h1 fun r' hr' => hr r' (List.mem_cons_of_mem _ hr')
    refine ⟨h2, ?_⟩
    intro o ho
    simp only [processAll, List.mem_append] at ho
    rcases ho with ho | ho
    · exact ⟨c, r, hc, hr r (List.mem_cons_self ..), List.mem_cons_self .., ho⟩
    · obtain ⟨c', r', h⟩ := h3 o ho
      exact ⟨c', r', h.1, h.2.1, List.mem_cons_of_mem _ h.2.2.1, h.2.2.2⟩

/-- the last response about a subscription is still the last one after other events -/
theorem lastFor_snoc {es : List (Event A X P L)} {ip : A} {id : UInt32} {resp : Response A X L} (h : LastFor es ip id resp) {e : Event A X P L}
    (he : ∀ other, e = .response other → ¬ For other ip id) : LastFor (es ++ [e]) ip id resp := by
  obtain ⟨before, after, rfl, h1, h2⟩ := h
  refine ⟨before, after ++ [e], by simp, h1, ?_⟩
  intro other ho
  rw [List.mem_append, List.mem_singleton] at ho
  rcases ho with ho | ho
  · exact h2 other ho
  · exact he other ho.symm

/-- what is remembered agrees with the events -/
structure Agrees (env : Env X P L C) (es : List (Event A X P L)) (c : PeerCache A X P C) : Prop where
  placed : Placed c
  packets : ∀ ip id e, c.entry ip id = some e → ∀ r ∈ e.packets, About env r ip id ∧ .packet r ∈ es
  content : ∀ ip id e, c.entry ip id = some e → ∀ cid, e.contentId = some cid →
    ∃ resp, LastFor es ip id resp ∧ resp.contentId = some cid ∧ e.info = resp.info ∧ e.ctx = resp.library.bind env.load

theorem agrees_nil (env : Env X P L C) (es : List (Event A X P L)) : Agrees env es [] :=
  ⟨(by intro _ _ _ h; cases h), (by intro _ _ _ h; cases h), (by intro _ _ _ h; cases h)⟩

theorem agrees_process {env : Env X P L C} {es : List (Event A X P L)} {c : PeerCache A X P C} (h : Agrees env es c) {r : Request A P} (hr : .packet r ∈ es) :
    Agrees env es (process env c r).1 := by
  refine ⟨process_placed h.placed r, ?_, ?_⟩
  · intro ip id e he p hpk
    rcases process_entry (env := env) h.placed r ip id with h' | ⟨ha, more, hm, ⟨info, _, _, _, _, h'⟩ | ⟨_, _, h'⟩⟩
    · rw [h'] at he
      exact h.packets ip id e he p hpk
    · rw [h'] at he
      cases he
      rcases hm with rfl | rfl
      · cases hpk
      · rw [List.mem_singleton.mp hpk]
        exact ⟨ha, hr⟩
    · rw [h'] at he
      cases he
      simp only [List.mem_append] at hpk
      rcases hpk with hpk | hpk
      · cases hc : c.entry ip id with
        | none => rw [hc] at hpk; cases hpk
        | some e => rw [hc] at hpk; exact h.packets ip id e hc p hpk
      · rcases hm with rfl | rfl
        · cases hpk
        · rw [List.mem_singleton.mp hpk]
          exact ⟨ha, hr⟩
  · intro ip id e he cid hcid
    rcases process_entry (env := env) h.placed r ip id with h' | ⟨ha, more, hm, ⟨info, _, _, _, _, h'⟩ | ⟨_, _, h'⟩⟩
    · rw [h'] at he
      exact h.content ip id e he cid hcid
    · rw [h'] at he
      cases he
      cases hcid
    · rw [h'] at he
      cases he
      cases hc : c.entry ip id with
      | none => simp only [hc, Option.getD_none, CachedSub.fresh] at hcid; cases hcid
      | some e =>
        simp only [hc, Option.getD_some] at hcid ⊢
        exact h.content ip id e hc cid hcid

/-- an entry with the response about it -/
theorem agrees_set {env : Env X P L C} {es : List (Event A X P L)} {c : PeerCache A X P C} (h : Agrees env es c) (resp : Response A X L) :
    Agrees env (es ++ [.response resp]) (c.set resp.info.peer.ip resp.info.id (.answered env resp)) := by
  refine ⟨?_, ?_, ?_⟩
  · intro ip id e he
    rw [entry_set] at he
    split at he
    · rename_i hk
      cases he
      exact hk
    · exact h.placed ip id e he
  · intro ip id e he r hr
    rw [entry_set] at he
    split at he
    · cases he
      cases hr
    · obtain ⟨h1, h2⟩ := h.packets ip id e he r hr
      exact ⟨h1, List.mem_append_left _ h2⟩
  · intro ip id e he cid hcid
    rw [entry_set] at he
    split at he
    · rename_i hk
      cases he
      refine ⟨resp, ⟨es, [], rfl, hk, by intro _ h; cases h⟩, ?_, rfl, rfl⟩
      simp only [CachedSub.answered] at hcid
      split at hcid
      · exact hcid
      · cases hcid
    · rename_i hk
      obtain ⟨resp', h1, h2⟩ := h.content ip id e he cid hcid
      refine ⟨resp', lastFor_snoc h1 ?_, h2⟩
      rintro other ho
      cases ho
      exact hk

theorem agrees_packet {env : Env X P L C} {es : List (Event A X P L)} {c : PeerCache A X P C} (h : Agrees env es c) (r : Request A P) :
    Agrees env (es ++ [.packet r]) c := by
  refine ⟨h.placed, fun ip id e he p hp => ?_, fun ip id e he cid hcid => ?_⟩
  · obtain ⟨h1, h2⟩ := h.packets ip id e he p hp
    exact ⟨h1, List.mem_append_left _ h2⟩
  · obtain ⟨resp, h1, h2⟩ := h.content ip id e he cid hcid
    exact ⟨resp, lastFor_snoc h1 (by intro other ho; cases ho), h2⟩

theorem agrees_absent {env : Env X P L C} {es : List (Event A X P L)} {c : PeerCache A X P C} (h : Agrees env es c) (resp : Response A X L)
    (hn : c.entry resp.info.peer.ip resp.info.id = none) : Agrees env (es ++ [.response resp]) c := by
  refine ⟨h.placed, fun ip id e he p hp => ?_, fun ip id e he cid hcid => ?_⟩
  · obtain ⟨h1, h2⟩ := h.packets ip id e he p hp
    exact ⟨h1, List.mem_append_left _ h2⟩
  · obtain ⟨resp', h1, h2⟩ := h.content ip id e he cid hcid
    refine ⟨resp', lastFor_snoc h1 ?_, h2⟩
    rintro other ho ⟨rfl, rfl⟩
    cases ho
    rw [hn] at he
    cases he

/-- what is sent with an event is sent by the processing of a packet that was received, with what is remembered agreeing with the events -/
theorem agrees_step {env : Env X P L C} {es : List (Event A X P L)} {c : PeerCache A X P C} (h : Agrees env es c) (e : Event A X P L) :
    Agrees env (es ++ [e]) (step env c e).1 ∧
    ∀ o ∈ (step env c e).2, ∃ c' r, Agrees env (es ++ [e]) c' ∧ .packet r ∈ es ++ [e] ∧ o ∈ (process env c' r).2 := by
  cases e with
  | packet r =>
    have h1 := agrees_packet h r
    have hr : Event.packet r ∈ es ++ [Event.packet r] := List.mem_append_right _ (List.mem_singleton.mpr rfl)
    exact ⟨agrees_process h1 hr, fun o ho => ⟨c, r, h1, hr, ho⟩⟩
  | response resp =>
    simp only [step, respond]
    cases hc : c.entry resp.info.peer.ip resp.info.id with
    | none => exact ⟨agrees_absent h resp hc, by intro o ho; cases ho⟩
    | some e =>
      have h1 := agrees_set h resp
      have := processAll_induct (env := env) (Q := Agrees env (es ++ [.response resp])) (R := fun r => Event.packet r ∈ es ++ [Event.response resp])
        (fun c r hq hr => agrees_process hq hr) e.packets _ h1 (fun r hr => List.mem_append_left _ (h.packets _ _ _ hc r hr).2)
      exact ⟨this.1, fun o ho => by obtain ⟨c', r, h1, h2, _, h4⟩ := this.2 o ho; exact ⟨c', r, h1, h2, h4⟩⟩

theorem agrees_after (env : Env X P L C) (es : List (Event A X P L)) : Agrees env es (after env es) := by
  induction es using snoc_induction with
  | nil => exact agrees_nil env []
  | append_singleton es e ih =>
    have := (agrees_step ih e).1
    unfold after at *
    rw [run_append, run_single]
    exact this

theorem after_snoc (env : Env X P L C) (es : List (Event A X P L)) (e : Event A X P L) : after env (es ++ [e]) = (step env (after env es) e).1 := by
  unfold after
  rw [run_append, run_single]

theorem sent_snoc (env : Env X P L C) (es : List (Event A X P L)) (e : Event A X P L) : sent env (es ++ [e]) = sent env es ++ sentWith env es e := by
  unfold sent sentWith after
  rw [run_append, run_single]

end Verif.YangPush.Notif
