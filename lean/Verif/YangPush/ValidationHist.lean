import Verif.YangPush.ValidationCounts
/-!
# What the validation of YANG push notifications remembers of the descriptions of subscriptions
-/
namespace Verif.YangPush.Notif
open Collector

variable {A X P L C : Type} [DecidableEq A] [DecidableEq X]

theorem describes_unique {env : Env X P L C} {r : Request A P} {a b : SubInfo A X} (ha : Describes env r a) (hb : Describes env r b) : a = b := by
  obtain ⟨s, h1, h2⟩ := describes_iff.mp ha
  obtain ⟨s', g1, g2⟩ := describes_iff.mp hb
  obtain ⟨d, k, hd, hk, hs⟩ := begins_iff.mp h1
  obtain ⟨d', k', hd', hk', hs'⟩ := begins_iff.mp g1
  rw [hd] at hd'
  cases hd'
  rw [hk] at hk'
  cases hk'
  rw [hs] at hs'
  cases hs'
  rw [h2] at g2
  cases g2
  rfl

theorem nameless_describes {env : Env X P L C} {r : Request A P} (h : Nameless env r) (info : SubInfo A X) : ¬ Describes env r info := by
  intro hd
  obtain ⟨s, h1, h2⟩ := h
  obtain ⟨s', g1, g2⟩ := describes_iff.mp hd
  obtain ⟨d, k, hd, hk, hs⟩ := begins_iff.mp h1
  obtain ⟨d', k', hd', hk', hs'⟩ := begins_iff.mp g1
  rw [hd] at hd'
  cases hd'
  rw [hk] at hk'
  cases hk'
  rw [hs] at hs'
  cases hs'
  exact (buildInfo_some g2).1 h2

theorem process_about {env : Env X P L C} {c : PeerCache A X P C} (hp : Placed c) {r : Request A P} {ip : A} {id : UInt32} (h : About env r ip id) :
    (process env c r).1.entry ip id ≠ none := by
  obtain ⟨h1, d0, k0, hd0, hk0, h2⟩ := h
  have ht := turn env c r
  generalize (process env c r).1 = c', (process env c r).2 = outs at ht
  subst h1 h2
  cases ht with
  | undecodable hd => rw [hd] at hd0; cases hd0
  | @noSubscription d hd hk => rw [hd] at hd0; cases hd0; rw [hk] at hk0; cases hk0
  | @known d k s info e hd hk hs hb he hsame =>
    rw [hd] at hd0; cases hd0; rw [hk] at hk0; cases hk0
    rw [entry_set]
    simp
  | @new d k s info hd hk hs hb he =>
    rw [hd] at hd0; cases hd0; rw [hk] at hk0; cases hk0
    have hid : info.id = k0.id := by rw [(buildInfo_some hb).2.1, starts_id hs]
    obtain ⟨more, _, h⟩ := cachePacket_entry env (checkNew c r.peer.ip info) info r r.peer.ip k0.id
    rw [h, if_pos ⟨rfl, hid⟩]
    simp
  | @other d k e hd hk hs he =>
    rw [hd] at hd0; cases hd0; rw [hk] at hk0; cases hk0
    have hid : e.info.id = k0.id := (hp _ _ _ he).2
    rw [entry_set, if_pos ⟨rfl, hid⟩]
    simp
  | @unknown d k hd hk hs =>
    rw [hd] at hd0; cases hd0; rw [hk] at hk0; cases hk0
    obtain ⟨more, _, h⟩ := cachePacket_entry env c (.empty r.collector r.interface r.peer k0.id) r r.peer.ip k0.id
    rw [h, if_pos ⟨rfl, rfl⟩]
    simp

theorem process_keeps {env : Env X P L C} {c : PeerCache A X P C} (hp : Placed c) (r : Request A P) {ip : A} {id : UInt32} (h : c.entry ip id ≠ none) :
    (process env c r).1.entry ip id ≠ none := by
  rcases process_entry (env := env) hp r ip id with h' | ⟨ha, _⟩
  · rw [h']; exact h
  · exact process_about hp ha

/-- after a description the entry is of it -/
theorem process_info {env : Env X P L C} {c : PeerCache A X P C} {r : Request A P} {info : SubInfo A X} (h : Describes env r info) :
    ∃ e, (process env c r).1.entry info.peer.ip info.id = some e ∧ e.info.same info = true := by
  obtain ⟨s0, hb0, hi0⟩ := describes_iff.mp h
  obtain ⟨d0, k0, hd0, hk0, hs0⟩ := begins_iff.mp hb0
  have hid : info.id = k0.id := by rw [(buildInfo_some hi0).2.1, starts_id hs0]
  have hpeer : info.peer = r.peer := (buildInfo_some hi0).2.2
  have ht := turn env c r
  generalize (process env c r).1 = c', (process env c r).2 = outs at ht
  rw [hpeer, hid]
  cases ht with
  | undecodable hd => rw [hd] at hd0; cases hd0
  | @noSubscription d hd hk => rw [hd] at hd0; cases hd0; rw [hk] at hk0; cases hk0
  | @known d k s info' e hd hk hs hb he hsame =>
    rw [hd] at hd0; cases hd0; rw [hk] at hk0; cases hk0; rw [hs] at hs0; cases hs0; rw [hb] at hi0; cases hi0
    refine ⟨e, ?_, hsame⟩
    rw [entry_set]
    simp
  | @new d k s info' hd hk hs hb he =>
    rw [hd] at hd0; cases hd0; rw [hk] at hk0; cases hk0; rw [hs] at hs0; cases hs0; rw [hb] at hi0; cases hi0
    obtain ⟨more, _, h⟩ := cachePacket_entry env (checkNew c r.peer.ip info) info r r.peer.ip k0.id
    rw [h, if_pos ⟨rfl, hid⟩]
    refine ⟨_, rfl, ?_⟩
    rw [checkNew_key]
    cases hc : c.entry r.peer.ip info.id with
    | none => exact same_refl _
    | some e =>
      rw [Option.filter_some, if_neg]
      · exact same_refl _
      · rw [he e (hid ▸ hc)]; decide
  | @other d k e hd hk hs he =>
    rw [hd] at hd0; cases hd0; rw [hk] at hk0; cases hk0; rw [hs] at hs0; cases hs0
  | @unknown d k hd hk hs =>
    rw [hd] at hd0; cases hd0; rw [hk] at hk0; cases hk0
    rcases hs with ⟨s, hs, hm⟩ | ⟨hs, _⟩
    · rw [hs] at hs0; cases hs0
      exact absurd hm (buildInfo_some hi0).1
    · rw [hs] at hs0; cases hs0

/-! ## Subscriptions of which there was a packet have an entry -/

def Known (env : Env X P L C) (es : List (Event A X P L)) (c : PeerCache A X P C) : Prop :=
  ∀ ip id r, .packet r ∈ es → About env r ip id → c.entry ip id ≠ none

theorem processAll_keeps {env : Env X P L C} (rs : List (Request A P)) {ip : A} {id : UInt32} : ∀ {c : PeerCache A X P C}, Placed c → c.entry ip id ≠ none →
    (processAll env c rs).1.entry ip id ≠ none := by
  induction rs with
  | nil => intro c _ h; exact h
  | cons r rs ih => intro c hp h; exact ih (process_placed hp r) (process_keeps hp r h)

theorem processAll_placed {env : Env X P L C} (rs : List (Request A P)) : ∀ {c : PeerCache A X P C}, Placed c → Placed (processAll env c rs).1 := by
  induction rs with
  | nil => intro c h; exact h
  | cons r rs ih => intro c hp; exact ih (process_placed hp r)

theorem placed_set {c : PeerCache A X P C} (hp : Placed c) {ip : A} {id : UInt32} {e : CachedSub A X P C} (h : e.info.peer.ip = ip ∧ e.info.id = id) : Placed (c.set ip id e) := by
  intro ip' id' e' he
  rw [entry_set] at he
  split at he
  · rename_i hk
    cases he
    exact ⟨h.1.trans hk.1, h.2.trans hk.2⟩
  · exact hp _ _ _ he

theorem step_keeps {env : Env X P L C} {c : PeerCache A X P C} (hp : Placed c) (e : Event A X P L) {ip : A} {id : UInt32} (h : c.entry ip id ≠ none) :
    (step env c e).1.entry ip id ≠ none := by
  cases e with
  | packet r => exact process_keeps hp r h
  | response resp =>
    simp only [step, respond]
    cases hc : c.entry resp.info.peer.ip resp.info.id with
    | none => exact h
    | some e =>
      refine processAll_keeps _ (placed_set hp ⟨rfl, rfl⟩) ?_
      rw [entry_set]
      split
      · simp
      · exact h

theorem known_after (env : Env X P L C) (es : List (Event A X P L)) : Known env es (after env es) := by
  induction es using snoc_induction with
  | nil => intro _ _ _ h; cases h
  | append_singleton es e ih =>
    have hp := (agrees_after env es).placed
    rw [after_snoc]
    intro ip id r hr ha
    rw [List.mem_append, List.mem_singleton] at hr
    rcases hr with hr | hr
    · exact step_keeps hp e (ih ip id r hr ha)
    · subst hr
      exact process_about hp ha

theorem entry_known (env : Env X P L C) (es : List (Event A X P L)) {ip : A} {id : UInt32} (h : (after env es).entry ip id ≠ none) :
    ∃ r, .packet r ∈ es ∧ About env r ip id := by
  induction es using snoc_induction with
  | nil => exact absurd rfl h
  | append_singleton es e ih =>
    have hg := agrees_after env es
    rw [after_snoc] at h
    by_cases hc : (after env es).entry ip id = none
    · cases e with
      | packet r =>
        rcases process_entry (env := env) hg.placed r ip id with h' | ⟨ha, _⟩
        · exact absurd (h'.trans hc) h
        · exact ⟨r, List.mem_append_right _ (List.mem_singleton.mpr rfl), ha⟩
      | response resp =>
        exfalso
        apply h
        simp only [step, respond]
        cases hr : (after env es).entry resp.info.peer.ip resp.info.id with
        | none => exact hc
        | some e =>
          have hne : ¬ (resp.info.peer.ip = ip ∧ resp.info.id = id) := by
            rintro ⟨rfl, rfl⟩
            rw [hr] at hc
            cases hc
          have := processAll_induct (env := env) (Q := fun c => Placed c ∧ c.entry ip id = none) (R := fun r => ¬ About env r ip id)
            (fun c r hq hr => ⟨process_placed hq.1 r, by rw [process_other hq.1 hr]; exact hq.2⟩) e.packets
            ((after env es).set resp.info.peer.ip resp.info.id (.answered env resp))
            ⟨placed_set hg.placed ⟨rfl, rfl⟩, by rw [entry_set, if_neg hne]; exact hc⟩
            (fun r hr' ha => hne (about_unique (hg.packets _ _ _ hr r hr').1 ha))
          exact this.1.2
    · obtain ⟨r, h1, h2⟩ := ih hc
      exact ⟨r, List.mem_append_left _ h1, h2⟩

/-! ## The last description -/

theorem lastDescribed_snoc {env : Env X P L C} {es : List (Event A X P L)} {e : Event A X P L} {ip : A} {id : UInt32} {info : SubInfo A X}
    (h : LastDescribed env (es ++ [e]) ip id info) :
    (∃ r, e = .packet r ∧ Describes env r info ∧ info.peer.ip = ip ∧ info.id = id) ∨
    (LastDescribed env es ip id info ∧ ∀ r i, e = .packet r → Describes env r i → ¬ (i.peer.ip = ip ∧ i.id = id)) := by
  obtain ⟨before, after, r, h1, h2, h3, h4, h5⟩ := h
  rcases List.eq_nil_or_concat after with rfl | ⟨after', x, rfl⟩
  · have h1 : es ++ [e] = before ++ [.packet r] := h1
    obtain ⟨_, he⟩ := List.append_inj' h1 rfl
    cases he
    exact .inl ⟨r, rfl, h2, h3, h4⟩
  · rw [List.concat_eq_append] at h1 h5
    have h1 : es ++ [e] = (before ++ .packet r :: after') ++ [x] := by simpa using h1
    obtain ⟨he, hx⟩ := List.append_inj' h1 rfl
    cases hx
    refine .inr ⟨⟨before, after', r, he, h2, h3, h4, fun r' i hr' => h5 r' i (List.mem_append_left _ hr')⟩, ?_⟩
    intro r' i hr' hd
    subst hr'
    exact h5 r' i (List.mem_append_right _ (List.mem_singleton.mpr rfl)) hd

theorem lastDescribed_response {env : Env X P L C} {es : List (Event A X P L)} {resp : Response A X L} {ip : A} {id : UInt32} {info : SubInfo A X}
    (h : LastDescribed env (es ++ [.response resp]) ip id info) : LastDescribed env es ip id info := by
  rcases lastDescribed_snoc h with ⟨r, hr, _⟩ | h
  · cases hr
  · exact h.1

theorem lastDescribed_exists {env : Env X P L C} {es : List (Event A X P L)} {r : Request A P} {info : SubInfo A X} (hr : .packet r ∈ es)
    (hd : Describes env r info) : ∃ info', LastDescribed env es info.peer.ip info.id info' := by
  induction es using snoc_induction with
  | nil => cases hr
  | append_singleton es e ih =>
    by_cases hx : ∃ r' i, e = .packet r' ∧ Describes env r' i ∧ i.peer.ip = info.peer.ip ∧ i.id = info.id
    · obtain ⟨r', i, rfl, h1, h2, h3⟩ := hx
      exact ⟨i, es, [], r', rfl, h1, h2, h3, by intro _ _ h; cases h⟩
    · rw [List.mem_append, List.mem_singleton] at hr
      rcases hr with hr | hr
      · obtain ⟨i, before, after, r', rfl, h2, h3, h4, h5⟩ := ih hr
        refine ⟨i, before, after ++ [e], r', by simp, h2, h3, h4, ?_⟩
        intro r'' i' hr'' hd'' hk
        rw [List.mem_append, List.mem_singleton] at hr''
        rcases hr'' with hr'' | hr''
        · exact h5 r'' i' hr'' hd'' hk
        · exact hx ⟨r'', i', hr''.symm, hd'', hk.1, hk.2⟩
      · exact absurd ⟨r, info, hr.symm, hd, rfl, rfl⟩ hx

theorem alike_symm {a b : SubInfo A X} (h : Alike a b) : Alike b a := (alike_iff b a).mp (same_symm ((alike_iff a b).mpr h))

theorem alike_trans {a b c : SubInfo A X} (h : Alike a b) (h' : Alike b c) : Alike a c :=
  (alike_iff a c).mp (same_trans ((alike_iff a b).mpr h) ((alike_iff b c).mpr h'))

theorem alike_refl (a : SubInfo A X) : Alike a a := (alike_iff a a).mp (same_refl a)

/-- a packet of the last description, if it is one of a description at all -/
def Current (env : Env X P L C) (es : List (Event A X P L)) (r : Request A P) : Prop :=
  ∀ info, Describes env r info → ∀ info', LastDescribed env es info.peer.ip info.id info' → Alike info' info

/-- packets that are held are of the last description, and so is their entry -/
def HeldOk (env : Env X P L C) (es : List (Event A X P L)) (c : PeerCache A X P C) : Prop :=
  ∀ ip id e, c.entry ip id = some e → ∀ r ∈ e.packets, (∀ info, Describes env r info → Alike e.info info) ∧ Current env es r

theorem heldOk_process {env : Env X P L C} {es : List (Event A X P L)} {c : PeerCache A X P C} (hp : Placed c) (h : HeldOk env es c) {r : Request A P}
    (hr : Current env es r) : HeldOk env es (process env c r).1 := by
  intro ip id e he r0 hr0
  rcases process_entry (env := env) hp r ip id with h' | ⟨ha, more, hm, ⟨info, hd, _, _, _, h'⟩ | ⟨_, hnd, h'⟩⟩
  · rw [h'] at he
    exact h ip id e he r0 hr0
  · rw [h'] at he
    cases he
    rcases hm with rfl | rfl
    · cases hr0
    · rw [List.mem_singleton.mp hr0]
      exact ⟨fun i hi => by rw [describes_unique hi hd]; exact alike_refl _, hr⟩
  · rw [h'] at he
    cases he
    simp only [List.mem_append] at hr0
    rcases hr0 with hr0 | hr0
    · cases hc : c.entry ip id with
      | none => rw [hc] at hr0; cases hr0
      | some e =>
        rw [hc] at hr0
        exact h ip id e hc r0 hr0
    · rcases hm with rfl | rfl
      · cases hr0
      · rw [List.mem_singleton.mp hr0]
        exact ⟨fun i hi => absurd hi (hnd i), hr⟩

theorem heldOk_packet {env : Env X P L C} {es : List (Event A X P L)} {c : PeerCache A X P C} (hg : Agrees env es c) (h : HeldOk env es c) (r : Request A P) :
    HeldOk env (es ++ [.packet r]) (process env c r).1 := by
  have hp := hg.placed
  have hcur : Current env (es ++ [.packet r]) r := by
    intro info hd info' hl
    rcases lastDescribed_snoc hl with ⟨r', hr', hd', _⟩ | ⟨_, hn⟩
    · cases hr'
      rw [describes_unique hd' hd]
      exact alike_refl _
    · exact absurd ⟨rfl, rfl⟩ (hn r info rfl hd)
  -- packets that are still held are those of the description that came
  have key : ∀ ip id e, (process env c r).1.entry ip id = some e → ∀ r0, (∃ e0, c.entry ip id = some e0 ∧ r0 ∈ e0.packets ∧ e0.info = e.info) →
      (∀ info, Describes env r0 info → Alike e.info info) ∧ Current env (es ++ [.packet r]) r0 := by
    rintro ip id e he r0 ⟨e0, hc, hr0, hi⟩
    obtain ⟨h1, h2⟩ := h ip id e0 hc r0 hr0
    rw [hi] at h1
    refine ⟨h1, ?_⟩
    intro info hd info' hl
    have hk := about_unique (describes_about hd) (hg.packets ip id e0 hc r0 hr0).1
    rcases lastDescribed_snoc hl with ⟨r', hr', hd', h3, h4⟩ | ⟨hl', _⟩
    · cases hr'
      obtain ⟨e1, he1, hs⟩ := process_info (env := env) (c := c) hd'
      rw [h3, h4, hk.1, hk.2, he] at he1
      cases he1
      exact alike_trans (alike_symm ((alike_iff _ _).mp hs)) (h1 info hd)
    · exact h2 info hd info' hl'
  intro ip id e he r0 hr0
  rcases process_entry (env := env) hp r ip id with h' | ⟨ha, more, hm, ⟨info, hd, _, _, _, h'⟩ | ⟨_, hnd, h'⟩⟩
  · exact key ip id e he r0 ⟨e, h' ▸ he, hr0, rfl⟩
  · rw [h'] at he
    cases he
    rcases hm with rfl | rfl
    · cases hr0
    · rw [List.mem_singleton.mp hr0]
      exact ⟨fun i hi => by rw [describes_unique hi hd]; exact alike_refl _, hcur⟩
  · cases hc : c.entry ip id with
    | none =>
      rw [h', hc] at he
      cases he
      simp only [Option.getD_none, CachedSub.fresh, List.nil_append] at hr0
      rcases hm with rfl | rfl
      · cases hr0
      · rw [List.mem_singleton.mp hr0]
        exact ⟨fun i hi => absurd hi (hnd i), hcur⟩
    | some e0 =>
      have he' := he
      rw [h', hc] at he'
      cases he'
      simp only [Option.getD_some, List.mem_append] at hr0
      rcases hr0 with hr0 | hr0
      · exact key ip id _ he r0 ⟨e0, hc, hr0, rfl⟩
      · rcases hm with rfl | rfl
        · cases hr0
        · rw [List.mem_singleton.mp hr0]
          exact ⟨fun i hi => absurd hi (hnd i), hcur⟩

theorem heldOk_after (env : Env X P L C) (es : List (Event A X P L)) : HeldOk env es (after env es) := by
  induction es using snoc_induction with
  | nil => intro _ _ _ h; cases h
  | append_singleton es e ih =>
    have hg := agrees_after env es
    rw [after_snoc]
    cases e with
    | packet r => exact heldOk_packet hg ih r
    | response resp =>
      have cur : ∀ r, Current env es r → Current env (es ++ [.response resp]) r := fun r h info hd info' hl => h info hd info' (lastDescribed_response hl)
      simp only [step, respond]
      cases hc : (after env es).entry resp.info.peer.ip resp.info.id with
      | none => intro ip id e he r hr; obtain ⟨h1, h2⟩ := ih ip id e he r hr; exact ⟨h1, cur r h2⟩
      | some e =>
        have := processAll_induct (env := env) (Q := fun c => Placed c ∧ HeldOk env (es ++ [.response resp]) c) (R := Current env (es ++ [.response resp]))
          (fun c r hq hr => ⟨process_placed hq.1 r, heldOk_process hq.1 hq.2 hr⟩) e.packets
          ((after env es).set resp.info.peer.ip resp.info.id (.answered env resp))
          ⟨placed_set hg.placed ⟨rfl, rfl⟩, by
            intro ip id e' he' r hr
            rw [entry_set] at he'
            split at he'
            · cases he'
              cases hr
            · obtain ⟨h1, h2⟩ := ih ip id e' he' r hr
              exact ⟨h1, cur r h2⟩⟩
          (fun r hr => cur r (ih _ _ _ hc r hr).2)
        exact this.1.2

/-! ## The entry after a response -/

/-- the entry of a subscription is what a response has made of it, except for the packets that are held -/
def Answered (env : Env X P L C) (resp : Response A X L) (c : PeerCache A X P C) : Prop :=
  Placed c ∧ ∃ e, c.entry resp.info.peer.ip resp.info.id = some e ∧ e.contentId = (if resp.library.isSome then resp.contentId else none) ∧ e.info = resp.info ∧
    e.ctx = resp.library.bind env.load

/-- a packet is of the description of a response, if it is one of a description of its subscription -/
def Agreeing (env : Env X P L C) (resp : Response A X L) (r : Request A P) : Prop :=
  ∀ info, Describes env r info → info.peer.ip = resp.info.peer.ip → info.id = resp.info.id → Alike info resp.info

theorem answered_process {env : Env X P L C} {resp : Response A X L} {c : PeerCache A X P C} (h : Answered env resp c) {r : Request A P} (hr : Agreeing env resp r) :
    Answered env resp (process env c r).1 := by
  obtain ⟨hp, e, h1, h2, h3, h4⟩ := h
  refine ⟨process_placed hp r, ?_⟩
  rcases process_entry (env := env) hp r resp.info.peer.ip resp.info.id with h' | ⟨ha, more, hm, ⟨info, hd, hi1, hi2, hn, h'⟩ | ⟨_, hnd, h'⟩⟩
  · exact ⟨e, h'.trans h1, h2, h3, h4⟩
  · have := hn e h1
    rw [h3, (alike_iff _ _).mpr (alike_symm (hr info hd hi1 hi2))] at this
    cases this
  · rw [h', h1]
    exact ⟨_, rfl, h2, h3, h4⟩

theorem answered_respond {env : Env X P L C} {es : List (Event A X P L)} {resp : Response A X L} {c : PeerCache A X P C} (hg : Agrees env es c)
    (hc : c.entry resp.info.peer.ip resp.info.id ≠ none) (hh : ∀ e, c.entry resp.info.peer.ip resp.info.id = some e → ∀ r ∈ e.packets, Agreeing env resp r) :
    Answered env resp (respond env c resp).1 := by
  unfold respond
  cases he : c.entry resp.info.peer.ip resp.info.id with
  | none => exact absurd he hc
  | some e =>
    refine (processAll_induct (env := env) (Q := Answered env resp) (R := Agreeing env resp) (fun c r hq hr => answered_process hq hr) e.packets _ ?_ (hh e he)).1
    exact ⟨placed_set hg.placed ⟨rfl, rfl⟩, _, by rw [entry_set, if_pos ⟨rfl, rfl⟩], rfl, rfl, rfl⟩

theorem answered_other {env : Env X P L C} {es : List (Event A X P L)} {resp other : Response A X L} {c : PeerCache A X P C} (hg : Agrees env es c)
    (h : Answered env resp c) (ho : ¬ For other resp.info.peer.ip resp.info.id) : Answered env resp (respond env c other).1 := by
  unfold respond
  cases he : c.entry other.info.peer.ip other.info.id with
  | none => exact h
  | some e =>
    refine (processAll_induct (env := env) (Q := Answered env resp) (R := fun r => ¬ About env r resp.info.peer.ip resp.info.id) ?_ e.packets _ ?_ ?_).1
    · intro c r hq hr
      exact answered_process hq fun info hd h1 h2 => absurd (by have := describes_about hd; rwa [h1, h2] at this) hr
    · obtain ⟨hp, e', h1, h2⟩ := h
      exact ⟨placed_set hp ⟨rfl, rfl⟩, e', by rw [entry_set, if_neg (show ¬ (_ ∧ _) from ho)]; exact h1, h2⟩
    · intro r hr ha
      exact ho (about_unique (hg.packets _ _ _ he r hr).1 ha)

theorem answered_after {env : Env X P L C} {before later : List (Event A X P L)} {resp : Response A X L}
    (hsome : ∃ r, .packet r ∈ before ∧ About env r resp.info.peer.ip resp.info.id)
    (hbefore : ∀ info, LastDescribed env before resp.info.peer.ip resp.info.id info → Alike info resp.info)
    (hlater : ∀ r, .packet r ∈ later → Agreeing env resp r) (hlast : ∀ other, .response other ∈ later → ¬ For other resp.info.peer.ip resp.info.id) :
    Answered env resp (after env (before ++ .response resp :: later)) := by
  induction later using snoc_induction with
  | nil =>
    rw [after_snoc]
    obtain ⟨r0, hr0, ha0⟩ := hsome
    have hg := agrees_after env before
    refine answered_respond hg (known_after env before _ _ r0 hr0 ha0) ?_
    intro e he r hr info hd h1 h2
    obtain ⟨i, hi⟩ := lastDescribed_exists (hg.packets _ _ _ he r hr).2 hd
    have h3 := (heldOk_after env before _ _ _ he r hr).2 info hd i hi
    rw [h1, h2] at hi
    exact alike_trans (alike_symm h3) (hbefore i hi)
  | append_singleton later e ih =>
    have ih := ih (fun r hr => hlater r (List.mem_append_left _ hr)) (fun o ho => hlast o (List.mem_append_left _ ho))
    have heq : before ++ Event.response resp :: (later ++ [e]) = (before ++ .response resp :: later) ++ [e] := by simp
    rw [heq, after_snoc]
    cases e with
    | packet r => exact answered_process ih (hlater r (List.mem_append_right _ (List.mem_singleton.mpr rfl)))
    | response other => exact answered_other (agrees_after env _) ih (hlast other (List.mem_append_right _ (List.mem_singleton.mpr rfl)))

/-- what is said of a packet of which the subscription is known -/
theorem process_verdict {env : Env X P L C} {c : PeerCache A X P C} (hp : Placed c) {r : Request A P} {d : Decoded X} {k : Contents X}
    {e : CachedSub A X P C} (hd : env.decode r.packet = some d) (hk : d.contents = some k) (he : c.entry r.peer.ip k.id = some e) (hn : ¬ Nameless env r)
    (hr : ∀ info, Describes env r info → e.info.same info = true) :
    ∃ info, e.info.same info = true ∧ (k.starts = none → info = e.info) ∧ (k.starts ≠ none → Describes env r info) ∧
      (process env c r).2 = verdict env e info d r := by
  have ht := turn env c r
  generalize (process env c r).1 = c', (process env c r).2 = outs at ht
  cases ht with
  | undecodable hd' => rw [hd] at hd'; cases hd'
  | noSubscription hd' hk' => rw [hd] at hd'; cases hd'; rw [hk] at hk'; cases hk'
  | @known d' k' s info e' hd' hk' hs hb he' hsame =>
    rw [hd] at hd'; cases hd'; rw [hk] at hk'; cases hk'; rw [he] at he'; cases he'
    exact ⟨info, hsame, (by rw [hs]; intro h; cases h), fun _ => describes_iff.mpr ⟨s, begins_iff.mpr ⟨d, k, hd, hk, hs⟩, hb⟩, rfl⟩
  | @new d' k' s info hd' hk' hs hb hne =>
    rw [hd] at hd'; cases hd'; rw [hk] at hk'; cases hk'
    have := hr info (describes_iff.mpr ⟨s, begins_iff.mpr ⟨d, k, hd, hk, hs⟩, hb⟩)
    rw [hne e he] at this
    cases this
  | @other d' k' e' hd' hk' hs he' =>
    rw [hd] at hd'; cases hd'; rw [hk] at hk'; cases hk'; rw [he] at he'; cases he'
    have hid : e.info.id = k.id := (hp _ _ _ he).2
    rw [hid, he, Option.getD_some]
    exact ⟨e.info, same_refl _, fun _ => rfl, (by rw [hs]; intro h; exact absurd rfl h), rfl⟩
  | @unknown d' k' hd' hk' hs =>
    rw [hd] at hd'; cases hd'; rw [hk] at hk'; cases hk'
    rcases hs with ⟨s, hs, hm⟩ | ⟨_, hn'⟩
    · exact absurd ⟨s, begins_iff.mpr ⟨d, k, hd, hk, hs⟩, hm⟩ hn
    · rw [he] at hn'; cases hn'

end Verif.YangPush.Notif
