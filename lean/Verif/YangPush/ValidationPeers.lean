import Verif.YangPush.ValidationSteady
/-!
# Limits, order and peers of the validation of YANG push notifications
-/
namespace Verif.YangPush.Notif
open Collector

variable {A X P L C : Type} [DecidableEq A] [DecidableEq X]

/-! ## Limits -/

/-- how many packets an entry holds -/
def size (e : CachedSub A X P C) : Nat := e.packets.length

/-- the limits are exceeded by one packet at most -/
def Limited (env : Env X P L C) (c : PeerCache A X P C) : Prop :=
  (∀ ip, weigh size ((c.look ip).getD []) ≤ env.maxPeer + 1) ∧ ∀ ip id e, c.entry ip id = some e → e.packets.length ≤ env.maxSub + 1

theorem total_size (subs : PeerSubs A X P C) : subs.total = weigh size subs := rfl

theorem look_set_other (c : PeerCache A X P C) {ip ip' : A} (h : ip ≠ ip') (id : UInt32) (e : CachedSub A X P C) : (c.set ip id e).look ip' = c.look ip' := by
  unfold PeerCache.set
  rw [lookup_put, if_neg h]

theorem limited_set {env : Env X P L C} {c : PeerCache A X P C} (h : Limited env c) (ip : A) (id : UInt32) {e : CachedSub A X P C}
    (he : e.packets.length ≤ wopt size (c.entry ip id)) : Limited env (c.set ip id e) := by
  refine ⟨fun ip' => ?_, fun ip' id' e' he' => ?_⟩
  · by_cases hip : ip = ip'
    · subst hip
      have h1 := weigh_set size c ip id e
      have h2 := h.1 ip
      have h3 : size e = e.packets.length := rfl
      omega
    · rw [look_set_other c hip]
      exact h.1 ip'
  · rw [entry_set] at he'
    split at he'
    · cases he'
      cases hc : c.entry ip id with
      | none =>
        rw [hc] at he
        simp only [wopt, Option.map_none, Option.getD_none] at he
        omega
      | some e0 =>
        rw [hc] at he
        have := h.2 ip id e0 hc
        simp only [wopt, Option.map_some, Option.getD_some, size] at he
        omega
    · exact h.2 ip' id' e' he'

theorem limited_checkNew {env : Env X P L C} {c : PeerCache A X P C} (h : Limited env c) (ip : A) (info : SubInfo A X) : Limited env (checkNew c ip info) := by
  refine ⟨fun ip' => Nat.le_trans (weigh_checkNew size c ip ip' info) (h.1 ip'), fun ip' id e he => ?_⟩
  by_cases hk : ip = ip' ∧ info.id = id
  · obtain ⟨rfl, rfl⟩ := hk
    rw [checkNew_key] at he
    cases hc : c.entry ip info.id with
    | none => rw [hc] at he; cases he
    | some e0 =>
      rw [hc, Option.filter_some] at he
      split at he
      · cases he
        exact h.2 _ _ _ hc
      · cases he
  · rw [checkNew_other _ _ _ _ _ hk] at he
    exact h.2 ip' id e he

theorem limited_cachePacket {env : Env X P L C} {c : PeerCache A X P C} (h : Limited env c) (info : SubInfo A X) (r : Request A P) :
    Limited env (cachePacket env c info r).1 := by
  have hw : ((c.entry r.peer.ip info.id).getD (.fresh info)).packets.length = wopt size (c.entry r.peer.ip info.id) := by
    cases c.entry r.peer.ip info.id <;> rfl
  unfold cachePacket
  simp only
  generalize hg : (c.entry r.peer.ip info.id).getD (.fresh info) = e at hw ⊢
  split
  · exact limited_set h _ _ (Nat.le_of_eq hw)
  · split
    · exact limited_set h _ _ (Nat.le_of_eq hw)
    · rename_i h1 h2
      rw [total_size] at h2
      refine ⟨fun ip' => ?_, fun ip' id' e' he' => ?_⟩
      · by_cases hip : r.peer.ip = ip'
        · subst hip
          have h3 := weigh_set size c r.peer.ip info.id { e with packets := e.packets ++ [r] }
          have h4 : size { e with packets := e.packets ++ [r] } = e.packets.length + 1 := by simp [size]
          simp only at h3 ⊢
          omega
        · rw [look_set_other c hip]
          exact h.1 ip'
      · rw [entry_set] at he'
        split at he'
        · cases he'
          simp only [List.length_append, List.length_cons, List.length_nil]
          omega
        · exact h.2 ip' id' e' he'

theorem limited_process {env : Env X P L C} {c : PeerCache A X P C} (h : Limited env c) (r : Request A P) : Limited env (process env c r).1 := by
  have ht := turn env c r
  generalize (process env c r).1 = c', (process env c r).2 = outs at ht
  cases ht with
  | undecodable => exact h
  | noSubscription => exact h
  | @known d k s info e hd hk hs hb he hsame =>
    have hid : info.id = k.id := by rw [(buildInfo_some hb).2.1, starts_id hs]
    refine limited_set (limited_checkNew h _ _) _ _ ?_
    rw [← hid, checkNew_key, hid, he, Option.filter_some, if_pos hsame]
    exact Nat.le_refl _
  | new => exact limited_cachePacket (limited_checkNew h _ _) _ _
  | @other d k e hd hk hs he =>
    refine limited_set h _ _ ?_
    cases c.entry r.peer.ip e.info.id <;> exact Nat.le_refl _
  | unknown => exact limited_cachePacket h _ _

theorem limited_after (env : Env X P L C) (es : List (Event A X P L)) : Limited env (after env es) := by
  induction es using snoc_induction with
  | nil => exact ⟨fun _ => Nat.zero_le _, by intro _ _ _ h; cases h⟩
  | append_singleton es e ih =>
    rw [after_snoc]
    cases e with
    | packet r => exact limited_process ih r
    | response resp =>
      simp only [step, respond]
      split
      · exact ih
      · exact (processAll_induct (env := env) (Q := Limited env) (R := fun _ => True) (fun c r hq _ => limited_process hq r) _ _
          (limited_set ih _ _ (Nat.zero_le _)) (fun _ _ => trivial)).1

/-! ## How many packets a response lets out -/

/-- whether a packet starts or modifies a subscription without naming its modules -/
def nameless (env : Env X P L C) (r : Request A P) : Bool :=
  (((env.decode r.packet).bind (·.contents)).bind (·.starts)).any fun s => s.modules.isNone

theorem nameless_iff (env : Env X P L C) (r : Request A P) : nameless env r = true ↔ Nameless env r := by
  unfold nameless Nameless
  constructor
  · intro h
    cases hd : env.decode r.packet with
    | none => rw [hd] at h; simp at h
    | some d =>
      rw [hd, Option.bind_some] at h
      cases hk : d.contents with
      | none => rw [hk] at h; simp at h
      | some k =>
        rw [hk, Option.bind_some] at h
        cases hs : k.starts with
        | none => rw [hs] at h; simp at h
        | some s =>
          rw [hs] at h
          exact ⟨s, begins_iff.mpr ⟨d, k, hd, hk, hs⟩, by simpa using h⟩
  · rintro ⟨s, hb, hm⟩
    obtain ⟨d, k, hd, hk, hs⟩ := begins_iff.mp hb
    simp [hd, hk, hs, hm]

/-- the packets of an entry that name the modules or do not need to -/
def plain (env : Env X P L C) (rs : List (Request A P)) : Nat := rs.countP fun r => !nameless env r

/-- at most one of the packets that are held can be let out -/
def OnePlain (env : Env X P L C) (c : PeerCache A X P C) : Prop := ∀ ip id e, c.entry ip id = some e → plain env e.packets ≤ 1

theorem onePlain_process {env : Env X P L C} {c : PeerCache A X P C} (hp : Placed c) (h : OnePlain env c) (r : Request A P) : OnePlain env (process env c r).1 := by
  have hone : ∀ more, (more = [] ∨ more = [r]) → plain env more ≤ 1 := by
    rintro more (rfl | rfl)
    · exact Nat.zero_le _
    · unfold plain
      rw [List.countP_cons]
      split <;> simp
  intro ip id e he
  rcases process_entry (env := env) hp r ip id with h' | ⟨ha, more, hm, ⟨info, hd, h1, h2, _, h'⟩ | ⟨hn, hnd, h'⟩⟩
  · rw [h'] at he
    exact h ip id e he
  · rw [h'] at he
    cases he
    exact hone more hm
  · rw [h'] at he
    cases he
    cases hc : c.entry ip id with
    | none => exact hone more hm
    | some e0 =>
      rcases hn with hn | hn
      · have : plain env more = 0 := by
          rcases hm with rfl | rfl
          · rfl
          · unfold plain
            rw [List.countP_cons, (nameless_iff env r).mpr hn]
            rfl
        have h0 := h ip id e0 hc
        simp only [Option.getD_some]
        unfold plain at *
        rw [List.countP_append]
        omega
      · rw [hc] at hn
        cases hn

theorem onePlain_after (env : Env X P L C) (es : List (Event A X P L)) : OnePlain env (after env es) := by
  induction es using snoc_induction with
  | nil => intro _ _ _ h; cases h
  | append_singleton es e ih =>
    have hp := (agrees_after env es).placed
    rw [after_snoc]
    cases e with
    | packet r => exact onePlain_process hp ih r
    | response resp =>
      simp only [step, respond]
      split
      · exact ih
      · refine (processAll_induct (env := env) (Q := fun c => Placed c ∧ OnePlain env c) (R := fun _ => True)
          (fun c r hq _ => ⟨process_placed hq.1 r, onePlain_process hq.1 hq.2 r⟩) _ _ ⟨placed_set (e := .answered env resp) hp (ip := resp.info.peer.ip) (id := resp.info.id) ⟨rfl, rfl⟩, ?_⟩ (fun _ _ => trivial)).1.2
        intro ip id e he
        rw [entry_set] at he
        split at he
        · cases he
          exact Nat.zero_le _
        · exact ih ip id e he

/-- with a packet at most that one is forwarded, and never one that does not name the modules -/
theorem forwarded_process {env : Env X P L C} {c : PeerCache A X P C} (r : Request A P) :
    forwarded (process env c r).2 = [] ∨ (forwarded (process env c r).2 = (env.decode r.packet).toList ∧ ¬ Nameless env r) := by
  have ht := turn env c r
  generalize (process env c r).1 = c', (process env c r).2 = outs at ht
  have fv : ∀ (e : CachedSub A X P C) info d, env.decode r.packet = some d →
      forwarded (verdict env e info d r) = [] ∨ forwarded (verdict env e info d r) = (env.decode r.packet).toList := by
    intro e info d hd
    rcases verdict_cases env e info d r with ⟨hv, _⟩ | ⟨_, _, _, _, _, ⟨_, hv⟩ | ⟨_, hv⟩⟩ <;> rw [hv] <;> simp [forwarded, hd]
  cases ht with
  | undecodable => exact .inl rfl
  | noSubscription => exact .inl rfl
  | @known d k s info e hd hk hs hb he hsame =>
    rcases fv e info d hd with h | h
    · exact .inl h
    · exact .inr ⟨h, fun hn => nameless_describes hn info (describes_iff.mpr ⟨s, begins_iff.mpr ⟨d, k, hd, hk, hs⟩, hb⟩)⟩
  | @new d k s info hd hk hs hb he =>
    rcases cachePacket_outs env (checkNew c r.peer.ip info) info r with hc | ⟨reason, hc⟩ <;> rw [hc] <;> exact .inl rfl
  | @other d k e hd hk hs he =>
    rcases fv _ e.info d hd with h | h
    · exact .inl h
    · refine .inr ⟨h, ?_⟩
      rintro ⟨s, hb, _⟩
      obtain ⟨d', k', hd', hk', hs'⟩ := begins_iff.mp hb
      rw [hd] at hd'; cases hd'; rw [hk] at hk'; cases hk'; rw [hs] at hs'; cases hs'
  | @unknown d k hd hk hs =>
    rcases cachePacket_outs env c (.empty r.collector r.interface r.peer k.id) r with hc | ⟨reason, hc⟩ <;> rw [hc] <;> exact .inl rfl

theorem forwarded_processAll {env : Env X P L C} (rs : List (Request A P)) : ∀ c : PeerCache A X P C,
    (forwarded (processAll env c rs).2).length ≤ plain env rs ∧ ∀ d ∈ forwarded (processAll env c rs).2, ∃ r ∈ rs, env.decode r.packet = some d := by
  induction rs with
  | nil => intro c; exact ⟨Nat.zero_le _, by intro d h; cases h⟩
  | cons r rs ih =>
    intro c
    obtain ⟨h1, h2⟩ := ih (process env c r).1
    simp only [processAll, forwarded_append, List.length_append, List.mem_append]
    rcases forwarded_process (env := env) (c := c) r with h | ⟨h, hn⟩
    · rw [h]
      refine ⟨?_, ?_⟩
      · unfold plain at *
        rw [List.countP_cons]
        simp only [List.length_nil]
        omega
      · rintro d (hd | hd)
        · cases hd
        · obtain ⟨r', hr', h'⟩ := h2 d hd
          exact ⟨r', List.mem_cons_of_mem _ hr', h'⟩
    · rw [h]
      refine ⟨?_, ?_⟩
      · have : nameless env r = false := by
          cases hx : nameless env r with
          | false => rfl
          | true => exact absurd ((nameless_iff env r).mp hx) hn
        unfold plain at *
        rw [List.countP_cons, this]
        have : (env.decode r.packet).toList.length ≤ 1 := by cases env.decode r.packet <;> simp
        simp only [Bool.not_false, if_true]
        omega
      · rintro d (hd | hd)
        · refine ⟨r, List.mem_cons_self .., ?_⟩
          simpa using hd
        · obtain ⟨r', hr', h'⟩ := h2 d hd
          exact ⟨r', List.mem_cons_of_mem _ hr', h'⟩

/-! ## Peers -/

theorem look_checkNew_other (c : PeerCache A X P C) {ip ip' : A} (h : ip ≠ ip') (info : SubInfo A X) : (checkNew c ip info).look ip' = c.look ip' := by
  unfold checkNew
  split
  · rfl
  · simp only
    split <;> split <;> simp [lookup_del, lookup_put, h]

theorem look_cachePacket_other (env : Env X P L C) (c : PeerCache A X P C) (info : SubInfo A X) {r : Request A P} {ip : A} (h : r.peer.ip ≠ ip) :
    (cachePacket env c info r).1.look ip = c.look ip := by
  unfold cachePacket
  simp only
  split
  · exact look_set_other c h _ _
  · split <;> exact look_set_other c h _ _

theorem look_process_other (env : Env X P L C) (c : PeerCache A X P C) {r : Request A P} {ip : A} (h : r.peer.ip ≠ ip) : (process env c r).1.look ip = c.look ip := by
  have ht := turn env c r
  generalize (process env c r).1 = c', (process env c r).2 = outs at ht
  cases ht with
  | undecodable => rfl
  | noSubscription => rfl
  | known => rw [look_set_other _ h, look_checkNew_other c h]
  | new => rw [look_cachePacket_other env _ _ h, look_checkNew_other c h]
  | other => rw [look_set_other _ h]
  | unknown => rw [look_cachePacket_other env _ _ h]

theorem entry_congr {c c' : PeerCache A X P C} {ip : A} (h : c.look ip = c'.look ip) (id : UInt32) : c.entry ip id = c'.entry ip id := by
  unfold PeerCache.entry
  rw [h]

theorem set_congr {c c' : PeerCache A X P C} {ip : A} (h : c.look ip = c'.look ip) (id : UInt32) (e : CachedSub A X P C) :
    (c.set ip id e).look ip = (c'.set ip id e).look ip := by
  unfold PeerCache.set
  rw [lookup_put, lookup_put, h]

theorem checkNew_congr {c c' : PeerCache A X P C} {ip : A} (h : c.look ip = c'.look ip) (info : SubInfo A X) :
    (checkNew c ip info).look ip = (checkNew c' ip info).look ip := by
  unfold checkNew
  rw [← h]
  cases hc : c.look ip with
  | none => simp only; rw [← h, hc]
  | some subs =>
    simp only
    split <;> split <;> simp [lookup_del, lookup_put]

theorem cachePacket_congr (env : Env X P L C) {c c' : PeerCache A X P C} {r : Request A P} (h : c.look r.peer.ip = c'.look r.peer.ip) (info : SubInfo A X) :
    (cachePacket env c info r).2 = (cachePacket env c' info r).2 ∧ (cachePacket env c info r).1.look r.peer.ip = (cachePacket env c' info r).1.look r.peer.ip := by
  unfold cachePacket
  rw [entry_congr h, h]
  simp only
  split
  · exact ⟨rfl, set_congr h _ _⟩
  · split
    · exact ⟨rfl, set_congr h _ _⟩
    · exact ⟨rfl, set_congr h _ _⟩

/-- what becomes of a packet depends on what is remembered of its peer only -/
theorem process_congr (env : Env X P L C) {c c' : PeerCache A X P C} {r : Request A P} (h : c.look r.peer.ip = c'.look r.peer.ip) :
    (process env c r).2 = (process env c' r).2 ∧ (process env c r).1.look r.peer.ip = (process env c' r).1.look r.peer.ip := by
  unfold process
  cases env.decode r.packet with
  | none => exact ⟨rfl, h⟩
  | some d =>
    simp only
    unfold extract
    cases d.contents with
    | none => exact ⟨rfl, h⟩
    | some k =>
      simp only
      -- the end, once there is a description
      have fin : ∀ (a a' : PeerCache A X P C) info, a.look r.peer.ip = a'.look r.peer.ip → (finish env a r d info).2 = (finish env a' r d info).2 ∧
          (finish env a r d info).1.look r.peer.ip = (finish env a' r d info).1.look r.peer.ip := by
        intro a a' info ha
        unfold finish
        simp only
        rw [entry_congr ha]
        exact ⟨rfl, set_congr ha _ _⟩
      have hf : ∃ a a' i, findInfo c r k = (a, i) ∧ findInfo c' r k = (a', i) ∧ a.look r.peer.ip = a'.look r.peer.ip := by
        unfold findInfo
        cases k.starts with
        | none => exact ⟨c, c', _, rfl, by rw [entry_congr h], h⟩
        | some s =>
          simp only
          cases buildInfo r s with
          | none => exact ⟨c, c', none, rfl, rfl, h⟩
          | some info => exact ⟨_, _, _, rfl, rfl, checkNew_congr h info⟩
      obtain ⟨a, a', i, h1, h2, h3⟩ := hf
      rw [h1, h2]
      cases i with
      | none =>
        simp only
        obtain ⟨g1, g2⟩ := cachePacket_congr env h3 (.empty r.collector r.interface r.peer k.id)
        exact ⟨by rw [g1], g2⟩
      | some info =>
        simp only
        unfold cachedContentId
        rw [entry_congr h3]
        cases ((a'.entry r.peer.ip k.id).filter fun x => x.info.same info).map (·.contentId) with
        | none =>
          simp only
          obtain ⟨g1, g2⟩ := cachePacket_congr env h3 info
          exact ⟨by rw [g1], g2⟩
        | some _ =>
          simp only [List.nil_append]
          exact fin a a' info h3

theorem processAll_congr (env : Env X P L C) {ip : A} (rs : List (Request A P)) : ∀ {c c' : PeerCache A X P C}, c.look ip = c'.look ip → (∀ r ∈ rs, r.peer.ip = ip) →
    (processAll env c rs).2 = (processAll env c' rs).2 ∧ (processAll env c rs).1.look ip = (processAll env c' rs).1.look ip := by
  induction rs with
  | nil => intro c c' h _; exact ⟨rfl, h⟩
  | cons r rs ih =>
    intro c c' h hr
    have hr1 := hr r (List.mem_cons_self ..)
    subst hr1
    obtain ⟨h1, h2⟩ := process_congr env h
    obtain ⟨h3, h4⟩ := ih h2 fun r' hr' => hr r' (List.mem_cons_of_mem _ hr')
    simp only [processAll]
    exact ⟨by rw [h1, h3], h4⟩

/-- what is sent is about the peer of the packet -/
theorem process_peer {env : Env X P L C} {c : PeerCache A X P C} (hp : Placed c) {r : Request A P} {o : Output A X P} (ho : o ∈ (process env c r).2) : o.peer = r.peer.ip := by
  have ht := turn env c r
  generalize (process env c r).1 = c', (process env c r).2 = outs at ht ho
  have hv : ∀ (e : CachedSub A X P C) info d, info.peer.ip = r.peer.ip → o ∈ verdict env e info d r → o.peer = r.peer.ip := by
    intro e info d hi ho
    rcases verdict_cases env e info d r with ⟨hv, _⟩ | ⟨_, _, _, _, _, ⟨_, hv⟩ | ⟨_, hv⟩⟩ <;> rw [hv] at ho <;> rw [List.mem_singleton.mp ho]
    · exact hi
    · exact hi
    · rfl
  have hc : ∀ (c : PeerCache A X P C) info, o ∈ (cachePacket env c info r).2 → o.peer = r.peer.ip := by
    intro c info ho
    rcases cachePacket_outs env c info r with h | ⟨reason, h⟩ <;> rw [h] at ho
    · cases ho
    · rw [List.mem_singleton.mp ho]; rfl
  cases ht with
  | undecodable => rw [List.mem_singleton.mp ho]; rfl
  | noSubscription => rw [List.mem_singleton.mp ho]; rfl
  | known hd hk hs hb => exact hv _ _ _ (by rw [(buildInfo_some hb).2.2]) ho
  | new hd hk hs hb =>
    rcases List.mem_cons.mp ho with rfl | ho
    · simp only [Output.peer, (buildInfo_some hb).2.2]
    · exact hc _ _ ho
  | other hd hk hs he => exact hv _ _ _ (hp _ _ _ he).1 ho
  | unknown =>
    rcases List.mem_cons.mp ho with rfl | ho
    · rfl
    · exact hc _ _ ho

theorem look_processAll_other (env : Env X P L C) {ip : A} (rs : List (Request A P)) : ∀ c : PeerCache A X P C, (∀ r ∈ rs, r.peer.ip ≠ ip) →
    (processAll env c rs).1.look ip = c.look ip := by
  induction rs with
  | nil => intro c _; rfl
  | cons r rs ih =>
    intro c hr
    simp only [processAll]
    rw [ih _ fun r' hr' => hr r' (List.mem_cons_of_mem _ hr'), look_process_other env c (hr r (List.mem_cons_self ..))]

/-- events of other peers leave a peer alone and send nothing about it -/
theorem step_other {env : Env X P L C} {es : List (Event A X P L)} {c : PeerCache A X P C} (hg : Agrees env es c) {e : Event A X P L} {ip : A} (h : e.peer ≠ ip) :
    (step env c e).1.look ip = c.look ip ∧ ∀ o ∈ (step env c e).2, o.peer ≠ ip := by
  cases e with
  | packet r => exact ⟨look_process_other env c h, fun o ho => by rw [process_peer hg.placed ho]; exact h⟩
  | response resp =>
    simp only [step, respond]
    cases hc : c.entry resp.info.peer.ip resp.info.id with
    | none => exact ⟨rfl, by intro o ho; cases ho⟩
    | some e =>
      have hr : ∀ r ∈ e.packets, r.peer.ip ≠ ip := fun r hr => by rw [(hg.packets _ _ _ hc r hr).1.1]; exact h
      refine ⟨?_, ?_⟩
      · simp only
        rw [look_processAll_other env e.packets _ hr]
        exact look_set_other c h _ _
      · intro o ho
        obtain ⟨c', r, hq, _, hr', ho'⟩ := (processAll_induct (env := env) (Q := Placed) (R := fun _ => True) (fun c r hq _ => process_placed hq r) e.packets _
          (placed_set (e := .answered env resp) hg.placed (ip := resp.info.peer.ip) (id := resp.info.id) ⟨rfl, rfl⟩) (fun _ _ => trivial)).2 o ho
        rw [process_peer hq ho']
        exact hr r hr'

/-- what becomes of an event depends on what is remembered of its peer only -/
theorem step_congr {env : Env X P L C} {es : List (Event A X P L)} {c c' : PeerCache A X P C} (hg : Agrees env es c) {e : Event A X P L}
    (h : c.look e.peer = c'.look e.peer) :
    (step env c e).2 = (step env c' e).2 ∧ (step env c e).1.look e.peer = (step env c' e).1.look e.peer ∧ ∀ o ∈ (step env c e).2, o.peer = e.peer := by
  cases e with
  | packet r =>
    obtain ⟨h1, h2⟩ := process_congr env h
    exact ⟨h1, h2, fun o ho => process_peer hg.placed ho⟩
  | response resp =>
    have h : c.look resp.info.peer.ip = c'.look resp.info.peer.ip := h
    simp only [step, respond, Event.peer]
    rw [← entry_congr h]
    cases hc : c.entry resp.info.peer.ip resp.info.id with
    | none => exact ⟨rfl, h, by intro o ho; cases ho⟩
    | some e =>
      have hr : ∀ r ∈ e.packets, r.peer.ip = resp.info.peer.ip := fun r hr => (hg.packets _ _ _ hc r hr).1.1
      obtain ⟨h1, h2⟩ := processAll_congr env e.packets (set_congr h resp.info.id (.answered env resp)) hr
      refine ⟨h1, h2, ?_⟩
      intro o ho
      obtain ⟨c', r, hq, _, hr', ho'⟩ := (processAll_induct (env := env) (Q := Placed) (R := fun _ => True) (fun c r hq _ => process_placed hq r) e.packets _
        (placed_set (e := .answered env resp) hg.placed (ip := resp.info.peer.ip) (id := resp.info.id) ⟨rfl, rfl⟩) (fun _ _ => trivial)).2 o ho
      rw [process_peer hq ho']
      exact hr r hr'

theorem peers_after (env : Env X P L C) (es : List (Event A X P L)) (ip : A) :
    (after env es).look ip = (after env (es.filter fun e => e.peer = ip)).look ip ∧
    (sent env es).filter (fun o => o.peer = ip) = sent env (es.filter fun e => e.peer = ip) := by
  induction es using snoc_induction with
  | nil => exact ⟨rfl, rfl⟩
  | append_singleton es e ih =>
    obtain ⟨ih1, ih2⟩ := ih
    have hg := agrees_after env es
    rw [after_snoc, sent_snoc, List.filter_append, List.filter_append, ih2]
    by_cases h : e.peer = ip
    · subst h
      obtain ⟨h1, h2, h3⟩ := step_congr hg ih1
      have hf : [e].filter (fun e' => decide (e'.peer = e.peer)) = [e] := by simp
      rw [hf, after_snoc, sent_snoc]
      refine ⟨h2, ?_⟩
      unfold sentWith
      rw [← h1]
      congr 1
      rw [List.filter_eq_self]
      intro o ho
      simpa using h3 o ho
    · obtain ⟨h1, h2⟩ := step_other hg h
      have hf : [e].filter (fun e' => decide (e'.peer = ip)) = [] := by simp [h]
      rw [hf, List.append_nil, h1]
      refine ⟨ih1, ?_⟩
      unfold sentWith
      have : ((step env (after env es) e).2.filter fun o => decide (o.peer = ip)) = [] := by
        rw [List.filter_eq_nil_iff]
        intro o ho
        simpa using h2 o ho
      rw [this, List.append_nil]

/-! ## Packets that are let out -/

theorem processAll_mem {env : Env X P L C} {Q : PeerCache A X P C → Prop} {R : Request A P → Prop} (hq : ∀ c r, Q c → R r → Q (process env c r).1)
    (rs : List (Request A P)) : ∀ c, Q c → (∀ r ∈ rs, R r) → ∀ r ∈ rs, ∃ c', Q c' ∧ ∀ o ∈ (process env c' r).2, o ∈ (processAll env c rs).2 := by
  induction rs with
  | nil => intro c _ _ r hr; cases hr
  | cons r rs ih =>
    intro c hc hr r' hr'
    simp only [processAll]
    rcases List.mem_cons.mp hr' with rfl | hr'
    · exact ⟨c, hc, fun o ho => List.mem_append_left _ ho⟩
    · obtain ⟨c', h1, h2⟩ := ih _ (hq c r hc (hr r (List.mem_cons_self ..))) (fun r'' h => hr r'' (List.mem_cons_of_mem _ h)) r' hr'
      exact ⟨c', h1, fun o ho => List.mem_append_right _ (h2 o ho)⟩

end Verif.YangPush.Notif
