import Verif.YangPush.ValidationHist
/-!
# Histories of YANG push notifications in which subscriptions do not change, limits and peers
-/
namespace Verif.YangPush.Notif
open Collector

variable {A X P L C : Type} [DecidableEq A] [DecidableEq X]

/-! ## How much is told -/

theorem told_processAll {env : Env X P L C} (q : Decoded X → Bool) (rs : List (Request A P)) : ∀ {c : PeerCache A X P C}, Placed c →
    told env q (processAll env c rs).2 + weighAll (hits env q) (processAll env c rs).1 ≤ weighAll (hits env q) c + (rs.map (hit env q)).sum := by
  induction rs with
  | nil => intro c _; simp [processAll, told, forwarded, reported]
  | cons r rs ih =>
    intro c hp
    have h1 := (told_process (env := env) q hp r).1
    have h2 := ih (process_placed (env := env) hp r)
    simp only [processAll, told_append, List.map_cons, List.sum_cons]
    omega

theorem told_step {env : Env X P L C} (q : Decoded X → Bool) {c : PeerCache A X P C} (hp : Placed c) (e : Event A X P L) :
    told env q (step env c e).2 + weighAll (hits env q) (step env c e).1 ≤ weighAll (hits env q) c + (received env [e]).countP q := by
  cases e with
  | packet r =>
    have := (told_process (env := env) q hp r).1
    simpa [received, hit, step] using this
  | response resp =>
    simp only [step, respond, received, List.countP_nil]
    cases hc : c.entry resp.info.peer.ip resp.info.id with
    | none => simp [told, forwarded, reported]
    | some e =>
      have h1 := weighAll_set (hits env q) c resp.info.peer.ip resp.info.id (.answered env resp)
      have h2 := told_processAll (env := env) q e.packets (placed_set (e := .answered env resp) hp (ip := resp.info.peer.ip) (id := resp.info.id) ⟨rfl, rfl⟩)
      rw [hc] at h1
      simp only [wopt, Option.map_some, Option.getD_some] at h1
      have h3 : hits env q (CachedSub.answered env resp : CachedSub A X P C) = 0 := rfl
      have h4 : hits env q e = (e.packets.map (hit env q)).sum := rfl
      simp only at h2 ⊢
      omega

theorem told_after (env : Env X P L C) (q : Decoded X → Bool) (es : List (Event A X P L)) :
    told env q (sent env es) + weighAll (hits env q) (after env es) ≤ (received env es).countP q := by
  induction es using snoc_induction with
  | nil => simp [sent, after, validationRun, told, forwarded, reported, weighAll, weigh_nil]
  | append_singleton es e ih =>
    have h := told_step (env := env) q (agrees_after env es).placed e
    rw [sent_snoc, after_snoc, told_append, received_append, List.countP_append]
    unfold sentWith
    omega

theorem uniq_processAll {env : Env X P L C} (rs : List (Request A P)) : ∀ {c : PeerCache A X P C}, Uniq c → Uniq (processAll env c rs).1 := by
  induction rs with
  | nil => intro c h; exact h
  | cons r rs ih => intro c h; exact ih (uniq_process env h r)

theorem uniq_after (env : Env X P L C) (es : List (Event A X P L)) : Uniq (after env es) := by
  induction es using snoc_induction with
  | nil => exact List.Pairwise.nil
  | append_singleton es e ih =>
    rw [after_snoc]
    cases e with
    | packet r => exact uniq_process env ih r
    | response resp =>
      simp only [step, respond]
      split
      · exact ih
      · exact uniq_processAll _ (Uniq.put ih _ _)

/-! ## Steady histories -/

theorem steady_prefix {env : Env X P L C} {es : List (Event A X P L)} {e : Event A X P L} {ip : A} {id : UInt32} {info : SubInfo A X}
    (h : SteadyFor env (es ++ [e]) ip id info) : SteadyFor env es ip id info := by
  refine ⟨fun r i hr => h.1 r i (List.mem_append_left _ hr), fun resp hr => h.2.1 resp (List.mem_append_left _ hr), ?_⟩
  rintro before r after rfl
  exact h.2.2 before r (after ++ [e]) (by simp)

/-- entries are alike to what subscriptions are described as -/
def InfoOk (I : A → UInt32 → SubInfo A X) (c : PeerCache A X P C) : Prop := ∀ ip id e, c.entry ip id = some e → Alike e.info (I ip id)

/-- a packet is alike to what its subscription is described as -/
def OfKind (env : Env X P L C) (I : A → UInt32 → SubInfo A X) (r : Request A P) : Prop := ∀ i, Describes env r i → Alike i (I i.peer.ip i.id)

/-- a packet about a subscription that is known, or that describes it -/
def Fits (env : Env X P L C) (c : PeerCache A X P C) (r : Request A P) : Prop := ∀ ip id, About env r ip id → c.entry ip id ≠ none ∨ ∃ i, Describes env r i

theorem infoOk_process {env : Env X P L C} {I : A → UInt32 → SubInfo A X} {c : PeerCache A X P C} (hp : Placed c) (h : InfoOk I c) {r : Request A P}
    (hr : OfKind env I r) (hf : Fits env c r) : InfoOk I (process env c r).1 := by
  intro ip id e he
  rcases process_entry (env := env) hp r ip id with h' | ⟨ha, more, hm, ⟨info, hd, h1, h2, _, h'⟩ | ⟨_, hnd, h'⟩⟩
  · rw [h'] at he
    exact h ip id e he
  · rw [h'] at he
    cases he
    have := hr info hd
    rwa [h1, h2] at this
  · rcases hf ip id ha with hk | ⟨i, hi⟩
    · cases hc : c.entry ip id with
      | none => exact absurd hc hk
      | some e0 =>
        rw [h', hc] at he
        cases he
        exact h ip id e0 hc
    · exact absurd hi (hnd i)

theorem same_of_infoOk {env : Env X P L C} {I : A → UInt32 → SubInfo A X} {c : PeerCache A X P C} (h : InfoOk I c) {r : Request A P} (hr : OfKind env I r)
    (info : SubInfo A X) (e : CachedSub A X P C) (hd : Describes env r info) (he : c.entry info.peer.ip info.id = some e) : e.info.same info = true :=
  (alike_iff _ _).mpr (alike_trans (h _ _ _ he) (alike_symm (hr info hd)))

/-- what holds of each step of a steady history -/
theorem steady_step {env : Env X P L C} {I : A → UInt32 → SubInfo A X} {es : List (Event A X P L)} {e : Event A X P L}
    (hs : ∀ ip id, SteadyFor env (es ++ [e]) ip id (I ip id)) (hi : InfoOk I (after env es)) :
    InfoOk I (after env (es ++ [e])) ∧ (∀ r, e = .packet r → OfKind env I r ∧ Fits env (after env es) r) ∧
    (∀ resp e', e = .response resp → (after env es).entry resp.info.peer.ip resp.info.id = some e' →
      InfoOk I ((after env es).set resp.info.peer.ip resp.info.id (.answered env resp)) ∧
      ∀ r ∈ e'.packets, OfKind env I r ∧ About env r resp.info.peer.ip resp.info.id) := by
  have hg := agrees_after env es
  have kind : ∀ r, .packet r ∈ es ++ [e] → OfKind env I r := by
    intro r hr i hd
    exact (hs _ _).1 r i hr hd rfl rfl
  rw [after_snoc]
  have p2 : ∀ r, e = .packet r → OfKind env I r ∧ Fits env (after env es) r := by
    rintro r rfl
    refine ⟨kind r (List.mem_append_right _ (List.mem_singleton.mpr rfl)), ?_⟩
    intro ip id ha
    by_cases hc : (after env es).entry ip id = none
    · right
      refine (hs ip id).2.2 es r [] rfl ha ?_
      intro r' hr' ha'
      exact known_after env es ip id r' hr' ha' hc
    · exact .inl hc
  have p3 : ∀ resp e', e = .response resp → (after env es).entry resp.info.peer.ip resp.info.id = some e' →
      InfoOk I ((after env es).set resp.info.peer.ip resp.info.id (.answered env resp)) ∧
      ∀ r ∈ e'.packets, OfKind env I r ∧ About env r resp.info.peer.ip resp.info.id := by
    rintro resp e' rfl hc
    refine ⟨?_, fun r hr => ⟨kind r (List.mem_append_left _ (hg.packets _ _ _ hc r hr).2), (hg.packets _ _ _ hc r hr).1⟩⟩
    intro ip id e0 he0
    rw [entry_set] at he0
    split at he0
    · rename_i hk
      cases he0
      exact (hs ip id).2.1 resp (List.mem_append_right _ (List.mem_singleton.mpr rfl)) hk
    · exact hi ip id e0 he0
  refine ⟨?_, p2, p3⟩
  cases e with
  | packet r => exact infoOk_process hg.placed hi (p2 r rfl).1 (p2 r rfl).2
  | response resp =>
    simp only [step, respond]
    cases hc : (after env es).entry resp.info.peer.ip resp.info.id with
    | none => exact hi
    | some e' =>
      obtain ⟨h1, h2⟩ := p3 resp e' rfl hc
      refine (processAll_induct (env := env) (Q := fun c => Placed c ∧ InfoOk I c ∧ c.entry resp.info.peer.ip resp.info.id ≠ none)
        (R := fun r => OfKind env I r ∧ About env r resp.info.peer.ip resp.info.id) ?_ e'.packets _ ?_ h2).1.2.1
      · intro c r hq hr
        refine ⟨process_placed hq.1 r, infoOk_process hq.1 hq.2.1 hr.1 ?_, process_keeps hq.1 r hq.2.2⟩
        intro ip id ha
        obtain ⟨rfl, rfl⟩ := about_unique hr.2 ha
        exact .inl hq.2.2
      · exact ⟨placed_set hg.placed ⟨rfl, rfl⟩, h1, by rw [entry_set, if_pos ⟨rfl, rfl⟩]; simp⟩

theorem steady_infoOk {env : Env X P L C} {I : A → UInt32 → SubInfo A X} {es : List (Event A X P L)} (hs : ∀ ip id, SteadyFor env es ip id (I ip id)) :
    InfoOk I (after env es) := by
  induction es using snoc_induction with
  | nil => intro _ _ _ h; cases h
  | append_singleton es e ih => exact (steady_step hs (ih fun ip id => steady_prefix (hs ip id))).1

/-- nothing is lost of packets that are held -/
theorem told_processAll_eq {env : Env X P L C} (q : Decoded X → Bool) {I : A → UInt32 → SubInfo A X} {ip : A} {id : UInt32} (rs : List (Request A P)) :
    ∀ {c : PeerCache A X P C}, Placed c → Uniq c → InfoOk I c → c.entry ip id ≠ none → (∀ r ∈ rs, OfKind env I r ∧ About env r ip id) →
    told env q (processAll env c rs).2 + weighAll (hits env q) (processAll env c rs).1 = weighAll (hits env q) c + (rs.map (hit env q)).sum := by
  induction rs with
  | nil => intro c _ _ _ _ _; simp [processAll, told, forwarded, reported]
  | cons r rs ih =>
    intro c hp hu hi hn hr
    have hr1 := hr r (List.mem_cons_self ..)
    have h1 := (told_process (env := env) q hp r).2 hu (same_of_infoOk hi hr1.1)
    have h2 := ih (process_placed (env := env) hp r) (uniq_process env hu r) (infoOk_process hp hi hr1.1 (by
      intro ip' id' ha
      obtain ⟨rfl, rfl⟩ := about_unique hr1.2 ha
      exact .inl hn)) (process_keeps hp r hn) fun r' hr' => hr r' (List.mem_cons_of_mem _ hr')
    simp only [processAll, told_append, List.map_cons, List.sum_cons]
    omega

theorem told_steady {env : Env X P L C} (q : Decoded X → Bool) {I : A → UInt32 → SubInfo A X} {es : List (Event A X P L)}
    (hs : ∀ ip id, SteadyFor env es ip id (I ip id)) : told env q (sent env es) + weighAll (hits env q) (after env es) = (received env es).countP q := by
  induction es using snoc_induction with
  | nil => simp [sent, after, validationRun, told, forwarded, reported, weighAll, weigh_nil, received]
  | append_singleton es e ih =>
    have hs' : ∀ ip id, SteadyFor env es ip id (I ip id) := fun ip id => steady_prefix (hs ip id)
    have ih := ih hs'
    have hi := steady_infoOk hs'
    obtain ⟨_, h2, h3⟩ := steady_step hs hi
    have hp := (agrees_after env es).placed
    have hu := uniq_after env es
    have h : told env q (step env (after env es) e).2 + weighAll (hits env q) (step env (after env es) e).1 =
        weighAll (hits env q) (after env es) + (received env [e]).countP q := by
      cases e with
      | packet r =>
        have := (told_process (env := env) q hp r).2 hu (same_of_infoOk hi (h2 r rfl).1)
        simpa [received, hit, step] using this
      | response resp =>
        simp only [step, respond, received, List.countP_nil]
        cases hc : (after env es).entry resp.info.peer.ip resp.info.id with
        | none => simp [told, forwarded, reported]
        | some e =>
          have g1 := weighAll_set (hits env q) (after env es) resp.info.peer.ip resp.info.id (.answered env resp)
          obtain ⟨g2, g3⟩ := h3 resp e rfl hc
          have g4 := told_processAll_eq (env := env) q e.packets (placed_set (e := .answered env resp) hp (ip := resp.info.peer.ip) (id := resp.info.id) ⟨rfl, rfl⟩) (Uniq.put hu _ _) g2
            (by rw [entry_set, if_pos ⟨rfl, rfl⟩]; simp) g3
          rw [hc] at g1
          simp only [wopt, Option.map_some, Option.getD_some] at g1
          have g5 : hits env q (CachedSub.answered env resp : CachedSub A X P C) = 0 := rfl
          have g6 : hits env q e = (e.packets.map (hit env q)).sum := rfl
          simp only at g4 ⊢
          omega
    rw [sent_snoc, after_snoc, told_append, received_append, List.countP_append]
    unfold sentWith
    omega

/-! ## Lookups -/

theorem lookups_verdict (env : Env X P L C) (e : CachedSub A X P C) (info : SubInfo A X) (d : Decoded X) (r : Request A P) (ip : A) (id : UInt32) :
    (verdict env e info d r).countP (·.looksUp ip id) = 0 := by
  rcases verdict_cases env e info d r with ⟨hv, _⟩ | ⟨_, _, _, _, _, ⟨_, hv⟩ | ⟨_, hv⟩⟩ <;> rw [hv] <;> rfl

theorem lookups_cachePacket (env : Env X P L C) (c : PeerCache A X P C) (info : SubInfo A X) (r : Request A P) (ip : A) (id : UInt32) :
    (cachePacket env c info r).2.countP (·.looksUp ip id) = 0 := by
  rcases cachePacket_outs env c info r with hc | ⟨reason, hc⟩ <;> rw [hc] <;> rfl

theorem lookups_process {env : Env X P L C} {c : PeerCache A X P C} {r : Request A P} (hn : ¬ Nameless env r)
    (hs : ∀ info e, Describes env r info → c.entry info.peer.ip info.id = some e → e.info.same info = true) (ip : A) (id : UInt32) :
    (process env c r).2.countP (·.looksUp ip id) ≤ 1 ∧ (c.entry ip id ≠ none ∨ ¬ About env r ip id → (process env c r).2.countP (·.looksUp ip id) = 0) := by
  have ht := turn env c r
  generalize (process env c r).1 = c', (process env c r).2 = outs at ht
  cases ht with
  | undecodable => exact ⟨by simp [Output.looksUp], fun _ => rfl⟩
  | noSubscription => exact ⟨by simp [Output.looksUp], fun _ => rfl⟩
  | known => rw [lookups_verdict]; exact ⟨by omega, fun _ => rfl⟩
  | @new d k s info hd hk hst hb he =>
    rw [List.countP_cons, lookups_cachePacket]
    refine ⟨by split <;> omega, ?_⟩
    intro h
    rw [if_neg]
    intro hl
    simp only [Output.looksUp, decide_eq_true_eq] at hl
    have hdesc := describes_iff.mpr ⟨s, begins_iff.mpr ⟨d, k, hd, hk, hst⟩, hb⟩
    have hid : info.id = k.id := by rw [(buildInfo_some hb).2.1, starts_id hst]
    have hpeer : info.peer = r.peer := (buildInfo_some hb).2.2
    rcases h with h | h
    · cases hc : c.entry ip id with
      | none => exact h hc
      | some e =>
        have h1 := hs info e hdesc (by rw [hl.1, hl.2]; exact hc)
        rw [he e (by rw [← hpeer, hl.1, ← hid, hl.2]; exact hc)] at h1
        cases h1
    · exact h (by rw [← hl.1, ← hl.2]; exact describes_about hdesc)
  | other => rw [lookups_verdict]; exact ⟨by omega, fun _ => rfl⟩
  | @unknown d k hd hk hst =>
    rw [List.countP_cons, lookups_cachePacket]
    refine ⟨by split <;> omega, ?_⟩
    intro h
    rw [if_neg]
    intro hl
    simp only [Output.looksUp, decide_eq_true_eq] at hl
    rcases hst with ⟨s, hst, hm⟩ | ⟨_, hno⟩
    · exact hn ⟨s, begins_iff.mpr ⟨d, k, hd, hk, hst⟩, hm⟩
    · rcases h with h | h
      · exact h (by rw [← hl.1, ← hl.2]; exact hno)
      · exact h ⟨hl.1, d, k, hd, hk, hl.2⟩

theorem lookups_processAll {env : Env X P L C} {I : A → UInt32 → SubInfo A X} {ip : A} {id : UInt32} (ip' : A) (id' : UInt32) (rs : List (Request A P)) :
    ∀ {c : PeerCache A X P C}, Placed c → InfoOk I c → c.entry ip id ≠ none → (∀ r ∈ rs, OfKind env I r ∧ About env r ip id) → (∀ r ∈ rs, ¬ Nameless env r) →
    (processAll env c rs).2.countP (·.looksUp ip' id') = 0 := by
  induction rs with
  | nil => intro c _ _ _ _ _; rfl
  | cons r rs ih =>
    intro c hp hi hn hr hnn
    have hr1 := hr r (List.mem_cons_self ..)
    have h1 := (lookups_process (hnn r (List.mem_cons_self ..)) (same_of_infoOk hi hr1.1) ip' id').2 (by
      by_cases ha : About env r ip' id'
      · obtain ⟨rfl, rfl⟩ := about_unique hr1.2 ha
        exact .inl hn
      · exact .inr ha)
    have h2 := ih (process_placed (env := env) hp r) (infoOk_process hp hi hr1.1 (by
      intro ip' id' ha
      obtain ⟨rfl, rfl⟩ := about_unique hr1.2 ha
      exact .inl hn)) (process_keeps hp r hn) (fun r' hr' => hr r' (List.mem_cons_of_mem _ hr')) (fun r' hr' => hnn r' (List.mem_cons_of_mem _ hr'))
    simp only [processAll, List.countP_append]
    omega

theorem lookups_steady {env : Env X P L C} {I : A → UInt32 → SubInfo A X} {es : List (Event A X P L)} (hs : ∀ ip id, SteadyFor env es ip id (I ip id))
    (hn : ∀ r, .packet r ∈ es → ¬ Nameless env r) (ip : A) (id : UInt32) :
    (sent env es).countP (·.looksUp ip id) ≤ 1 ∧ ((after env es).entry ip id = none → (sent env es).countP (·.looksUp ip id) = 0) := by
  induction es using snoc_induction with
  | nil => exact ⟨Nat.zero_le _, fun _ => rfl⟩
  | append_singleton es e ih =>
    have hs' : ∀ ip id, SteadyFor env es ip id (I ip id) := fun ip id => steady_prefix (hs ip id)
    obtain ⟨ih1, ih2⟩ := ih hs' fun r hr => hn r (List.mem_append_left _ hr)
    have hi := steady_infoOk hs'
    obtain ⟨_, h2, h3⟩ := steady_step hs hi
    have hg := agrees_after env es
    rw [sent_snoc, List.countP_append, after_snoc]
    unfold sentWith
    cases e with
    | packet r =>
      have hr : ¬ Nameless env r := hn r (List.mem_append_right _ (List.mem_singleton.mpr rfl))
      obtain ⟨g1, g2⟩ := lookups_process hr (same_of_infoOk hi (h2 r rfl).1) ip id
      simp only [step]
      by_cases hc : (after env es).entry ip id = none
      · have := ih2 hc
        refine ⟨by omega, ?_⟩
        intro hc'
        have := g2 (.inr fun ha => process_about hg.placed ha hc')
        omega
      · have := g2 (.inl hc)
        exact ⟨by omega, fun h => absurd h (process_keeps hg.placed r hc)⟩
    | response resp =>
      simp only [step, respond]
      cases hc : (after env es).entry resp.info.peer.ip resp.info.id with
      | none => exact ⟨ih1, ih2⟩
      | some e =>
        obtain ⟨g2, g3⟩ := h3 resp e rfl hc
        have hp' := placed_set (e := .answered env resp) hg.placed (ip := resp.info.peer.ip) (id := resp.info.id) ⟨rfl, rfl⟩
        have g4 := lookups_processAll ip id e.packets hp' g2 (by rw [entry_set, if_pos ⟨rfl, rfl⟩]; simp) g3
          (fun r hr => hn r (List.mem_append_left _ (hg.packets _ _ _ hc r hr).2))
        simp only at g4 ⊢
        refine ⟨by omega, ?_⟩
        intro hn'
        have : (after env es).entry ip id = none := by
          cases hx : (after env es).entry ip id with
          | none => rfl
          | some e0 =>
            have := step_keeps (env := env) hg.placed (.response resp) (ip := ip) (id := id) (by rw [hx]; simp)
            simp only [step, respond, hc] at this
            exact absurd hn' this
        have := ih2 this
        omega

end Verif.YangPush.Notif
