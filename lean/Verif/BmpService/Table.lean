import Verif.BmpService.Delivery

/-! The table of connections, and what a connection depends on -/

namespace Verif.BmpService
open Verif Verif.Collector Verif.Service

variable {π : Type} {hash : Addr → Nat}

/-! ## A task that has ended -/

theorem change_stopped {t : Nat} {subs subs' : Subs} {k k' : Task π} {out : List (Effect π)} (h : Change hash t subs subs' k k' out)
    (hk : k.running = false) : k'.running = false ∧ out = [] := by
  cases h with
  | same => exact ⟨hk, rfl⟩
  | told => exact ⟨by rw [tell_running]; exact hk, rfl⟩
  | stop => exact ⟨rfl, rfl⟩
  | caught => exact ⟨hk, rfl⟩
  | updated => exact ⟨hk, rfl⟩
  | took _ _ h => rw [hk] at h; cases h
  | sent _ _ _ _ _ _ _ h => rw [hk] at h; cases h

/-- nothing is seen of a connection that has ended -/
theorem run_stopped {t : Nat} (es : List (Event π)) {a : Actor π} {k : Task π} (ht : a.tasks[t]? = some k) (hk : k.running = false) :
    (a.run hash es).2.filter (Effect.of t) = [] := by
  induction es generalizing a k with
  | nil => rfl
  | cons e es ih =>
    obtain ⟨k1, h1, h2⟩ := step_task (hash := hash) a e ht
    obtain ⟨h3, h4⟩ := change_stopped h2 hk
    rw [run_cons]
    dsimp only
    rw [List.filter_append, h4, ih h1 h3]
    rfl

theorem change_running {t : Nat} {subs subs' : Subs} {k k' : Task π} {out : List (Effect π)} (h : Change hash t subs subs' k k' out)
    (hk : k'.running = true) : k.running = true := by
  cases hr : k.running with
  | true => rfl
  | false => rw [(change_stopped h hr).1] at hk; cases hk

/-! ## The table -/

/-- an entry of the table is only touched by what concerns its peer -/
theorem step_table (a : Actor π) (e : Event π) (q : Addr) (hs : e ≠ .command .shutdown) (hd : e ≠ .command (.disconnect q)) (ha : e ≠ .accept q)
    (hn : e = .notice → a.notices.head? ≠ some q) : (a.step hash e).1.table.look q = a.table.look q := by
  have task : (∃ u, (e = .update u ∨ (∃ m, e = .message u m) ∨ (∃ how, e = .send u how) ∨ e = .malformed u ∨ e = .eof u)) →
      (a.step hash e).1.table.look q = a.table.look q := fun h => by rw [(task_step_keeps (hash := hash) a e h).2.2.2]
  cases e with
  | command c =>
    simp only [Actor.step]
    split
    · rfl
    · cases c with
      | shutdown => exact absurd rfl hs
      | subscribe => rfl
      | unsubscribe => rfl
      | disconnect p =>
        simp only [Actor.handle]
        split
        · dsimp only
          rw [lookup_del, if_neg]
          intro h; rw [h] at hd; exact hd rfl
        · rfl
      | localAddr => rfl
      | peers => rfl
  | noCommands => simp only [Actor.step]; split <;> rfl
  | notice =>
    simp only [Actor.step]
    split
    · rfl
    · unfold Actor.notice
      split
      · rfl
      next p rest hp =>
        split
        · dsimp only
          rw [lookup_del, if_neg]
          intro h; rw [h] at hp; exact hn rfl (by rw [hp]; rfl)
        · rfl
  | accept p =>
    simp only [Actor.step]
    split
    · rfl
    · have hp : p ≠ q := fun h => by rw [h] at ha; exact ha rfl
      unfold Actor.accept
      dsimp only
      rw [lookup_put, if_neg hp]
      split
      · dsimp only; rw [lookup_del, if_neg hp]
      · rfl
  | acceptFailed => rfl
  | update u => exact task ⟨u, .inl rfl⟩
  | message u m => exact task ⟨u, .inr (.inl ⟨m, rfl⟩)⟩
  | send u how => exact task ⟨u, .inr (.inr (.inl ⟨how, rfl⟩))⟩
  | malformed u => exact task ⟨u, .inr (.inr (.inr (.inl rfl)))⟩
  | eof u => exact task ⟨u, .inr (.inr (.inr (.inr rfl)))⟩

/-- an entry of the table comes from before, or is that of the connection taken -/
theorem step_entry (a : Actor π) (e : Event π) {q : Addr} {t : Nat} (h : (a.step hash e).1.table.look q = some t) :
    a.table.look q = some t ∨ (a.taking e = some q ∧ t = a.tasks.length) := by
  by_cases hs : e = .command .shutdown
  · subst hs
    simp only [Actor.step] at h
    split at h
    · exact .inl h
    · simp [Actor.handle, List.look] at h
  by_cases hd : e = .command (.disconnect q)
  · subst hd
    simp only [Actor.step] at h
    split at h
    · exact .inl h
    · simp only [Actor.handle] at h
      split at h
      · dsimp only at h
        rw [lookup_del, if_pos rfl] at h
        cases h
      · exact .inl h
  by_cases ha : e = .accept q
  · subst ha
    simp only [Actor.step] at h
    split at h
    · exact .inl h
    next ho =>
      refine .inr ⟨by simp [Actor.taking, Event.accepts, ho], ?_⟩
      unfold Actor.accept at h
      dsimp only at h
      rw [lookup_put, if_pos rfl] at h
      rw [← Option.some.inj h]
      split
      · exact abort_length ..
      · rfl
  by_cases hn : e = .notice ∧ a.notices.head? = some q
  · obtain ⟨rfl, hn⟩ := hn
    simp only [Actor.step] at h
    split at h
    · exact .inl h
    · unfold Actor.notice at h
      split at h
      · exact .inl h
      next p rest hp =>
        split at h
        · dsimp only at h
          rw [lookup_del] at h
          split at h
          · cases h
          · exact .inl h
        · exact .inl h
  · rw [step_table a e q hs hd ha fun he hx => hn ⟨he, hx⟩] at h
    exact .inl h

theorem update_notices (a : Actor π) (u : Nat) (k : Task π) (p : Addr) (h : p ∈ (a.update u k).notices) :
    p ∈ a.notices ∨ (p = k.peer ∧ a.update u k = a.finish u k) := by
  unfold Actor.update at *
  split at h
  · exact .inl h
  next hl =>
    split at h
    · exact .inl h
    next hp =>
      split at h
      next ho =>
        unfold Actor.finish at h
        dsimp only at h
        rw [if_pos ho] at h
        exact .inl h
      · exact .inl h

theorem finish_notices (a : Actor π) (u : Nat) (k : Task π) (p : Addr) (h : p ∈ (a.finish u k).notices) : p ∈ a.notices ∨ p = k.peer := by
  unfold Actor.finish at h
  dsimp only at h
  split at h
  · exact .inl h
  · split at h
    · simpa using h
    · exact .inl h

/-- a notice comes from before, or from a task that has ended -/
theorem step_notices (a : Actor π) (e : Event π) {p : Addr} (h : p ∈ (a.step hash e).1.notices) :
    p ∈ a.notices ∨ ∃ (t : Nat) (k k' : Task π), a.tasks[t]? = some k ∧ k.peer = p ∧ (a.step hash e).1.tasks[t]? = some k' ∧ k'.running = false := by
  have hfin : ∀ (b : Actor π) (u : Nat) (k : Task π), b.tasks = a.tasks → b.notices = a.notices → a.tasks[u]? = some k →
      p ∈ (b.finish u k).notices →
      p ∈ a.notices ∨ ∃ (t : Nat) (x x' : Task π), a.tasks[t]? = some x ∧ x.peer = p ∧ (b.finish u k).tasks[t]? = some x' ∧ x'.running = false := by
    intro b u k hb hbn hu hp
    rcases finish_notices b u k p hp with hp | hp
    · rw [hbn] at hp; exact .inl hp
    · refine .inr ⟨u, k, { k with running := false }, hu, hp.symm, ?_, rfl⟩
      rw [finish_get, hb, set_get _ hu hu, if_pos rfl]
  cases e with
  | command c =>
    simp only [Actor.step] at h ⊢
    split at h
    · exact .inl h
    · cases c with
      | disconnect q =>
        simp only [Actor.handle] at h
        split at h <;> exact .inl h
      | _ => exact .inl h
  | noCommands => simp only [Actor.step] at h; split at h <;> exact .inl h
  | notice =>
    simp only [Actor.step] at h
    split at h
    · exact .inl h
    · unfold Actor.notice at h
      split at h
      · exact .inl h
      next q rest hq =>
        refine .inl ?_
        rw [hq]
        split at h <;> exact List.mem_cons_of_mem _ h
  | accept q =>
    simp only [Actor.step] at h
    split at h
    · exact .inl h
    · unfold Actor.accept at h
      dsimp only at h
      split at h <;> exact .inl h
  | acceptFailed => exact .inl h
  | update u =>
    simp only [Actor.step, Actor.idle] at h ⊢
    split at h
    next k hk =>
      split at h
      next hi =>
        simp only [if_pos hi]
        rcases update_notices a u k p h with h1 | ⟨h1, h2⟩
        · exact .inl h1
        · dsimp only at h ⊢
          rw [h2] at h ⊢
          exact hfin a u k rfl rfl hk h
      · exact .inl h
    · exact .inl h
  | message u m =>
    simp only [Actor.step, Actor.idle] at h
    split at h
    · split at h <;> exact .inl h
    · exact .inl h
  | send u how =>
    simp only [Actor.step] at h
    refine .inl ?_
    split at h
    · split at h
      · unfold Actor.send at h
        split at h
        · exact h
        · split at h
          · exact h
          · dsimp only at h
            split at h <;> exact h
      · exact h
    · exact h
  | malformed u =>
    simp only [Actor.step, Actor.idle] at h ⊢
    split at h
    next k hk =>
      split at h
      next hi =>
        simp only [if_pos hi]
        exact hfin { a with malformed := a.malformed + 1 } u k rfl rfl hk h
      · exact .inl h
    · exact .inl h
  | eof u =>
    simp only [Actor.step, Actor.idle] at h ⊢
    split at h
    next k hk =>
      split at h
      next hi =>
        simp only [if_pos hi]
        exact hfin a u k rfl rfl hk h
      · exact .inl h
    · exact .inl h

/-- the state when no peer has come back: `seen` has the peers so far -/
structure Tracked (a : Actor π) (seen : List Addr) : Prop where
  known : ∀ (t : Nat) (k : Task π), a.tasks[t]? = some k → k.peer ∈ seen
  once : ∀ (t u : Nat) (k x : Task π), a.tasks[t]? = some k → a.tasks[u]? = some x → k.peer = x.peer → t = u
  entry : ∀ (p : Addr) (t : Nat), a.table.look p = some t → ∃ k, a.tasks[t]? = some k ∧ k.peer = p
  listed : a.over = false → ∀ (t : Nat) (k : Task π), a.tasks[t]? = some k → k.running = true → a.table.look k.peer = some t
  noticed : ∀ p ∈ a.notices, p ∈ seen
  ended : ∀ p ∈ a.notices, ∀ (t : Nat) (k : Task π), a.tasks[t]? = some k → k.peer = p → k.running = false

theorem tracked_new (i : Nat) (ad : Addr) : Tracked (Actor.new i ad : Actor π) [] where
  known _ _ h := by cases h
  once _ _ _ _ h := by cases h
  entry _ _ h := by cases h
  listed _ _ _ h := by cases h
  noticed _ h := by cases h
  ended _ h := by cases h

theorem step_tracked {a : Actor π} {e : Event π} {seen : List Addr} (h : Tracked a seen) (hf : ∀ p, e.accepts = some p → p ∉ seen) :
    Tracked (a.step hash e).1 (seen ++ e.accepts.toList) := by
  have taken : ∀ p, a.taking e = some p → e.accepts = some p := by
    intro p hp
    unfold Actor.taking at hp
    split at hp
    · cases hp
    · exact hp
  have newp : ∀ p, a.taking e = some p → p ∉ seen := fun p hp => hf p (taken p hp)
  refine ⟨?_, ?_, ?_, ?_, ?_, ?_⟩
  · intro t k' hk'
    rcases step_task_inv a e hk' with ⟨k, hk, hc⟩ | ⟨p, hp, _, rfl, _, _⟩
    · rw [change_peer hc]
      exact List.mem_append_left _ (h.known t k hk)
    · rw [taken p hp]
      exact List.mem_append_right _ (List.mem_singleton.2 rfl)
  · intro t u k' x' hk' hx' hp
    rcases step_task_inv a e hk' with ⟨k, hk, hc⟩ | ⟨p, hp1, ht, rfl, _, _⟩
    · rcases step_task_inv a e hx' with ⟨x, hx, hd⟩ | ⟨q, hq, hu, rfl, _, _⟩
      · rw [change_peer hc, change_peer hd] at hp
        exact h.once t u k x hk hx hp
      · rw [change_peer hc] at hp
        exact absurd ((show k.peer = q from hp) ▸ h.known t k hk) (newp q hq)
    · rcases step_task_inv a e hx' with ⟨x, hx, hd⟩ | ⟨q, hq, hu, rfl, _, _⟩
      · rw [change_peer hd] at hp
        exact absurd ((show p = x.peer from hp) ▸ h.known u x hx) (newp p hp1)
      · rw [ht, hu]
  · intro p t hp
    rcases step_entry a e hp with h1 | ⟨h1, h2⟩
    · obtain ⟨k, hk, hkp⟩ := h.entry p t h1
      obtain ⟨k', hk', hc⟩ := step_task (hash := hash) a e hk
      exact ⟨k', hk', by rw [change_peer hc, hkp]⟩
    · have hl : t < (a.step hash e).1.tasks.length := by rw [step_length, h1, h2]; simp
      refine ⟨_, List.getElem?_eq_getElem hl, ?_⟩
      rcases step_task_inv a e (List.getElem?_eq_getElem hl) with ⟨k, hk, _⟩ | ⟨q, hq, _, hk, _, _⟩
      · rw [List.getElem?_eq_none (by omega)] at hk; cases hk
      · rw [hk]
        rw [h1] at hq
        exact (Option.some.inj hq).symm
  · intro ho t k' hk' hr
    have ho0 : a.over = false ∧ e.ends = false := by
      rw [(step_subs (hash := hash) a e).2.2] at ho
      simpa using ho
    rcases step_task_inv a e hk' with ⟨k, hk, hc⟩ | ⟨p, hp1, ht, rfl, _, _⟩
    · have hkr := change_running hc hr
      have hl := h.listed ho0.1 t k hk hkr
      rw [change_peer hc]
      rw [step_table a e k.peer ?_ ?_ ?_ ?_]
      · exact hl
      · rintro rfl; cases ho0.2
      · intro he
        subst he
        have : (a.step hash (.command (.disconnect k.peer))).1.tasks = abort a.tasks t := by
          simp only [Actor.step, ho0.1, Actor.handle, hl, Bool.false_eq_true, if_false]
        rw [this, abort_get, if_pos rfl, hk] at hk'
        rw [← Option.some.inj hk'] at hr
        cases hr
      · intro he
        exact hf k.peer (by rw [he]; rfl) (h.known t k hk)
      · intro he hn
        rcases hnl : a.notices with _ | ⟨q, rest⟩
        · rw [hnl] at hn; cases hn
        · rw [hnl] at hn
          obtain rfl : q = k.peer := Option.some.inj hn
          have := h.ended k.peer (by rw [hnl]; exact List.mem_cons_self ..) t k hk rfl
          rw [hkr] at this
          cases this
    · have he := taken p hp1
      obtain rfl : e = .accept p := by cases e <;> simp_all [Event.accepts]
      simp only [Actor.step, ho0.1, Bool.false_eq_true, if_false, Task.fresh]
      unfold Actor.accept
      dsimp only
      rw [lookup_put, if_pos rfl, ht]
      split
      · dsimp only; rw [abort_length]
      · rfl
  · intro p hp
    rcases step_notices a e hp with h1 | ⟨u, x, x', h1, h2, h3, h4⟩
    · exact List.mem_append_left _ (h.noticed p h1)
    · rw [← h2]; exact List.mem_append_left _ (h.known u x h1)
  · intro p hp t k' hk' hkp
    rcases step_task_inv a e hk' with ⟨k, hk, hc⟩ | ⟨q, hq, ht, rfl, _, _⟩
    · rw [change_peer hc] at hkp
      rcases step_notices a e hp with h1 | ⟨u, x, x', h1, h2, h3, h4⟩
      · exact (change_stopped hc (h.ended p h1 t k hk hkp)).1
      · have := h.once t u k x hk h1 (hkp.trans h2.symm)
        subst this
        rw [h3] at hk'
        obtain rfl := Option.some.inj hk'
        exact h4
    · rcases step_notices a e hp with h1 | ⟨u, x, x', h1, h2, h3, h4⟩
      · exact absurd ((show q = p from hkp) ▸ h.noticed p h1) (newp q hq)
      · exact absurd ((show q = x.peer from hkp.trans h2.symm) ▸ h.known u x h1) (newp q hq)

theorem run_tracked {a : Actor π} {seen : List Addr} (es : List (Event π)) (h : Tracked a seen) (hf : (seen ++ connections es).Nodup) :
    Tracked (a.run hash es).1 (seen ++ connections es) := by
  induction es generalizing a seen with
  | nil => simpa [connections, Actor.run] using h
  | cons e es ih =>
    have hc : connections (e :: es) = e.accepts.toList ++ connections es := by
      unfold connections
      rw [List.filterMap_cons]
      cases e.accepts <;> rfl
    rw [hc, ← List.append_assoc] at hf ⊢
    rw [run_cons]
    refine ih (step_tracked h fun p hp hm => ?_) hf
    rw [hp] at hf
    have := (List.nodup_append.1 (List.nodup_append.1 hf).1).2.2 p hm p (by simp)
    exact this rfl

theorem tracked (i : Nat) (ad : Addr) {es : List (Event π)} (hf : Fresh es) : Tracked ((Actor.new i ad).run hash es).1 (connections es) := by
  simpa using run_tracked es (tracked_new i ad) (by rw [List.nil_append]; exact hf)

/-! ## What a connection depends on -/

/-- what an event does to a task, as a function of the task: `subs` are the subscribers after the event -/
def taskStep (hash : Addr → Nat) (t : Nat) (over : Bool) (subs : Subs) (k : Task π) : Event π → Task π × List (Effect π)
  | .command .shutdown => (if over then k else { k with running := false }, [])
  | .command (.subscribe _) | .command (.unsubscribe _) => (if over then k else k.tell subs, [])
  | .command (.disconnect p) => (if over = false ∧ k.peer = p then { k with running := false } else k, [])
  | .update u =>
    if u = t ∧ k.running ∧ k.todo.isEmpty then
      (if k.lagged then { k with lagged := false }
        else match k.pending with
          | s :: rest => { k with view := s, pending := rest }
          | [] => if over then { k with running := false } else k, [])
    else (k, [])
  | .message u m =>
    if u = t ∧ k.running ∧ k.todo.isEmpty then
      ({ k with todo := k.view.map fun e => (e.1, e.2, m) }, [.received t m])
    else (k, [])
  | .send u how =>
    if u = t ∧ k.running then
      match k.todo with
      | [] => (k, [])
      | (id, chans, m) :: rest =>
        match pick hash k.peer chans with
        | none => ({ k with running := false }, [])
        | some c => ({ k with todo := rest }, [.offer t id c k.peer m how])
    else (k, [])
  | .malformed u | .eof u =>
    if u = t ∧ k.running ∧ k.todo.isEmpty then ({ k with running := false }, []) else (k, [])
  | _ => (k, [])

theorem stopped_eq {k : Task π} (h : k.running = false) : { k with running := false } = k := by
  cases k; cases h; rfl

/-- a step is, for each task, a function of the task -/
theorem step_taskStep {a : Actor π} {seen : List Addr} (h : Tracked a seen) (e : Event π) (hf : ∀ p, e.accepts = some p → p ∉ seen)
    {t : Nat} {k : Task π} (ht : a.tasks[t]? = some k) :
    (a.step hash e).1.tasks[t]? = some (taskStep hash t a.over (a.subsAfter e) k e).1 ∧
      (a.step hash e).2.filter (Effect.of t) = (taskStep hash t a.over (a.subsAfter e) k e).2 := by
  have hfin : ∀ u : Nat, ∀ b : Actor π, b.tasks = a.tasks →
      ∀ x : Task π, a.tasks[u]? = some x → (b.finish u x).tasks[t]? = some (if u = t then { k with running := false } else k) := by
    intro u b hb x hx
    rw [finish_get, hb, set_get _ hx ht]
    by_cases hu : u = t
    · subst hu
      rw [if_pos rfl, if_pos rfl]
      obtain rfl := Option.some.inj (hx.symm.trans ht)
      rfl
    · rw [if_neg hu, if_neg hu]
  have hidle : ∀ (u : Nat) (f : Task π → Actor π × List (Effect π)) (y : Task π × List (Effect π)),
      (u = t → k.running = true → k.todo = [] → (f k).1.tasks[t]? = some y.1 ∧ (f k).2.filter (Effect.of t) = y.2) →
      (u ≠ t → ∀ x, a.tasks[u]? = some x → (f x).1.tasks[t]? = some k ∧ (f x).2.filter (Effect.of t) = []) →
      (a.idle u f).1.tasks[t]? = some (if u = t ∧ k.running ∧ k.todo.isEmpty then y else (k, [])).1 ∧
      (a.idle u f).2.filter (Effect.of t) = (if u = t ∧ k.running ∧ k.todo.isEmpty then y else (k, [])).2 := by
    intro u f y h1 h2
    unfold Actor.idle
    by_cases hu : u = t
    · subst hu
      rw [ht]
      dsimp only
      by_cases hc : k.running ∧ k.todo.isEmpty
      · rw [if_pos hc, if_pos ⟨rfl, hc⟩]
        exact h1 rfl hc.1 (List.isEmpty_iff.1 hc.2)
      · rw [if_neg hc, if_neg fun hh => hc hh.2]
        exact ⟨ht, rfl⟩
    · rw [if_neg fun hh => hu hh.1]
      split
      next x hx =>
        split
        · exact h2 hu x hx
        · exact ⟨ht, rfl⟩
      next => exact ⟨ht, rfl⟩
  cases e with
  | command c =>
    simp only [Actor.step, taskStep]
    cases ho : a.over with
    | true =>
      simp only [if_true]
      refine ⟨?_, ?_⟩ <;> cases c <;> simp [ht]
    | false =>
      simp only [Bool.false_eq_true, if_false]
      cases c with
      | shutdown =>
        simp only [Actor.handle]
        rw [aborts_get, ht]
        refine ⟨?_, rfl⟩
        split
        · rfl
        next hm =>
          refine congrArg some (stopped_eq ?_).symm
          cases hr : k.running with
          | false => rfl
          | true =>
            have := mem_of_lookup (h.listed ho t k ht hr)
            exact absurd (List.mem_map.2 ⟨_, this, rfl⟩) hm
      | subscribe l =>
        simp only [Actor.handle]
        rw [List.getElem?_map, ht]
        refine ⟨?_, rfl⟩
        simp [Actor.subsAfter, ho]
      | unsubscribe i =>
        simp only [Actor.handle]
        rw [List.getElem?_map, ht]
        refine ⟨?_, rfl⟩
        simp [Actor.subsAfter, ho]
      | disconnect p =>
        simp only [Actor.handle, true_and]
        split
        next u hu =>
          dsimp only
          obtain ⟨x, hx, hxp⟩ := h.entry p u hu
          rw [abort_get, ht]
          refine ⟨?_, rfl⟩
          by_cases hut : u = t
          · subst hut
            obtain rfl := Option.some.inj (hx.symm.trans ht)
            rw [if_pos rfl, if_pos hxp]
            rfl
          · rw [if_neg hut, if_neg fun hkp => hut (h.once u t x k hx ht (hxp.trans hkp.symm))]
        next hu =>
          refine ⟨?_, rfl⟩
          rw [ht]
          split
          next hkp =>
            refine congrArg some (stopped_eq ?_).symm
            cases hr : k.running with
            | false => rfl
            | true =>
              have := h.listed ho t k ht hr
              rw [hkp, hu] at this
              cases this
          next => rfl
      | localAddr => exact ⟨ht, rfl⟩
      | peers => exact ⟨ht, rfl⟩
  | noCommands =>
    simp only [Actor.step, taskStep]
    split <;> exact ⟨ht, rfl⟩
  | notice =>
    simp only [Actor.step, taskStep]
    split
    · exact ⟨ht, rfl⟩
    · unfold Actor.notice
      split
      · exact ⟨ht, rfl⟩
      · split <;> exact ⟨ht, rfl⟩
  | accept p =>
    simp only [Actor.step, taskStep]
    split
    · exact ⟨ht, rfl⟩
    · have hl : t < a.tasks.length := (List.getElem?_eq_some_iff.1 ht).1
      have hp : a.table.look p = none := by
        rcases hx : a.table.look p with _ | u
        · rfl
        · obtain ⟨x, hx, hxp⟩ := h.entry p u hx
          exact absurd (hxp ▸ h.known u x hx) (hf p rfl)
      unfold Actor.accept
      rw [hp]
      dsimp only
      rw [List.getElem?_append_left hl]
      exact ⟨ht, rfl⟩
  | acceptFailed => exact ⟨ht, rfl⟩
  | update u =>
    simp only [Actor.step, taskStep]
    refine hidle u _ _ ?_ ?_
    · rintro rfl hr he
      refine ⟨?_, rfl⟩
      unfold Actor.update
      dsimp only
      by_cases hl : k.lagged = true
      · rw [if_pos hl, if_pos hl]
        dsimp only
        rw [set_get _ ht ht, if_pos rfl]
      · rw [if_neg hl, if_neg hl]
        cases hp : k.pending with
        | cons s rest => dsimp only; rw [set_get _ ht ht, if_pos rfl]
        | nil =>
          dsimp only
          split
          · rw [hfin u a rfl k ht, if_pos rfl, hp]
          · exact ht
    · intro hu x hx
      refine ⟨?_, rfl⟩
      unfold Actor.update
      split
      · exact other_get _ hx ht hu
      · split
        · exact other_get _ hx ht hu
        · split
          · rw [hfin u a rfl x hx, if_neg hu]
          · exact ht
  | message u m =>
    simp only [Actor.step, taskStep]
    refine hidle u _ _ ?_ ?_
    · rintro rfl hr he
      refine ⟨?_, by simp [Effect.of]⟩
      dsimp only
      rw [set_get _ ht ht, if_pos rfl]
    · intro hu x hx
      exact ⟨other_get _ hx ht hu, of_received hu⟩
  | send u how =>
    simp only [Actor.step, taskStep]
    by_cases hu : u = t
    · subst hu
      rw [ht]
      dsimp only
      by_cases hr : k.running = true
      · rw [if_pos hr, if_pos ⟨rfl, hr⟩]
        unfold Actor.send
        cases htodo : k.todo with
        | nil => exact ⟨ht, rfl⟩
        | cons y rest =>
          obtain ⟨id, chans, m⟩ := y
          dsimp only
          cases hpick : pick hash k.peer chans with
          | none =>
            refine ⟨?_, rfl⟩
            dsimp only
            rw [set_get _ ht ht, if_pos rfl]
          | some c =>
            refine ⟨?_, by simp [Effect.of]⟩
            dsimp only
            split <;> (dsimp only; rw [set_get _ ht ht, if_pos rfl])
      · rw [if_neg hr, if_neg fun hh => hr hh.2]
        exact ⟨ht, rfl⟩
    · rw [if_neg fun hh => hu hh.1]
      split
      next x hx =>
        split
        · unfold Actor.send
          split
          · exact ⟨ht, rfl⟩
          · split
            · exact ⟨other_get _ hx ht hu, rfl⟩
            · refine ⟨?_, of_offer hu⟩
              dsimp only
              split <;> exact other_get _ hx ht hu
        · exact ⟨ht, rfl⟩
      next => exact ⟨ht, rfl⟩
  | malformed u =>
    simp only [Actor.step, taskStep]
    refine hidle u _ _ ?_ ?_
    · rintro rfl hr he
      exact ⟨by dsimp only; rw [hfin u { a with malformed := a.malformed + 1 } rfl k ht, if_pos rfl], rfl⟩
    · intro hu x hx
      exact ⟨by dsimp only; rw [hfin u { a with malformed := a.malformed + 1 } rfl x hx, if_neg hu], rfl⟩
  | eof u =>
    simp only [Actor.step, taskStep]
    refine hidle u _ _ ?_ ?_
    · rintro rfl hr he
      exact ⟨by dsimp only; rw [hfin u _ rfl k ht, if_pos rfl], rfl⟩
    · intro hu x hx
      exact ⟨by dsimp only; rw [hfin u _ rfl x hx, if_neg hu], rfl⟩

/-- two actors that a connection cannot tell apart -/
structure Alike (t : Nat) (a b : Actor π) : Prop where
  next : a.next = b.next
  subscribers : a.subscribers = b.subscribers
  over : a.over = b.over
  length : a.tasks.length = b.tasks.length
  task : a.tasks[t]? = b.tasks[t]?

theorem alike_subs {t : Nat} {a b : Actor π} (h : Alike t a b) (e : Event π) : a.subsAfter e = b.subsAfter e := by
  unfold Actor.subsAfter
  rw [h.over, h.subscribers, h.next]

theorem alike_step {t : Nat} {a b : Actor π} {seen : List Addr} (h : Alike t a b) (ha : Tracked a seen) (hb : Tracked b seen) (e : Event π)
    (hf : ∀ p, e.accepts = some p → p ∉ seen) :
    Alike t (a.step hash e).1 (b.step hash e).1 ∧
      (a.step hash e).2.filter (Effect.of t) = (b.step hash e).2.filter (Effect.of t) := by
  obtain ⟨a1, a2, a3⟩ := step_subs (hash := hash) a e
  obtain ⟨b1, b2, b3⟩ := step_subs (hash := hash) b e
  have hlen : (a.step hash e).1.tasks.length = (b.step hash e).1.tasks.length := by
    rw [step_length, step_length, h.length]
    unfold Actor.taking
    rw [h.over]
  have key : (a.step hash e).1.tasks[t]? = (b.step hash e).1.tasks[t]? ∧
      (a.step hash e).2.filter (Effect.of t) = (b.step hash e).2.filter (Effect.of t) := by
    rcases hk : a.tasks[t]? with _ | k
    · have hkb : b.tasks[t]? = none := by rw [← h.task, hk]
      refine ⟨?_, by rw [no_task hk, no_task hkb]⟩
      rcases hx : (a.step hash e).1.tasks[t]? with _ | x
      · rw [List.getElem?_eq_none]
        rw [← hlen]
        exact List.getElem?_eq_none_iff.1 hx
      · have hl : t < (b.step hash e).1.tasks.length := by
          rw [← hlen]; exact (List.getElem?_eq_some_iff.1 hx).1
        rw [List.getElem?_eq_getElem hl]
        rcases step_task_inv a e hx with ⟨k, h1, _⟩ | ⟨p, h1, _, h2, _⟩
        · rw [hk] at h1; cases h1
        · rcases step_task_inv b e (List.getElem?_eq_getElem hl) with ⟨k, h3, _⟩ | ⟨q, h3, _, h4, _⟩
          · rw [hkb] at h3; cases h3
          · rw [h2, h4, h.subscribers]
            unfold Actor.taking at h1 h3
            rw [h.over] at h1
            rw [h1] at h3
            rw [Option.some.inj h3]
    · have hkb : b.tasks[t]? = some k := by rw [← h.task, hk]
      obtain ⟨h1, h2⟩ := step_taskStep (hash := hash) ha e hf hk
      obtain ⟨h3, h4⟩ := step_taskStep (hash := hash) hb e hf hkb
      rw [h1, h2, h3, h4, h.over, alike_subs h]
      exact ⟨rfl, rfl⟩
  exact ⟨⟨by rw [a2, b2, h.next, h.over], by rw [a1, b1, alike_subs h], by rw [a3, b3, h.over], hlen, key.1⟩, key.2⟩

/-- an event that does not concern a connection -/
theorem alike_skip {t : Nat} {a b : Actor π} {seen : List Addr} (h : Alike t a b) (ha : Tracked a seen) {e : Event π}
    (he : e.concerns t = false) : Alike t (a.step hash e).1 b ∧ (a.step hash e).2.filter (Effect.of t) = [] ∧ e.accepts = none := by
  have hacc : e.accepts = none := by cases e <;> simp_all [Event.concerns, Event.accepts]
  obtain ⟨a1, a2, a3⟩ := step_subs (hash := hash) a e
  have hlen : (a.step hash e).1.tasks.length = a.tasks.length := by
    rw [step_length]
    unfold Actor.taking
    rw [hacc]
    split <;> rfl
  have hs : a.subsAfter e = a.subscribers := by
    unfold Actor.subsAfter
    split
    · rfl
    · cases e <;> simp_all [Event.concerns]
  have hn : (a.step hash e).1.next = a.next := by
    rw [a2, if_neg]
    intro hh
    cases e <;> simp_all [Event.concerns, Event.isSubscribe]
  have ho : (a.step hash e).1.over = a.over := by
    rw [a3]
    cases e <;> simp_all [Event.concerns, Event.ends]
  have key : (a.step hash e).1.tasks[t]? = a.tasks[t]? ∧ (a.step hash e).2.filter (Effect.of t) = [] := by
    rcases hk : a.tasks[t]? with _ | k
    · refine ⟨List.getElem?_eq_none ?_, no_task hk⟩
      rw [hlen]
      exact List.getElem?_eq_none_iff.1 hk
    · obtain ⟨h1, h2⟩ := step_taskStep (hash := hash) ha e (fun p hp => by rw [hacc] at hp; cases hp) hk
      have : taskStep hash t a.over (a.subsAfter e) k e = (k, []) := by
        cases e <;> simp_all [Event.concerns, taskStep]
      rw [h1, h2, this]
      exact ⟨rfl, rfl⟩
  exact ⟨⟨by rw [hn, h.next], by rw [a1, hs, h.subscribers], by rw [ho, h.over], by rw [hlen, h.length], by rw [key.1, h.task]⟩, key.2, hacc⟩

/-- what is seen of a connection depends on what concerns it only -/
theorem run_alike {t : Nat} (es : List (Event π)) {a b : Actor π} {seen : List Addr} (h : Alike t a b) (ha : Tracked a seen) (hb : Tracked b seen)
    (hf : (seen ++ connections es).Nodup) :
    (a.run hash es).2.filter (Effect.of t) = (b.run hash (es.filter (Event.concerns t))).2.filter (Effect.of t) := by
  induction es generalizing a b seen with
  | nil => rfl
  | cons e es ih =>
    have hc : connections (e :: es) = e.accepts.toList ++ connections es := by
      unfold connections
      rw [List.filterMap_cons]
      cases e.accepts <;> rfl
    rw [hc, ← List.append_assoc] at hf
    have hfe : ∀ p, e.accepts = some p → p ∉ seen := by
      intro p hp hm
      rw [hp] at hf
      exact (List.nodup_append.1 (List.nodup_append.1 hf).1).2.2 p hm p (by simp) rfl
    rw [run_cons, List.filter_cons]
    dsimp only
    rw [List.filter_append]
    by_cases he : e.concerns t = true
    · rw [if_pos he, run_cons]
      dsimp only
      obtain ⟨h1, h2⟩ := alike_step (hash := hash) h ha hb e hfe
      rw [List.filter_append, h2, ih h1 (step_tracked ha hfe) (step_tracked hb hfe) hf]
    · rw [if_neg he]
      obtain ⟨h1, h2, h3⟩ := alike_skip (hash := hash) h ha (by simpa using he)
      have ha' := step_tracked (hash := hash) ha hfe
      rw [h3] at hf ha'
      simp only [Option.toList_none, List.append_nil] at hf ha'
      rw [h2, ih h1 ha' hb hf]
      rfl

end Verif.BmpService
