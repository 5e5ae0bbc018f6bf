import Verif.BmpService.Spec

/-! What a step does to one task -/

namespace Verif.BmpService
open Verif Verif.Collector Verif.Service

variable {π : Type} {hash : Addr → Nat}

/-- what may happen to the task with place `t` in a step -/
inductive Change (hash : Addr → Nat) (t : Nat) (subs subs' : Subs) (k : Task π) : Task π → List (Effect π) → Prop
  | same : subs' = subs → Change hash t subs subs' k k []
  | told : Change hash t subs subs' k (k.tell subs') []
  | stop : subs' = subs → Change hash t subs subs' k { k with running := false } []
  | caught : subs' = subs → k.lagged = true → k.running = true → k.todo = [] → Change hash t subs subs' k { k with lagged := false } []
  | updated (s : Subs) (rest : List Subs) : subs' = subs → k.running = true → k.todo = [] → k.lagged = false → k.pending = s :: rest →
      Change hash t subs subs' k { k with view := s, pending := rest } []
  | took (m : π) : subs' = subs → k.running = true → k.todo = [] →
      Change hash t subs subs' k { k with todo := k.view.map fun e => (e.1, e.2, m) } [.received t m]
  | sent (id : UInt32) (chans : List Chan) (m : π) (rest : List (UInt32 × List Chan × π)) (c : Chan) (how : Sending) : subs' = subs →
      k.running = true → k.todo = (id, chans, m) :: rest → pick hash k.peer chans = some c →
      Change hash t subs subs' k { k with todo := rest } [.offer t id c k.peer m how]

theorem abort_get (ts : List (Task π)) (u t : Nat) :
    (abort ts u)[t]? = if u = t then ts[t]?.map (fun k => { k with running := false }) else ts[t]? := by
  unfold abort
  rw [List.getElem?_modify]
  by_cases h : u = t <;> simp [h]

theorem abort_length (ts : List (Task π)) (u : Nat) : (abort ts u).length = ts.length := by simp [abort]

theorem aborts_length (l : List (Addr × Nat)) (ts : List (Task π)) :
    (l.foldl (fun ts e => abort ts e.2) ts).length = ts.length := by
  induction l generalizing ts with
  | nil => rfl
  | cons x l ih => rw [List.foldl_cons, ih, abort_length]

theorem aborts_get (l : List (Addr × Nat)) (ts : List (Task π)) (t : Nat) :
    (l.foldl (fun ts e => abort ts e.2) ts)[t]? =
      if t ∈ l.map (·.2) then ts[t]?.map (fun k => { k with running := false }) else ts[t]? := by
  induction l generalizing ts with
  | nil => simp
  | cons x l ih =>
    rw [List.foldl_cons, ih, abort_get]
    by_cases h1 : x.2 = t
    · by_cases h2 : t ∈ l.map (·.2)
      · rw [if_pos h2, if_pos h1, if_pos (by simp [h2])]
        cases ts[t]? <;> rfl
      · rw [if_neg h2, if_pos h1, if_pos (by simp [h1])]
    · rw [if_neg h1]
      by_cases h2 : t ∈ l.map (·.2)
      · rw [if_pos h2, if_pos (by rw [List.map_cons]; exact List.mem_cons_of_mem _ h2)]
      · rw [if_neg h2, if_neg (by
          rw [List.map_cons, List.mem_cons]
          exact fun h => h.elim (fun h => h1 h.symm) h2)]

/-- what `finish` does to a task -/
theorem finish_get (a : Actor π) (u t : Nat) (k : Task π) :
    (a.finish u k).tasks[t]? = (a.tasks.set u { k with running := false })[t]? := by
  unfold Actor.finish
  dsimp only
  split
  · rfl
  · split <;> rfl

theorem finish_subs (a : Actor π) (u : Nat) (k : Task π) : (a.finish u k).subscribers = a.subscribers := by
  unfold Actor.finish
  dsimp only
  split
  · rfl
  · split <;> rfl

theorem set_get (ts : List (Task π)) {u t : Nat} {k x k' : Task π} (hu : ts[u]? = some k) (ht : ts[t]? = some x) :
    (ts.set u k')[t]? = some (if u = t then k' else x) := by
  rw [List.getElem?_set]
  by_cases h : u = t
  · subst h
    have hl : u < ts.length := (List.getElem?_eq_some_iff.1 hu).1
    simp [hl]
  · simp [h, ht]

/-- a step at a task other than `t` -/
theorem other_get (ts : List (Task π)) {u t : Nat} {k x k' : Task π} (hu : ts[u]? = some k) (ht : ts[t]? = some x) (h : u ≠ t) :
    (ts.set u k')[t]? = some x := by rw [set_get ts hu ht, if_neg h]

theorem of_received {u t : Nat} {m : π} (h : u ≠ t) : [Effect.received u m].filter (Effect.of t) = [] := by
  simp [Effect.of, h]

theorem of_offer {u t : Nat} {s : UInt32} {c : Chan} {p : Addr} {m : π} {how : Sending} (h : u ≠ t) :
    [Effect.offer u s c p m how].filter (Effect.of t) = [] := by
  simp [Effect.of, h]

theorem accept_get (a : Actor π) (p : Addr) {t : Nat} {k : Task π} (ht : a.tasks[t]? = some k) :
    ∃ k', (a.accept p).tasks[t]? = some k' ∧ (k' = k ∨ k' = { k with running := false }) := by
  have hl : t < a.tasks.length := (List.getElem?_eq_some_iff.1 ht).1
  unfold Actor.accept
  dsimp only
  split
  next u hu =>
    dsimp only
    rw [List.getElem?_append_left (by rw [abort_length]; exact hl), abort_get, ht]
    by_cases h : u = t
    · exact ⟨_, by simp [h], .inr rfl⟩
    · exact ⟨k, by simp [h], .inl rfl⟩
  next =>
    rw [List.getElem?_append_left hl]
    exact ⟨k, ht, .inl rfl⟩

theorem accept_subs (a : Actor π) (p : Addr) : (a.accept p).subscribers = a.subscribers := by
  unfold Actor.accept
  dsimp only
  split <;> rfl

/-- what a step does to a task -/
theorem step_task (a : Actor π) (e : Event π) {t : Nat} {k : Task π} (ht : a.tasks[t]? = some k) :
    ∃ k', (a.step hash e).1.tasks[t]? = some k' ∧
      Change hash t a.subscribers (a.step hash e).1.subscribers k k' ((a.step hash e).2.filter (Effect.of t)) := by
  cases e with
  | command c =>
    simp only [Actor.step]
    split
    · exact ⟨k, ht, .same rfl⟩
    · cases c with
      | shutdown =>
        simp only [Actor.handle]
        rw [aborts_get, ht]
        by_cases h : t ∈ a.table.map (·.2)
        · exact ⟨_, by simp only [if_pos h]; rfl, .stop rfl⟩
        · exact ⟨k, by simp only [if_neg h], .same rfl⟩
      | subscribe chans => exact ⟨_, by simp only [Actor.handle]; rw [List.getElem?_map, ht]; rfl, .told⟩
      | unsubscribe i => exact ⟨_, by simp only [Actor.handle]; rw [List.getElem?_map, ht]; rfl, .told⟩
      | disconnect p =>
        simp only [Actor.handle]
        split
        next u hu =>
          dsimp only
          rw [abort_get, ht]
          by_cases h : u = t
          · exact ⟨_, by simp only [if_pos h]; rfl, .stop rfl⟩
          · exact ⟨k, by simp only [if_neg h], .same rfl⟩
        next => exact ⟨k, ht, .same rfl⟩
      | localAddr => exact ⟨k, ht, .same rfl⟩
      | peers => exact ⟨k, ht, .same rfl⟩
  | noCommands =>
    simp only [Actor.step]
    split <;> exact ⟨k, ht, .same rfl⟩
  | notice =>
    simp only [Actor.step]
    split
    · exact ⟨k, ht, .same rfl⟩
    · unfold Actor.notice
      split
      · exact ⟨k, ht, .same rfl⟩
      · split <;> exact ⟨k, ht, .same rfl⟩
  | accept p =>
    simp only [Actor.step]
    split
    · exact ⟨k, ht, .same rfl⟩
    · obtain ⟨k', h1, h2⟩ := accept_get a p ht
      refine ⟨k', h1, ?_⟩
      rcases h2 with rfl | rfl
      · exact .same (accept_subs a p)
      · exact .stop (accept_subs a p)
  | acceptFailed => exact ⟨k, ht, .same rfl⟩
  | update u =>
    simp only [Actor.step, Actor.idle]
    split
    next x hx =>
      split
      next hi =>
        simp only [List.isEmpty_iff] at hi
        unfold Actor.update
        split
        next hlag =>
          dsimp only
          by_cases h : u = t
          · subst h
            obtain rfl : x = k := Option.some.inj (hx.symm.trans ht)
            exact ⟨_, by rw [set_get _ hx ht, if_pos rfl], .caught rfl hlag hi.1 hi.2⟩
          · exact ⟨k, other_get _ hx ht h, .same rfl⟩
        next hlag =>
          split
          next s rest hp =>
            dsimp only
            by_cases h : u = t
            · subst h
              obtain rfl : x = k := Option.some.inj (hx.symm.trans ht)
              exact ⟨_, by rw [set_get _ hx ht, if_pos rfl], .updated s rest rfl hi.1 hi.2 (by simpa using hlag) hp⟩
            · exact ⟨k, other_get _ hx ht h, .same rfl⟩
          next =>
            split
            · rw [finish_get, finish_subs]
              by_cases h : u = t
              · subst h
                obtain rfl : x = k := Option.some.inj (hx.symm.trans ht)
                exact ⟨_, by rw [set_get _ hx ht, if_pos rfl], .stop rfl⟩
              · exact ⟨k, other_get _ hx ht h, .same rfl⟩
            · exact ⟨k, ht, .same rfl⟩
      next => exact ⟨k, ht, .same rfl⟩
    next => exact ⟨k, ht, .same rfl⟩
  | message u m =>
    simp only [Actor.step, Actor.idle]
    split
    next x hx =>
      split
      next hi =>
        simp only [List.isEmpty_iff] at hi
        dsimp only
        by_cases h : u = t
        · subst h
          obtain rfl : x = k := Option.some.inj (hx.symm.trans ht)
          refine ⟨_, by rw [set_get _ hx ht, if_pos rfl], ?_⟩
          have := Change.took (hash := hash) (t := u) (subs := a.subscribers) (subs' := a.subscribers) (k := x) m rfl hi.1 hi.2
          simpa [Effect.of] using this
        · rw [of_received h]
          exact ⟨k, other_get _ hx ht h, .same rfl⟩
      next => exact ⟨k, ht, .same rfl⟩
    next => exact ⟨k, ht, .same rfl⟩
  | send u how =>
    simp only [Actor.step]
    split
    next x hx =>
      split
      next hi =>
        unfold Actor.send
        split
        · exact ⟨k, ht, .same rfl⟩
        next id chans m rest htodo =>
          split
          · dsimp only
            by_cases h : u = t
            · subst h
              obtain rfl : x = k := Option.some.inj (hx.symm.trans ht)
              exact ⟨_, by rw [set_get _ hx ht, if_pos rfl], .stop rfl⟩
            · exact ⟨k, other_get _ hx ht h, .same rfl⟩
          next c hc =>
            have hsub : ∀ b : Actor π, b = (if how = .sent then { a with sent := a.sent + 1 } else { a with dropped := a.dropped + 1 }) →
                b.tasks = a.tasks ∧ b.subscribers = a.subscribers := by
              intro b hb
              subst hb
              split <;> exact ⟨rfl, rfl⟩
            obtain ⟨h1, h2⟩ := hsub _ rfl
            dsimp only
            rw [h1, h2]
            by_cases h : u = t
            · subst h
              obtain rfl : x = k := Option.some.inj (hx.symm.trans ht)
              refine ⟨_, by rw [set_get _ hx ht, if_pos rfl], ?_⟩
              have := Change.sent (hash := hash) (t := u) (subs := a.subscribers) (subs' := a.subscribers) (k := x) id chans m rest c how rfl hi
                htodo hc
              simpa [Effect.of] using this
            · rw [of_offer h]
              exact ⟨k, other_get _ hx ht h, .same rfl⟩
      next => exact ⟨k, ht, .same rfl⟩
    next => exact ⟨k, ht, .same rfl⟩
  | malformed u =>
    simp only [Actor.step, Actor.idle]
    split
    next x hx =>
      split
      next hi =>
        dsimp only
        rw [finish_get, finish_subs]
        by_cases h : u = t
        · subst h
          obtain rfl : x = k := Option.some.inj (hx.symm.trans ht)
          exact ⟨_, by rw [set_get _ hx ht, if_pos rfl], .stop rfl⟩
        · exact ⟨k, other_get _ hx ht h, .same rfl⟩
      next => exact ⟨k, ht, .same rfl⟩
    next => exact ⟨k, ht, .same rfl⟩
  | eof u =>
    simp only [Actor.step, Actor.idle]
    split
    next x hx =>
      split
      next hi =>
        dsimp only
        rw [finish_get, finish_subs]
        by_cases h : u = t
        · subst h
          obtain rfl : x = k := Option.some.inj (hx.symm.trans ht)
          exact ⟨_, by rw [set_get _ hx ht, if_pos rfl], .stop rfl⟩
        · exact ⟨k, other_get _ hx ht h, .same rfl⟩
      next => exact ⟨k, ht, .same rfl⟩
    next => exact ⟨k, ht, .same rfl⟩

end Verif.BmpService
