import Verif.BmpService.Listing

/-! Catching up with the subscribers, and what is left when the actor has ended -/

namespace Verif.BmpService
open Verif Verif.Collector Verif.Service

variable {π : Type} {hash : Addr → Nat}

/-- what a task that is behind has still to take -/
def Task.behind (k : Task π) : Nat := k.pending.length + if k.lagged then 1 else 0

theorem getElem_setSelf {ts : List (Task π)} {t : Nat} {k x : Task π} (h : ts[t]? = some k) : (ts.set t x)[t]? = some x := by
  rw [set_get ts h h, if_pos rfl]

theorem updates (n : Nat) {a : Actor π} {t : Nat} {k : Task π} (ht : a.tasks[t]? = some k) (hr : k.running = true) (he : k.todo = [])
    (ho : a.over = false) (hc : Current a.subscribers k) (hn : k.behind ≤ n) :
    ∃ b k', a.run hash (List.replicate n (.update t)) = (b, []) ∧ b.tasks[t]? = some k' ∧ k'.running = true ∧ k'.todo = [] ∧
      k'.view = a.subscribers ∧ k'.peer = k.peer := by
  induction n generalizing a k with
  | zero =>
    have h0 : k.pending = [] := by
      unfold Task.behind at hn
      exact List.length_eq_zero_iff.1 (by omega)
    refine ⟨a, k, rfl, ht, hr, he, ?_, rfl⟩
    have := hc.1
    rw [h0] at this
    exact this
  | succ n ih =>
    rw [List.replicate_succ, run_cons]
    have hst : a.step hash (.update t) = (a.update t k, []) := by
      simp only [Actor.step, Actor.idle, ht, hr, he]
      simp
    rw [hst]
    dsimp only
    by_cases hl : k.lagged = true
    · have hu : a.update t k = { a with tasks := a.tasks.set t { k with lagged := false } } := by
        unfold Actor.update; rw [if_pos hl]
      rw [hu]
      obtain ⟨b, k', h1, h2⟩ := ih (a := { a with tasks := a.tasks.set t { k with lagged := false } }) (k := { k with lagged := false })
        (getElem_setSelf ht) hr he ho hc (by
          unfold Task.behind at *
          rw [if_pos hl] at hn
          simp only [Bool.false_eq_true, if_false]
          omega)
      exact ⟨b, k', by rw [h1]; rfl, h2⟩
    · cases hp : k.pending with
      | cons s rest =>
        have hu : a.update t k = { a with tasks := a.tasks.set t { k with view := s, pending := rest } } := by
          unfold Actor.update; rw [if_neg hl, hp]
        rw [hu]
        obtain ⟨b, k', h1, h2⟩ := ih (a := { a with tasks := a.tasks.set t { k with view := s, pending := rest } })
          (k := { k with view := s, pending := rest }) (getElem_setSelf ht) hr he ho (by
            obtain ⟨h1, h2⟩ := hc
            rw [hp, List.getLast?_cons] at h1
            rw [hp] at h2
            simp only [List.length_cons] at h2
            exact ⟨h1, by dsimp only; omega⟩) (by
            unfold Task.behind at *
            rw [hp, if_neg hl] at hn
            simp only [List.length_cons] at hn
            dsimp only
            rw [if_neg hl]
            omega)
        exact ⟨b, k', by rw [h1]; rfl, h2⟩
      | nil =>
        have hu : a.update t k = a := by
          unfold Actor.update
          rw [if_neg hl, hp]
          simp [ho]
        rw [hu]
        obtain ⟨b, k', h1, h2⟩ := ih ht hr he ho hc (by
          unfold Task.behind
          rw [hp, if_neg hl]
          exact Nat.zero_le _)
        exact ⟨b, k', by rw [h1]; rfl, h2⟩

theorem behind_le {subs : Subs} {k : Task π} (h : Current subs k) : k.behind ≤ 17 := by
  have := h.2
  unfold updatesKept at this
  unfold Task.behind
  split <;> omega

/-- the sends of a message -/
theorem sends (t : Nat) (m : π) (hows : List Sending) (l : Subs) {a : Actor π} {k : Task π} (hlen : hows.length = l.length)
    (hl : HaveChannels l) (ht : a.tasks[t]? = some k) (hr : k.running = true) (he : k.todo = l.map fun e => (e.1, e.2, m)) :
    (a.run hash (hows.map (.send t))).2 =
      (l.zip hows).filterMap fun x => (pick hash k.peer x.1.2).map fun c => .offer t x.1.1 c k.peer m x.2 := by
  induction l generalizing a k hows with
  | nil =>
    rw [List.length_nil] at hlen
    rw [List.length_eq_zero_iff.1 hlen]
    rfl
  | cons x l ih =>
    obtain ⟨i, chans⟩ := x
    cases hows with
    | nil => simp at hlen
    | cons how hows =>
      obtain ⟨c, -, hc⟩ := pick_some hash k.peer (hl (i, chans) (List.mem_cons_self ..))
      rw [List.map_cons] at he
      rw [List.map_cons, run_cons, List.zip_cons_cons, List.filterMap_cons]
      simp only [hc, Option.map_some]
      have hst : ∃ b : Actor π, a.step hash (.send t how) = ({ b with tasks := a.tasks.set t { k with todo := l.map fun e => (e.1, e.2, m) } },
          [.offer t i c k.peer m how]) := by
        refine ⟨if how = .sent then { a with sent := a.sent + 1 } else { a with dropped := a.dropped + 1 }, ?_⟩
        simp only [Actor.step, ht, hr, if_true, Actor.send, he, hc]
        have : (if how = Sending.sent then { a with sent := a.sent + 1 } else { a with dropped := a.dropped + 1 }).tasks = a.tasks := by split <;> rfl
        rw [this]
      obtain ⟨b, hst⟩ := hst
      rw [hst]
      rw [ih hows (a := { b with tasks := a.tasks.set t { k with todo := l.map fun e => (e.1, e.2, m) } })
        (k := { k with todo := l.map fun e => (e.1, e.2, m) }) (by simpa using hlen) (fun x hx => hl x (List.mem_cons_of_mem _ hx))
        (getElem_setSelf ht) hr rfl]
      rfl

/-! ## After the end -/

/-- the actor has ended, and all its tasks -/
def Silent (a : Actor π) : Prop := a.over = true ∧ ∀ (t : Nat) (k : Task π), a.tasks[t]? = some k → k.running = false

theorem step_silent {a : Actor π} (h : Silent a) (e : Event π) : a.step hash e = (a, []) := by
  have hidle : ∀ (u : Nat) (f : Task π → Actor π × List (Effect π)), a.idle u f = (a, []) := by
    intro u f
    unfold Actor.idle
    split
    next k hk => rw [if_neg]; rw [h.2 u k hk]; simp
    next => rfl
  cases e with
  | send u how =>
    simp only [Actor.step]
    split
    next k hk => rw [if_neg]; rw [h.2 u k hk]; simp
    next => rfl
  | command => simp [Actor.step, h.1]
  | noCommands => simp [Actor.step, h.1]
  | notice => simp [Actor.step, h.1]
  | accept => simp [Actor.step, h.1]
  | acceptFailed => rfl
  | update u => exact hidle ..
  | message u m => exact hidle ..
  | malformed u => exact hidle ..
  | eof u => exact hidle ..

theorem run_silent {a : Actor π} (h : Silent a) (es : List (Event π)) : a.run hash es = (a, []) := by
  induction es with
  | nil => rfl
  | cons e es ih => rw [run_cons, step_silent h, ih]; rfl

/-! ## The peers of tasks -/

theorem step_peers (a : Actor π) (e : Event π) : (a.step hash e).1.tasks.map (·.peer) = a.tasks.map (·.peer) ++ (a.taking e).toList := by
  apply List.ext_getElem?
  intro t
  rw [List.getElem?_map]
  rcases hk' : (a.step hash e).1.tasks[t]? with _ | k'
  · have := List.getElem?_eq_none_iff.1 hk'
    rw [step_length] at this
    rw [List.getElem?_eq_none (by simpa using this)]
    rfl
  · rcases step_task_inv a e hk' with ⟨k, hk, hc⟩ | ⟨p, hp, ht, rfl, _, _⟩
    · have hl := (List.getElem?_eq_some_iff.1 hk).1
      rw [List.getElem?_append_left (by simpa using hl), List.getElem?_map, hk]
      exact congrArg some (change_peer hc)
    · rw [hp, ht, List.getElem?_append_right (by simp)]
      simp [Task.fresh]

theorem run_peers {a : Actor π} (es : List (Event π)) (ho : a.over = false) (hr : Runs es) :
    (a.run hash es).1.tasks.map (·.peer) = a.tasks.map (·.peer) ++ connections es := by
  induction es generalizing a with
  | nil => simp [connections, Actor.run]
  | cons e es ih =>
    have ho' : (a.step hash e).1.over = false := by
      rw [(step_subs (hash := hash) a e).2.2, ho, hr e (List.mem_cons_self ..)]; rfl
    rw [run_cons]
    dsimp only
    rw [ih ho' fun x hx => hr x (List.mem_cons_of_mem _ hx), step_peers, List.append_assoc]
    congr 1
    unfold connections Actor.taking
    rw [ho, List.filterMap_cons]
    cases e.accepts <;> rfl

end Verif.BmpService
