import Verif.BmpService.Counters

/-! The connections listed that have ended -/

namespace Verif.BmpService
open Verif Verif.Collector Verif.Service

variable {π : Type} {hash : Addr → Nat}

theorem finish_mono (a : Actor π) (u : Nat) (k : Task π) :
    (∀ p ∈ a.notices, p ∈ (a.finish u k).notices) ∧ a.lost ≤ (a.finish u k).lost ∧
      (a.over = false → k.peer ∈ (a.finish u k).notices ∨ 0 < (a.finish u k).lost) := by
  unfold Actor.finish
  dsimp only
  split
  next ho => exact ⟨fun _ h => h, Nat.le_refl _, fun h => by rw [ho] at h; cases h⟩
  next =>
    split
    · exact ⟨fun p h => List.mem_append_left _ h, Nat.le_refl _, fun _ => .inl (by simp)⟩
    · exact ⟨fun _ h => h, Nat.le_succ _, fun _ => .inr (Nat.succ_pos _)⟩

/-- notices wait until they are taken, and losses are not forgotten -/
theorem step_mono (a : Actor π) (e : Event π) :
    a.lost ≤ (a.step hash e).1.lost ∧ (∀ p ∈ a.notices, (e = .notice → a.notices.head? ≠ some p) → p ∈ (a.step hash e).1.notices) := by
  have hidle : ∀ (u : Nat) (f : Task π → Actor π × List (Effect π)),
      (∀ k, (∀ p ∈ a.notices, p ∈ (f k).1.notices) ∧ a.lost ≤ (f k).1.lost) →
      a.lost ≤ (a.idle u f).1.lost ∧ ∀ p ∈ a.notices, p ∈ (a.idle u f).1.notices := by
    intro u f hf
    unfold Actor.idle
    split
    next k _ =>
      split
      · exact ⟨(hf k).2, (hf k).1⟩
      · exact ⟨Nat.le_refl _, fun _ h => h⟩
    next => exact ⟨Nat.le_refl _, fun _ h => h⟩
  cases e with
  | command c =>
    simp only [Actor.step]
    split
    · exact ⟨Nat.le_refl _, fun _ h _ => h⟩
    · cases c with
      | disconnect p =>
        simp only [Actor.handle]
        split <;> exact ⟨Nat.le_refl _, fun _ h _ => h⟩
      | _ => exact ⟨Nat.le_refl _, fun _ h _ => h⟩
  | noCommands => simp only [Actor.step]; split <;> exact ⟨Nat.le_refl _, fun _ h _ => h⟩
  | notice =>
    simp only [Actor.step]
    split
    · exact ⟨Nat.le_refl _, fun _ h _ => h⟩
    · unfold Actor.notice
      split
      next hn => exact ⟨Nat.le_refl _, fun p h _ => by rw [hn] at h ⊢; exact h⟩
      next q rest hn =>
        have : ∀ p ∈ a.notices, (Event.notice (π := π) = .notice → a.notices.head? ≠ some p) → p ∈ rest := by
          intro p h h'
          rw [hn] at h h'
          rcases List.mem_cons.1 h with rfl | h
          · exact absurd rfl (h' rfl)
          · exact h
        split <;> exact ⟨Nat.le_refl _, fun p h h' => this p h fun _ => h' trivial⟩
  | accept p =>
    simp only [Actor.step]
    split
    · exact ⟨Nat.le_refl _, fun _ h _ => h⟩
    · unfold Actor.accept
      dsimp only
      split <;> exact ⟨Nat.le_refl _, fun _ h _ => h⟩
  | acceptFailed => exact ⟨Nat.le_refl _, fun _ h _ => h⟩
  | update u =>
    have := hidle u (fun k => (a.update u k, [])) fun k => by
      unfold Actor.update
      split
      · exact ⟨fun _ h => h, Nat.le_refl _⟩
      · split
        · exact ⟨fun _ h => h, Nat.le_refl _⟩
        · split
          · exact ⟨(finish_mono a u k).1, (finish_mono a u k).2.1⟩
          · exact ⟨fun _ h => h, Nat.le_refl _⟩
    exact ⟨this.1, fun p h _ => this.2 p h⟩
  | message u m =>
    have := hidle u (fun k => ({ a with
        received := a.received + 1
        tasks := a.tasks.set u { k with todo := k.view.map fun e => (e.1, e.2, m) } }, [.received u m])) fun k =>
      ⟨fun _ h => h, Nat.le_refl _⟩
    exact ⟨this.1, fun p h _ => this.2 p h⟩
  | send u how =>
    simp only [Actor.step]
    split
    · split
      · unfold Actor.send
        split
        · exact ⟨Nat.le_refl _, fun _ h _ => h⟩
        · split
          · exact ⟨Nat.le_refl _, fun _ h _ => h⟩
          · dsimp only
            split <;> exact ⟨Nat.le_refl _, fun _ h _ => h⟩
      · exact ⟨Nat.le_refl _, fun _ h _ => h⟩
    · exact ⟨Nat.le_refl _, fun _ h _ => h⟩
  | malformed u =>
    have := hidle u (fun k => ({ a with malformed := a.malformed + 1 }.finish u k, [])) fun k =>
      ⟨(finish_mono { a with malformed := a.malformed + 1 } u k).1, (finish_mono { a with malformed := a.malformed + 1 } u k).2.1⟩
    exact ⟨this.1, fun p h _ => this.2 p h⟩
  | eof u =>
    have := hidle u (fun k => (a.finish u k, [])) fun k => ⟨(finish_mono a u k).1, (finish_mono a u k).2.1⟩
    exact ⟨this.1, fun p h _ => this.2 p h⟩

/-- a connection that is listed is open, or its notice waits, or a notice was lost -/
def Stale (a : Actor π) : Prop :=
  ∀ (p : Addr) (t : Nat) (k : Task π), a.table.look p = some t → a.tasks[t]? = some k → k.running = false → p ∈ a.notices ∨ 0 < a.lost

theorem step_stale {a : Actor π} {seen : List Addr} {e : Event π} (ht : Tracked a seen) (hf : ∀ p, e.accepts = some p → p ∉ seen)
    (hs : AllSound a) (ho : (a.step hash e).1.over = false) (h : Stale a) : Stale (a.step hash e).1 := by
  have ho0 : a.over = false ∧ e.ends = false := by
    rw [(step_subs (hash := hash) a e).2.2] at ho
    simpa using ho
  intro p t k' hp hk' hr
  obtain ⟨hlost, hnot⟩ := step_mono (hash := hash) a e
  rcases step_entry a e hp with h1 | ⟨h1, h2⟩
  · obtain ⟨k, hk, hkp⟩ := ht.entry p t h1
    -- the entry is there after the step
    have hhead : e = .notice → a.notices.head? ≠ some p := by
      rintro rfl hh
      simp only [Actor.step, ho0.1, Bool.false_eq_true, if_false] at hp
      unfold Actor.notice at hp
      rcases hn : a.notices with _ | ⟨q, rest⟩
      · rw [hn] at hh; cases hh
      · rw [hn] at hh
        obtain rfl : q = p := Option.some.inj hh
        rw [hn] at hp
        simp only [h1] at hp
        rw [lookup_del, if_pos rfl] at hp
        cases hp
    cases hkr : k.running with
    | false =>
      rcases h p t k h1 hk hkr with h3 | h3
      · exact .inl (hnot p h3 hhead)
      · exact .inr (by omega)
    | true =>
      obtain ⟨h3, -⟩ := step_taskStep (hash := hash) ht e hf hk
      rw [hk'] at h3
      have h3 := Option.some.inj h3
      have hsame : (taskStep hash t a.over (a.subsAfter e) k e).1 = k → p ∈ (a.step hash e).1.notices ∨ 0 < (a.step hash e).1.lost := by
        intro hh; rw [hh] at h3; rw [h3, hkr] at hr; cases hr
      cases e with
      | command c =>
        cases c with
        | shutdown => cases ho0.2
        | subscribe l =>
          simp only [taskStep, ho0.1, Bool.false_eq_true, if_false] at h3
          rw [h3, tell_running, hkr] at hr; cases hr
        | unsubscribe l =>
          simp only [taskStep, ho0.1, Bool.false_eq_true, if_false] at h3
          rw [h3, tell_running, hkr] at hr; cases hr
        | disconnect q =>
          by_cases hq : k.peer = q
          · simp only [Actor.step, ho0.1, Bool.false_eq_true, if_false, Actor.handle, ← hq, hkp, h1] at hp
            rw [lookup_del, if_pos rfl] at hp
            cases hp
          · refine hsame ?_
            simp only [taskStep]
            rw [if_neg fun hh => hq hh.2]
        | localAddr => exact hsame rfl
        | peers => exact hsame rfl
      | noCommands => exact hsame rfl
      | notice => exact hsame rfl
      | accept q => exact hsame rfl
      | acceptFailed => exact hsame rfl
      | update u =>
        simp only [taskStep] at h3
        split at h3
        · dsimp only at h3
          split at h3
          · rw [h3] at hr; rw [hkr] at hr; cases hr
          · split at h3
            · rw [h3] at hr; rw [hkr] at hr; cases hr
            · rw [ho0.1] at h3
              simp only [Bool.false_eq_true, if_false] at h3
              rw [h3, hkr] at hr; cases hr
        · dsimp only at h3; rw [h3, hkr] at hr; cases hr
      | message u m =>
        simp only [taskStep] at h3
        split at h3 <;> (dsimp only at h3; rw [h3] at hr; rw [hkr] at hr; cases hr)
      | send u how =>
        simp only [taskStep] at h3
        split at h3
        · split at h3
          · dsimp only at h3; rw [h3, hkr] at hr; cases hr
          next id chans m rest he =>
            split at h3
            next hpk =>
              obtain ⟨c, -, hc⟩ := pick_some hash k.peer ((hs.2 t k hk).2 (id, chans, m) (by rw [he]; exact List.mem_cons_self ..))
              rw [hpk] at hc; cases hc
            next => dsimp only at h3; rw [h3] at hr; rw [hkr] at hr; cases hr
        · dsimp only at h3; rw [h3, hkr] at hr; cases hr
      | malformed u =>
        simp only [taskStep] at h3
        split at h3
        next hc =>
          obtain ⟨rfl, hc⟩ := hc
          simp only [Actor.step, Actor.idle, hk, if_pos hc]
          rw [← hkp]
          exact (finish_mono { a with malformed := a.malformed + 1 } u k).2.2 ho0.1
        · dsimp only at h3; rw [h3, hkr] at hr; cases hr
      | eof u =>
        simp only [taskStep] at h3
        split at h3
        next hc =>
          obtain ⟨rfl, hc⟩ := hc
          simp only [Actor.step, Actor.idle, hk, if_pos hc]
          rw [← hkp]
          exact (finish_mono a u k).2.2 ho0.1
        · dsimp only at h3; rw [h3, hkr] at hr; cases hr
  · rcases step_task_inv a e hk' with ⟨k, hk, _⟩ | ⟨q, hq, _, hk, _, _⟩
    · rw [List.getElem?_eq_none (by omega)] at hk; cases hk
    · rw [hk] at hr; cases hr

theorem run_stale {a : Actor π} {seen : List Addr} (es : List (Event π)) (ht : Tracked a seen) (hf : (seen ++ connections es).Nodup)
    (hs : AllSound a) (hc : Channels es) (ho : a.over = false) (hr : Runs es) (h : Stale a) : Stale (a.run hash es).1 := by
  induction es generalizing a seen with
  | nil => exact h
  | cons e es ih =>
    have hcc : connections (e :: es) = e.accepts.toList ++ connections es := by
      unfold connections
      rw [List.filterMap_cons]
      cases e.accepts <;> rfl
    rw [hcc, ← List.append_assoc] at hf
    have hfe : ∀ p, e.accepts = some p → p ∉ seen := by
      intro p hp hm
      rw [hp] at hf
      exact (List.nodup_append.1 (List.nodup_append.1 hf).1).2.2 p hm p (by simp) rfl
    have ho' : (a.step hash e).1.over = false := by
      rw [(step_subs (hash := hash) a e).2.2, ho, hr e (List.mem_cons_self ..)]; rfl
    rw [run_cons]
    exact ih (step_tracked ht hfe) hf
      (step_allSound hs fun x hx => hc x (by rw [List.mem_singleton] at hx; rw [hx]; exact List.mem_cons_self ..))
      (fun x hx => hc x (List.mem_cons_of_mem _ hx)) ho' (fun x hx => hr x (List.mem_cons_of_mem _ hx)) (step_stale ht hfe hs ho' h)

end Verif.BmpService
