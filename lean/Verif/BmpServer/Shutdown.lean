import Verif.BmpServer.Requests
/-! # How the server ends -/

namespace Verif.BmpServer
open Verif Verif.Service

variable {π : Type}

/-! ## When `serve` returns -/

/-- once a graceful shutdown is asked for, someone says that no connection is left only if none is -/
def Told (s : Server π) : Prop :=
  s.graceful.triggered = true → (s.ended.triggered = true ∨ ∃ (t : Nat) (k : Conn π), s.conns[t]? = some k ∧ k.tells = true) → s.count = 0

/-- `serve` returns with success only when it is shut down or no connection is left -/
def Rests (s : Server π) : Prop := s.phase = .returned true → s.shutdown.triggered = true ∨ s.count = 0

theorem step_count_le (s : Server π) (e : Event π) (h : s.taking e = none) : (s.step e).1.count ≤ s.count := by
  cases e with
  | accept p =>
    simp only [Server.taking] at h
    simp only [Server.step]
    split
    · rename_i hq; rw [hq] at h; cases h
    · exact Nat.le_refl _
  | _ => simp only [Server.step] <;> repeat' (first | exact Nat.le_refl _ | exact Nat.sub_le _ _ | (rw [worker_count]; exact Nat.le_refl _) | split)

/-- once `serve` has left its loop no connection is taken -/
theorem taking_phase {s : Server π} {e : Event π} (h : ∀ sd gr, s.phase ≠ .serving sd gr) : s.taking e = none := by
  unfold Server.taking
  split
  · split
    · rename_i hq; exact absurd hq (h _ _)
    · rfl
  · rfl

/-- how `serve` comes to return with success -/
theorem step_returned (s : Server π) (e : Event π) (h : Sane s) (hr : (s.step e).1.phase = .returned true) :
    s.phase = .returned true ∨ (s.step e).1.shutdown.triggered = true ∨ (s.count = 0 ∧ (s.step e).1.count = 0) ∨
      (s.graceful.triggered = true ∧ s.ended.triggered = true ∧ (s.step e).1.count = s.count) := by
  have hp := h.phase
  cases e with
  | serverPoll =>
    simp only [Server.step] at hr ⊢
    split at hr
    · rename_i sd gr hq
      unfold PhaseOk at hp
      rw [hq] at hp
      right; left
      split at hr
      · rename_i hw
        have := Wait.poll_over h.sd hp.1 hw
        rcases this with h1 | h1
        · exact absurd h1 hp.2.2.1
        · simpa [hw] using h1
      · cases hr
    · exact .inl hr
  | gracefulPoll =>
    simp only [Server.step] at hr
    split at hr
    · split at hr <;> cases hr
    · exact .inl hr
  | accept p =>
    simp only [Server.step] at hr
    split at hr
    · cases hr
    · exact .inl hr
  | acceptFailed =>
    simp only [Server.step] at hr
    split at hr
    · cases hr
    · exact .inl hr
  | count =>
    simp only [Server.step] at hr ⊢
    split at hr
    · dsimp only at hr
      split at hr
      · rename_i hc; right; right; left; exact ⟨hc, hc⟩
      · cases hr
    · exact .inl hr
  | endPoll =>
    simp only [Server.step] at hr ⊢
    split at hr
    · rename_i w hq
      unfold PhaseOk at hp
      rw [hq] at hp
      right; right; right
      split at hr
      · rename_i hw
        refine ⟨hp.1, ?_, rfl⟩
        rcases Wait.poll_over h.en hp.2.1 hw with h1 | h1
        · exact absurd h1 hp.2.2
        · exact h1
      · cases hr
    · exact .inl hr
  | timeout =>
    simp only [Server.step] at hr
    split at hr
    · split at hr
      · cases hr
      · exact .inl hr
    · exact .inl hr
  | force =>
    simp only [Server.step] at hr ⊢
    split at hr
    · rename_i hq
      unfold PhaseOk at hp
      rw [hq] at hp
      right; left
      rw [Signal.wake_triggered]; exact hp
    · exact .inl hr
  | drop t =>
    left
    simp only [Server.step] at hr
    repeat' (first | exact hr | split at hr)
  | tell t =>
    left
    simp only [Server.step] at hr
    repeat' (first | exact hr | split at hr)
  | _ => left; simpa [Server.step, worker_phase] using hr

theorem tells_connStep {s : Server π} {t : Nat} {k k' : Conn π} {e : Event π} (h : k' = k ∨ ConnStep s t k e k') (hk : k'.tells = true) :
    k.tells = true ∨ (e = .drop t ∧ k.stage = .leaving ∧ s.count - 1 = 0) := by
  rcases h with rfl | h
  · exact .inl hk
  · cases h with
    | arrive i => exact .inl hk
    | poll =>
      left
      unfold Conn.polled at hk
      split at hk
      · split at hk
        · cases hk
        · exact hk
      · exact hk
    | take r =>
      left
      unfold Conn.taken at hk
      split at hk
      · split at hk
        · exact hk
        · split at hk <;> cases hk
      · exact hk
    | answer a =>
      left
      unfold Conn.answered at hk
      split at hk
      · unfold Conn.tells at hk
        dsimp only at hk
        split at hk
        · rename_i hx; split at hx <;> cases hx
        · rename_i hx; split at hx <;> cases hx
        · cases hk
      · exact hk
    | drop hl =>
      right
      refine ⟨rfl, hl, ?_⟩
      unfold Conn.tells at hk
      dsimp only at hk
      split at hk
      · rename_i hx; split at hx
        · assumption
        · cases hx
      · rename_i hx; split at hx <;> cases hx
      · cases hk
    | check hl => left; simp [Conn.tells, hl]
    | tell hl => cases hk

theorem drop_count {s : Server π} {t : Nat} {k : Conn π} (hk : s.conns[t]? = some k) (hl : k.stage = .leaving) :
    (s.step (.drop t)).1.count = s.count - 1 := by simp [Server.step, hk, hl]

/-- `Told` is kept if no connection is taken after a graceful shutdown is asked for, and none is ending when it is -/
theorem step_told (s : Server π) (e : Event π) (h : Sane s) (ht : Told s) (ha : s.graceful.triggered = true → s.taking e = none)
    (hc : e = .gracefulSet → s.graceful.triggered = false → ∀ (t : Nat) (k : Conn π), s.conns[t]? = some k → k.stage ≠ .checking) : Told (s.step e).1 := by
  intro hg hor
  cases hg0 : s.graceful.triggered with
  | false =>
    exfalso
    obtain ⟨h1, h2⟩ := h.before hg0
    have he : e = .gracefulSet := by
      cases e with
      | gracefulSet => rfl
      | gracefulWake => simp only [Server.step, Signal.wake_triggered] at hg; rw [hg0] at hg; cases hg
      | _ =>
        exfalso
        revert hg
        simp only [Server.step]
        repeat' (first | (simp [hg0]; done) | (rw [(worker_signals _ _ _).2.1]; simp [hg0]; done) | split)
    subst he
    rcases hor with hor | ⟨t, k, hk, hx⟩
    · rw [show (s.step .gracefulSet).1.ended = s.ended from rfl, h1] at hor; cases hor
    · replace hk : s.conns[t]? = some k := hk
      have := hc rfl hg0 t k hk
      have := h2 t k hk
      unfold Conn.tells at hx
      split at hx <;> simp_all
  | true =>
    have hle := step_count_le s e (ha hg0)
    rcases hor with hor | ⟨t, k', hk', hx⟩
    · cases he : s.ended.triggered with
      | true => have := ht hg0 (.inl he); omega
      | false =>
        -- someone tells now
        have : ∃ (t : Nat) (k : Conn π), s.conns[t]? = some k ∧ k.tells = true := by
          cases e with
          | tell t =>
            simp only [Server.step] at hor
            split at hor
            · rename_i k hk
              split at hor
              · rename_i hl; exact ⟨t, k, hk, by simp [Conn.tells, hl]⟩
              · rw [he] at hor; cases hor
            · rw [he] at hor; cases hor
          | endWake => simp only [Server.step, Signal.wake_triggered] at hor; rw [he] at hor; cases hor
          | _ =>
            exfalso
            revert hor
            simp only [Server.step]
            repeat' (first | (simp [he]; done) | (rw [(worker_signals _ _ _).2.2]; simp [he]; done) | split)
        have := ht hg0 (.inr this)
        omega
    · rcases step_conn_inv s e hk' with ⟨k, hk, hs⟩ | ⟨p, hp, -⟩
      · rcases tells_connStep hs hx with h1 | ⟨rfl, h1, h2⟩
        · have := ht hg0 (.inr ⟨t, k, hk, h1⟩); omega
        · rw [drop_count hk h1]; exact h2
      · rw [ha hg0] at hp; cases hp

theorem step_rests (s : Server π) (e : Event π) (h : Sane s) (ht : Told s) (hr : Rests s) : Rests (s.step e).1 := by
  intro hq
  rcases step_returned s e h hq with h1 | h1 | h1 | ⟨h1, h2, h3⟩
  · rcases hr h1 with h2 | h2
    · exact .inl ((change_signal (step_signals s e).1 h.sd).2.2 h2)
    · right
      have := step_count_le s e (taking_phase (fun sd gr hx => by rw [h1] at hx; cases hx))
      omega
  · exact .inl h1
  · exact .inr h1.2
  · right; rw [h3]; exact ht h1 (.inl h2)

/-- `gracefulSet` is what sets the signal -/
theorem run_graceful (es : List (Event π)) {s : Server π} : (s.run es).1.graceful.triggered = true ↔ s.graceful.triggered = true ∨ Event.gracefulSet ∈ es := by
  induction es generalizing s with
  | nil => simp [Server.run]
  | cons e es ih =>
    rw [Server.run_cons]
    dsimp only
    rw [ih]
    cases e with
    | gracefulSet => simp [Server.step, Signal.set_triggered]
    | gracefulWake => simp [Server.step, Signal.wake_triggered]
    | _ =>
      simp only [Server.step]
      repeat' (first | (simp; done) | (rw [(worker_signals _ _ _).2.1]; simp; done) | split)

/-! ## When the server is shut down -/

/-- nobody that waits for the signal to shut down is between its two looks -/
def Unhurried (s : Server π) : Prop :=
  (∀ gr, s.phase ≠ .serving .loaded gr) ∧ ∀ (t : Nat) (k : Conn π), s.conns[t]? = some k → k.live = true → k.wait ≠ .loaded

/-- all that wait for the signal to shut down hear it -/
def Hears (s : Server π) : Prop :=
  (∀ sd gr, s.phase = .serving sd gr → sd.fine s.shutdown) ∧
  ∀ (t : Nat) (k : Conn π), s.conns[t]? = some k → k.live = true → k.wait.fine s.shutdown

/-- the steps that wake those who wait for the signal to shut down -/
def Event.wakes : Event π → Bool
  | .shutdownWake => true
  | .force => true
  | _ => false

theorem step_hears (s : Server π) (e : Event π) (h : Sane s) (hh : Hears s) (hu : e.wakes = true → Unhurried s) : Hears (s.step e).1 := by
  -- the signal first
  have key : ∀ w : Wait, w.fine s.shutdown → (∀ n, w = .waiting n → n ≤ s.shutdown.calls) → (e.wakes = true → w ≠ .loaded) → w.fine (s.step e).1.shutdown := by
    intro w hw hb hl
    have : (s.step e).1.shutdown = s.shutdown ∨ (s.step e).1.shutdown = s.shutdown.set ∨ ((s.step e).1.shutdown = s.shutdown.wake ∧ e.wakes = true) := by
      cases e with
      | shutdownSet => exact .inr (.inl rfl)
      | shutdownWake => exact .inr (.inr ⟨rfl, rfl⟩)
      | force =>
        simp only [Server.step]
        split
        · exact .inr (.inr ⟨rfl, rfl⟩)
        · exact .inl rfl
      | timeout =>
        simp only [Server.step]
        split
        · split
          · exact .inr (.inl rfl)
          · exact .inl rfl
        · exact .inl rfl
      | _ =>
        left
        simp only [Server.step]
        repeat' (first | rfl | exact (worker_signals _ _ _).1 | split)
    rcases this with hx | hx | ⟨hx, hy⟩
    · rw [hx]; exact hw
    · rw [hx]; exact Wait.fine_set hw
    · rw [hx]; exact Wait.fine_wake hw (fun _ => hl hy) hb
  obtain ⟨hh1, hh2⟩ := hh
  refine ⟨fun sd gr hq => ?_, fun t k' hk' hl => ?_⟩
  · -- where `sd` comes from
    have hp := h.phase
    have old : ∀ gr', s.phase = .serving sd gr' → sd.fine (s.step e).1.shutdown := fun gr' hx => by
      unfold PhaseOk at hp
      rw [hx] at hp
      exact key sd (hh1 sd gr' hx) hp.1 fun hw hl => (hu hw).1 gr' (by rw [hx, hl])
    cases e with
    | serverPoll =>
      simp only [Server.step] at hq ⊢
      split at hq
      · rename_i sd0 gr0 hx
        split at hq
        · cases hq
        · rename_i w hw
          simp only [Phase.serving.injEq] at hq
          obtain ⟨rfl, rfl⟩ := hq
          exact Wait.fine_poll (hh1 sd0 gr0 hx)
      · rename_i hx; exact absurd hq (hx _ _)
    | gracefulPoll =>
      simp only [Server.step] at hq
      split at hq
      · rename_i n gr0 hx
        split at hq
        · cases hq
        · simp only [Phase.serving.injEq] at hq
          exact old gr0 (by rw [← hq.1]; exact hx)
      · exact old gr hq
    | accept p =>
      simp only [Server.step] at hq
      split at hq
      · rename_i n gr0 hx
        simp only [Phase.serving.injEq] at hq
        exact old gr0 (by rw [← hq.1]; exact hx)
      · exact old gr hq
    | count =>
      simp only [Server.step] at hq
      split at hq
      · dsimp only at hq; split at hq <;> cases hq
      · exact old gr hq
    | acceptFailed =>
      simp only [Server.step] at hq
      split at hq
      · cases hq
      · exact old gr hq
    | endPoll =>
      simp only [Server.step] at hq
      split at hq
      · split at hq <;> cases hq
      · exact old gr hq
    | timeout =>
      simp only [Server.step] at hq
      split at hq
      · split at hq
        · cases hq
        · exact old gr hq
      · exact old gr hq
    | force =>
      simp only [Server.step] at hq
      split at hq
      · cases hq
      · exact old gr hq
    | drop t =>
      refine old gr ?_
      simp only [Server.step] at hq
      repeat' (first | exact hq | split at hq)
    | tell t =>
      refine old gr ?_
      simp only [Server.step] at hq
      repeat' (first | exact hq | split at hq)
    | _ => exact old gr (by simpa [Server.step, worker_phase] using hq)
  · rcases step_conn_inv s e hk' with ⟨k, hk, hs⟩ | ⟨p, -, -, rfl⟩
    · have hlive := connStep_live hs hl
      have hold := key k.wait (hh2 t k hk hlive) (h.below t k hk).1 fun hw => (hu hw).2 t k hk hlive
      rcases hs with rfl | hs
      · exact hold
      · cases hs with
        | poll =>
          have : (s.step (.poll t)).1.shutdown = s.shutdown := (worker_signals _ _ _).1
          rw [this]
          rcases polled_wait s.shutdown k with hx | hx
          · rw [hx]; exact hh2 t k hk hlive
          · rw [hx]; exact Wait.fine_poll (hh2 t k hk hlive)
        | take r => rw [taken_wait]; exact hold
        | answer a => rw [answered_wait]; exact hold
        | _ => exact hold
    · exact fun _ => .inl rfl

theorem hears_new (limit : Bool) : Hears (Server.new limit : Server π) :=
  ⟨fun sd gr h => by simp only [Server.new, Phase.serving.injEq] at h; rw [← h.1]; exact fun _ => .inl rfl, fun t k h => (by cases h)⟩

theorem run_hears (es : List (Event π)) {s : Server π} (h : Sane s) (hh : Hears s)
    (hu : ∀ pre e post, es = pre ++ e :: post → e.wakes = true → Unhurried (s.run pre).1) : Hears (s.run es).1 := by
  induction es generalizing s with
  | nil => exact hh
  | cons e es ih =>
    rw [Server.run_cons]
    refine ih (step_sane s e h) (step_hears s e h hh (hu [] e es rfl)) fun pre x post he hx => ?_
    have := hu (e :: pre) x post (by rw [he]; rfl) hx
    rw [Server.run_cons] at this
    exact this

/-- the signal to shut down stays given -/
theorem step_shutdown_given (s : Server π) (e : Event π) (h : s.shutdown.given) : (s.step e).1.shutdown = s.shutdown := by
  rcases (step_signals s e).1 with hx | hx | hx
  · exact hx
  · rw [hx, Signal.set, if_pos h.1]
  · rw [hx, Signal.wake, if_neg (by rw [h.2]; simp)]

theorem run_shutdown_given (es : List (Event π)) {s : Server π} (h : s.shutdown.given) : (s.run es).1.shutdown = s.shutdown := by
  induction es generalizing s with
  | nil => rfl
  | cons e es ih =>
    have := step_shutdown_given s e h
    rw [Server.run_cons]
    dsimp only
    rw [ih (by rw [this]; exact h), this]

/-- a signal that is set and then woken is given -/
theorem shutdown_given {pre mid post : List (Event π)} (s : Server π) :
    (s.run (pre ++ .shutdownSet :: (mid ++ .shutdownWake :: post))).1.shutdown.given := by
  rw [Server.run_append]
  dsimp only
  generalize (s.run pre).1 = a
  rw [Server.run_cons]
  dsimp only
  have ht : (a.step .shutdownSet).1.shutdown.triggered = true := Signal.set_triggered _
  generalize (a.step .shutdownSet).1 = b at *
  rw [Server.run_append]
  dsimp only
  have hm : (b.run mid).1.shutdown.triggered = true := by
    have : ∀ (es : List (Event π)) (c : Server π), c.shutdown.triggered = true → (c.run es).1.shutdown.triggered = true := by
      intro es
      induction es with
      | nil => exact fun _ h => h
      | cons e es ih =>
        intro c hc
        rw [Server.run_cons]
        refine ih _ ?_
        rcases (step_signals c e).1 with hx | hx | hx
        · rw [hx]; exact hc
        · rw [hx]; exact Signal.set_triggered _
        · rw [hx, Signal.wake_triggered]; exact hc
    exact this mid b ht
  generalize (b.run mid).1 = c at *
  rw [Server.run_cons]
  dsimp only
  have hg : (c.step .shutdownWake).1.shutdown.given := by
    simp only [Server.step]
    unfold Signal.wake
    split
    · exact ⟨hm, rfl⟩
    · rename_i ho; exact ⟨hm, by simpa using ho⟩
  rw [run_shutdown_given post hg]
  exact hg

end Verif.BmpServer
