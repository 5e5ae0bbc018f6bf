import Verif.BmpServer.Shutdown
/-! # How the server ends gracefully -/

namespace Verif.BmpServer
open Verif Verif.Service

variable {π : Type}

/-- while `serve` waits for connections to end, one is counted, or a worker is going to say that none is, or has said so -/
def Draining (s : Server π) : Prop :=
  ∀ w, s.phase = .draining w → s.ended.triggered = true ∨ 0 < s.count ∨ ∃ (t : Nat) (k : Conn π), s.conns[t]? = some k ∧ k.tells = true

theorem step_phase_draining (s : Server π) (e : Event π) {w : Wait} (h : (s.step e).1.phase = .draining w) :
    (∃ w', s.phase = .draining w') ∨ (e = .count ∧ 0 < s.count) := by
  cases e with
  | serverPoll =>
    simp only [Server.step] at h
    split at h
    · split at h <;> cases h
    · exact .inl ⟨w, h⟩
  | gracefulPoll =>
    simp only [Server.step] at h
    split at h
    · split at h <;> cases h
    · exact .inl ⟨w, h⟩
  | accept p =>
    simp only [Server.step] at h
    split at h
    · cases h
    · exact .inl ⟨w, h⟩
  | acceptFailed =>
    simp only [Server.step] at h
    split at h
    · cases h
    · exact .inl ⟨w, h⟩
  | count =>
    simp only [Server.step] at h
    split at h
    · dsimp only at h
      split at h
      · cases h
      · right; exact ⟨rfl, by omega⟩
    · exact .inl ⟨w, h⟩
  | endPoll =>
    simp only [Server.step] at h
    split at h
    · rename_i w' hq; exact .inl ⟨w', hq⟩
    · exact .inl ⟨w, h⟩
  | timeout =>
    simp only [Server.step] at h
    split at h
    · rename_i w' hq; exact .inl ⟨w', hq⟩
    · exact .inl ⟨w, h⟩
  | force =>
    simp only [Server.step] at h
    split at h
    · cases h
    · exact .inl ⟨w, h⟩
  | drop t =>
    left
    simp only [Server.step] at h
    refine ⟨w, ?_⟩
    repeat' (first | exact h | split at h)
  | tell t =>
    left
    simp only [Server.step] at h
    refine ⟨w, ?_⟩
    repeat' (first | exact h | split at h)
  | _ => left; exact ⟨w, by simpa [Server.step, worker_phase] using h⟩

theorem step_draining (s : Server π) (e : Event π) (h : Sane s ∧ Counts s ∧ Draining s) :
    Sane (s.step e).1 ∧ Counts (s.step e).1 ∧ Draining (s.step e).1 := by
  obtain ⟨hs, hc, hd⟩ := h
  refine ⟨step_sane s e hs, step_counts s e hc, fun w hw => ?_⟩
  rcases step_phase_draining s e hw with ⟨w', hq⟩ | ⟨rfl, hcnt⟩
  · have hg : s.graceful.triggered = true := by
      have := hs.phase
      unfold PhaseOk at this
      rw [hq] at this
      exact this.1
    rcases hd w' hq with h1 | h1 | ⟨t, k, hk, ht⟩
    · exact .inl ((change_signal (step_signals s e).2.2 hs.en).2.2 h1)
    · -- the count falls in `drop` only
      by_cases hx : s.count ≤ (s.step e).1.count
      · exact .inr (.inl (Nat.lt_of_lt_of_le h1 hx))
      · have : ∃ t k, e = .drop t ∧ s.conns[t]? = some k ∧ k.stage = .leaving := by
          cases e with
          | drop t =>
            cases hk : s.conns[t]? with
            | none => exfalso; apply hx; simp [Server.step, hk]
            | some k =>
              by_cases hl : k.stage = .leaving
              · exact ⟨t, k, rfl, hk, hl⟩
              · exfalso; apply hx; simp [Server.step, hk, hl]
          | _ =>
            exfalso
            apply hx
            simp only [Server.step]
            repeat' (first | exact Nat.le_refl _ | exact Nat.le_succ _ | (rw [worker_count]; exact Nat.le_refl _) | split)
        obtain ⟨t, k, rfl, hk, hl⟩ := this
        by_cases hz : s.count - 1 = 0
        · right; right
          exact ⟨t, { k with stage := .checking }, by
            simp only [Server.step, hk, hl, hz, if_true]
            rw [List.getElem?_set_self (List.getElem?_eq_some_iff.1 hk).1], rfl⟩
        · right; left
          rw [drop_count hk hl]; omega
    · -- the worker goes on to tell
      obtain ⟨k', hk', hst⟩ := step_conn s e hk
      by_cases ht' : k'.tells = true
      · exact .inr (.inr ⟨t, k', hk', ht'⟩)
      · left
        have hstage : k.stage = .checking ∨ k.stage = .telling := by
          unfold Conn.tells at ht
          split at ht <;> simp_all
        rcases hst with rfl | hst
        · exact absurd ht ht'
        · cases hst with
          | arrive i => exact absurd ht ht'
          | poll =>
            exfalso; apply ht'
            unfold Conn.polled
            rw [if_neg]
            · exact ht
            · unfold Conn.live; rcases hstage with hx | hx <;> rw [hx] <;> simp
          | take r =>
            exfalso; apply ht'
            unfold Conn.taken
            rw [if_neg]
            · exact ht
            · rcases hstage with hx | hx <;> rw [hx] <;> simp
          | answer a =>
            exfalso; apply ht'
            unfold Conn.answered
            rcases hstage with hx | hx <;> rw [hx] <;> exact ht
          | drop hl => rw [hl] at hstage; rcases hstage with hx | hx <;> cases hx
          | check hl => exfalso; apply ht'; simp [Conn.tells, hg]
          | tell hl => simp [Server.step, hk, hl, Signal.set_triggered]
  · right; left
    simp only [Server.step]
    split
    · exact hcnt
    · exact hcnt

/-- nobody is between its two looks at the signals to shut down gracefully and that connections have ended -/
def Patient (s : Server π) (e : Event π) : Prop :=
  (e = .gracefulWake → ∀ sd, s.phase ≠ .serving sd .loaded) ∧ (e = .endWake → s.phase ≠ .draining .loaded)

/-- `serve` hears of a graceful shutdown and of the end of connections -/
def Listens (s : Server π) : Prop :=
  (∀ sd gr, s.phase = .serving sd gr → gr.fine s.graceful) ∧ (∀ w, s.phase = .draining w → w.fine s.ended)

theorem step_graceful_signal (s : Server π) (e : Event π) :
    (s.step e).1.graceful = s.graceful ∨ (s.step e).1.graceful = s.graceful.set ∨ ((s.step e).1.graceful = s.graceful.wake ∧ e = .gracefulWake) := by
  cases e with
  | gracefulSet => exact .inr (.inl rfl)
  | gracefulWake => exact .inr (.inr ⟨rfl, rfl⟩)
  | _ =>
    left
    simp only [Server.step]
    repeat' (first | rfl | exact (worker_signals _ _ _).2.1 | split)

theorem step_ended_signal (s : Server π) (e : Event π) :
    (s.step e).1.ended = s.ended ∨ (s.step e).1.ended = s.ended.set ∨ ((s.step e).1.ended = s.ended.wake ∧ e = .endWake) := by
  cases e with
  | tell t =>
    simp only [Server.step]
    split
    · split
      · exact .inr (.inl rfl)
      · exact .inl rfl
    · exact .inl rfl
  | endWake => exact .inr (.inr ⟨rfl, rfl⟩)
  | _ =>
    left
    simp only [Server.step]
    repeat' (first | rfl | exact (worker_signals _ _ _).2.2 | split)

theorem fine_change {g g' : Signal} {w : Wait} {c : Prop} (h : g' = g ∨ g' = g.set ∨ (g' = g.wake ∧ c)) (hw : w.fine g)
    (hb : ∀ n, w = .waiting n → n ≤ g.calls) (hl : c → w ≠ .loaded) : w.fine g' := by
  rcases h with rfl | rfl | ⟨rfl, hc⟩
  · exact hw
  · exact Wait.fine_set hw
  · exact Wait.fine_wake hw (fun _ => hl hc) hb

theorem step_listens (s : Server π) (e : Event π) (h : Sane s) (hl : Listens s) (hp : Patient s e) : Listens (s.step e).1 := by
  obtain ⟨h1, h2⟩ := hl
  have hph := h.phase
  have gold : ∀ sd sd' gr, s.phase = .serving sd' gr → (s.step e).1.phase = .serving sd gr → gr.fine (s.step e).1.graceful := by
    intro sd sd' gr hq _
    unfold PhaseOk at hph
    rw [hq] at hph
    exact fine_change (step_graceful_signal s e) (h1 sd' gr hq) hph.2.1 fun he hx => hp.1 he sd' (by rw [hq, hx])
  have eold : ∀ w, s.phase = .draining w → w.fine (s.step e).1.ended := by
    intro w hq
    unfold PhaseOk at hph
    rw [hq] at hph
    exact fine_change (step_ended_signal s e) (h2 w hq) hph.2.1 fun he hx => hp.2 he (by rw [hq, hx])
  refine ⟨fun sd gr hq => ?_, fun w hq => ?_⟩
  · have hq0 := hq
    cases e with
    | serverPoll =>
      simp only [Server.step] at hq
      split at hq
      · rename_i sd0 gr0 hx
        split at hq
        · cases hq
        · simp only [Phase.serving.injEq] at hq
          exact gold sd sd0 gr (by rw [← hq.2]; exact hx) hq0
      · exact gold sd sd gr hq hq0
    | gracefulPoll =>
      simp only [Server.step] at hq ⊢
      split at hq
      · rename_i n gr0 hx
        split at hq
        · cases hq
        · rename_i w hw
          simp only [Phase.serving.injEq] at hq
          obtain ⟨rfl, rfl⟩ := hq
          exact Wait.fine_poll (h1 _ gr0 hx)
      · rename_i hx
        have := h1 sd gr hq
        exact this
    | accept p =>
      simp only [Server.step] at hq
      split at hq
      · simp only [Phase.serving.injEq] at hq
        rw [← hq.2]
        exact fun _ => .inl rfl
      · exact gold sd sd gr hq hq0
    | count =>
      simp only [Server.step] at hq
      split at hq
      · dsimp only at hq; split at hq <;> cases hq
      · exact gold sd sd gr hq hq0
    | acceptFailed =>
      simp only [Server.step] at hq
      split at hq
      · cases hq
      · exact gold sd sd gr hq hq0
    | endPoll =>
      simp only [Server.step] at hq
      split at hq
      · split at hq <;> cases hq
      · exact gold sd sd gr hq hq0
    | timeout =>
      simp only [Server.step] at hq
      split at hq
      · split at hq
        · cases hq
        · exact gold sd sd gr hq hq0
      · exact gold sd sd gr hq hq0
    | force =>
      simp only [Server.step] at hq
      split at hq
      · cases hq
      · exact gold sd sd gr hq hq0
    | drop t =>
      refine gold sd sd gr ?_ hq0
      simp only [Server.step] at hq
      repeat' (first | exact hq | split at hq)
    | tell t =>
      refine gold sd sd gr ?_ hq0
      simp only [Server.step] at hq
      repeat' (first | exact hq | split at hq)
    | _ => exact gold sd sd gr (by simpa [Server.step, worker_phase] using hq) hq0
  · rcases step_phase_draining s e hq with ⟨w', hq'⟩ | ⟨rfl, -⟩
    · cases e with
      | endPoll =>
        simp only [Server.step, hq'] at hq ⊢
        split at hq
        · cases hq
        · rename_i x hx
          simp only [Phase.draining.injEq] at hq
          rw [← hq]
          have := Wait.fine_poll (h2 w' hq')
          first
            | exact this
            | (split <;> exact this)
      | timeout =>
        have hq0 := hq
        simp only [Server.step, hq'] at hq0
        split at hq0
        · cases hq0
        · exact eold w (by rw [hq'] ; rw [hq'] at hq0; exact hq0)
      | serverPoll => exact eold w (by simpa [Server.step, hq'] using hq)
      | gracefulPoll => exact eold w (by simpa [Server.step, hq'] using hq)
      | accept p => exact eold w (by simpa [Server.step, hq'] using hq)
      | acceptFailed => exact eold w (by simpa [Server.step, hq'] using hq)
      | count => exact eold w (by simpa [Server.step, hq'] using hq)
      | force => exact eold w (by simpa [Server.step, hq'] using hq)
      | drop t =>
        refine eold w ?_
        simp only [Server.step] at hq
        repeat' (first | exact hq | split at hq)
      | tell t =>
        refine eold w ?_
        simp only [Server.step] at hq
        repeat' (first | exact hq | split at hq)
      | _ => exact eold w (by simpa [Server.step, worker_phase] using hq)
    · simp only [Server.step] at hq ⊢
      split at hq
      · dsimp only at hq
        split at hq
        · cases hq
        · simp only [Phase.draining.injEq] at hq
          rw [← hq]
          exact fun _ => .inl rfl
      · have := eold w hq
        simp only [Server.step] at this
        exact this

theorem listens_new (limit : Bool) : Listens (Server.new limit : Server π) :=
  ⟨fun sd gr h => by simp only [Server.new, Phase.serving.injEq] at h; rw [← h.2]; exact fun _ => .inl rfl, fun w h => by cases h⟩

theorem run_listens (es : List (Event π)) {s : Server π} (h : Sane s) (hh : Listens s)
    (hu : ∀ pre e post, es = pre ++ e :: post → Patient (s.run pre).1 e) : Listens (s.run es).1 := by
  induction es generalizing s with
  | nil => exact hh
  | cons e es ih =>
    rw [Server.run_cons]
    refine ih (step_sane s e h) (step_listens s e h hh (hu [] e es rfl)) fun pre x post he => ?_
    have := hu (e :: pre) x post (by rw [he]; rfl)
    rw [Server.run_cons] at this
    exact this

/-- the signal to shut down gracefully that is set and then woken is given -/
theorem graceful_given {pre mid post : List (Event π)} (s : Server π) :
    (s.run (pre ++ .gracefulSet :: (mid ++ .gracefulWake :: post))).1.graceful.given := by
  have stays : ∀ (es : List (Event π)) (c : Server π), c.graceful.given → (c.run es).1.graceful.given := by
    intro es
    induction es with
    | nil => exact fun _ h => h
    | cons e es ih =>
      intro c hc
      rw [Server.run_cons]
      refine ih _ ?_
      rcases step_graceful_signal c e with hx | hx | ⟨hx, -⟩
      · rw [hx]; exact hc
      · rw [hx, Signal.set, if_pos hc.1]; exact hc
      · rw [hx, Signal.wake, if_neg (by rw [hc.2]; simp)]; exact hc
  have hm : ((s.run (pre ++ .gracefulSet :: mid)).1).graceful.triggered = true := (run_graceful _).2 (.inr (by simp))
  have hsplit : pre ++ .gracefulSet :: (mid ++ .gracefulWake :: post) = (pre ++ .gracefulSet :: mid) ++ .gracefulWake :: post := by simp
  rw [hsplit, Server.run_append]
  dsimp only
  generalize (s.run (pre ++ .gracefulSet :: mid)).1 = c at *
  rw [Server.run_cons]
  refine stays post _ ?_
  simp only [Server.step]
  unfold Signal.wake
  split
  · exact ⟨hm, rfl⟩
  · rename_i ho; exact ⟨hm, by simpa using ho⟩

/-- a turn of `serve` -/
def turn : List (Event π) := [.serverPoll, .serverPoll, .serverPoll, .gracefulPoll, .count, .endPoll, .force]

theorem returned_stays (es : List (Event π)) {s : Server π} {ok : Bool} (h : s.phase = .returned ok) : (s.run es).1.phase = .returned ok := by
  induction es generalizing s with
  | nil => exact h
  | cons e es ih =>
    rw [Server.run_cons]
    refine ih ?_
    cases e with
    | drop t =>
      simp only [Server.step]
      repeat' (first | exact h | split)
    | tell t =>
      simp only [Server.step]
      repeat' (first | exact h | split)
    | _ => simp [Server.step, h, worker_phase]

theorem server_polls {s : Server π} {sd gr : Wait} (h : s.phase = .serving sd gr) :
    (s.run [.serverPoll, .serverPoll, .serverPoll]).1.phase = .returned true ∨
    ∃ n, (s.run [.serverPoll, .serverPoll, .serverPoll]).1 = { s with phase := .serving (.waiting n) gr } := by
  have hover : ∀ es : List (Event π), sd.poll s.shutdown = .over → (s.run (.serverPoll :: es)).1.phase = .returned true := by
    intro es ho
    rw [Server.run_cons]
    exact returned_stays es (by simp [Server.step, h, ho])
  cases sd with
  | start =>
    cases ht : s.shutdown.triggered with
    | true => left; exact hover _ (by simp [Wait.poll, ht])
    | false => right; exact ⟨s.shutdown.calls, by simp [Server.run, Server.step, h, Wait.poll, ht]⟩
  | loaded => right; exact ⟨s.shutdown.calls, by simp [Server.run, Server.step, h, Wait.poll]⟩
  | waiting n =>
    by_cases hn : s.shutdown.calls = n
    · right; exact ⟨n, by simp [Server.run, Server.step, h, Wait.poll, hn]⟩
    · left; exact hover _ (by simp [Wait.poll, hn])
  | over => left; exact hover _ rfl

/-- once no connection is left and all is said, a turn of `serve` ends it -/
theorem turn_ends {s : Server π} (h : Sane s) (hl : Listens s) (hg : s.graceful.given) (hc : s.count = 0)
    (he : ∀ w, s.phase = .draining w → s.ended.given) : ∃ ok, (s.run turn).1.phase = .returned ok := by
  have hsplit : (turn : List (Event π)) = [.serverPoll, .serverPoll, .serverPoll] ++ [.gracefulPoll, .count, .endPoll, .force] := rfl
  cases hq : s.phase with
  | returned ok => exact ⟨ok, returned_stays _ hq⟩
  | forcing => exact ⟨true, by simp [turn, Server.run, Server.step, hq]⟩
  | draining w =>
    have := Wait.fine_over (hl.2 w hq) (he w hq)
    exact ⟨true, by simp [turn, Server.run, Server.step, hq, this]⟩
  | closing => exact ⟨true, by simp [turn, Server.run, Server.step, hq, hc]⟩
  | serving sd gr =>
    have hgr := Wait.fine_over (hl.1 sd gr hq) hg
    rw [hsplit, Server.run_append]
    dsimp only
    rcases server_polls hq with h1 | ⟨n, h1⟩
    · exact ⟨true, returned_stays _ h1⟩
    · rw [h1]
      exact ⟨true, by simp [Server.run, Server.step, hgr, hc]⟩

end Verif.BmpServer
