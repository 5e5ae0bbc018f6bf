import Verif.BmpServer.Graceful
/-! # Servers that do not end -/

namespace Verif.BmpServer
open Verif Verif.Service

variable {π : Type}

/-- a server that missed the signal to shut down goes on -/
theorem stuck_serving (es : List (Event π)) {s : Server π} {n : Nat} {gr : Wait} (h : Sane s) (hq : s.phase = .serving (.waiting n) gr)
    (hg : s.shutdown.given) (hn : s.shutdown.calls = n) (hgr : s.graceful.triggered = false) (hes : .gracefulSet ∉ es) (hes' : .acceptFailed ∉ es) :
    ∃ gr', (s.run es).1.phase = .serving (.waiting n) gr' := by
  induction es generalizing s gr with
  | nil => exact ⟨gr, hq⟩
  | cons e es ih =>
    rw [Server.run_cons]
    have hsd := step_shutdown_given s e hg
    have hgr' : (s.step e).1.graceful.triggered = false := by
      have : ¬ (s.step e).1.graceful.triggered = true := fun hx => by
        have := (run_graceful [e] (s := s)).1 hx
        rcases this with h1 | h1
        · rw [hgr] at h1; cases h1
        · rw [List.mem_singleton] at h1
          exact hes (h1 ▸ List.mem_cons_self ..)
      simpa using this
    have hph : ∃ gr', (s.step e).1.phase = .serving (.waiting n) gr' := by
      have hp := h.phase
      unfold PhaseOk at hp
      rw [hq] at hp
      cases e with
      | serverPoll => exact ⟨gr, by simp [Server.step, hq, Wait.poll, hn]⟩
      | gracefulPoll =>
        simp only [Server.step, hq]
        split
        · rename_i hw
          rcases Wait.poll_over h.gr hp.2.1 hw with h1 | h1
          · exact absurd h1 hp.2.2.2
          · rw [hgr] at h1; cases h1
        · exact ⟨_, rfl⟩
      | accept p => exact ⟨.start, by simp [Server.step, hq]⟩
      | acceptFailed => exact absurd (List.mem_cons_self ..) hes'
      | drop t => exact ⟨gr, by simp only [Server.step]; repeat' (first | exact hq | split)⟩
      | tell t => exact ⟨gr, by simp only [Server.step]; repeat' (first | exact hq | split)⟩
      | _ => exact ⟨gr, by simp [Server.step, hq, worker_phase]⟩
    obtain ⟨gr', hph⟩ := hph
    exact ih (step_sane s e h) hph (by rw [hsd]; exact hg) (by rw [hsd]; exact hn) hgr' (fun hx => hes (List.mem_cons_of_mem _ hx))
      fun hx => hes' (List.mem_cons_of_mem _ hx)

theorem step_limit (s : Server π) (e : Event π) : (s.step e).1.limit = s.limit := by
  have hw : ∀ t f, (s.worker t f).limit = s.limit := fun t f => by unfold Server.worker; split <;> rfl
  cases e <;> simp only [Server.step] <;> repeat' (first | rfl | exact hw _ _ | split)

/-- a server without a limit that missed the signal that connections have ended goes on to wait -/
theorem stuck_draining (es : List (Event π)) {s : Server π} {n : Nat} (hq : s.phase = .draining (.waiting n)) (hl : s.limit = false)
    (hg : s.ended.given) (hn : s.ended.calls = n) : (s.run es).1.phase = .draining (.waiting n) := by
  induction es generalizing s with
  | nil => exact hq
  | cons e es ih =>
    rw [Server.run_cons]
    have hen : (s.step e).1.ended = s.ended := by
      rcases step_ended_signal s e with hx | hx | ⟨hx, -⟩
      · exact hx
      · rw [hx, Signal.set, if_pos hg.1]
      · rw [hx, Signal.wake, if_neg (by rw [hg.2]; simp)]
    refine ih ?_ (by rw [step_limit]; exact hl) (by rw [hen]; exact hg) (by rw [hen]; exact hn)
    cases e with
    | endPoll => simp [Server.step, hq, Wait.poll, hn]
    | timeout => simp [Server.step, hq, hl]
    | drop t => simp only [Server.step]; repeat' (first | exact hq | split)
    | tell t => simp only [Server.step]; repeat' (first | exact hq | split)
    | _ => simp [Server.step, hq, worker_phase]

/-- nothing is asked for connections that are not taken yet -/
theorem run_absent {t : Nat} (es : List (Event π)) {s : Server π} (h : (s.run es).1.conns.length ≤ t) : requestsOf t (s.run es).2 = [] := by
  have mono : ∀ (es : List (Event π)) (s : Server π), s.conns.length ≤ (s.run es).1.conns.length := by
    intro es
    induction es with
    | nil => exact fun _ => Nat.le_refl _
    | cons e es ih =>
      intro s
      rw [Server.run_cons]
      refine Nat.le_trans ?_ (ih _)
      rw [step_length]
      exact Nat.le_add_right _ _
  induction es generalizing s with
  | nil => rfl
  | cons e es ih =>
    have hm := mono (e :: es) s
    rw [Server.run_cons] at h ⊢
    rw [requestsOf_append, ih h, List.append_nil]
    cases ho : (s.step e).2 with
    | none => rfl
    | some x =>
      obtain ⟨u, i⟩ := x
      obtain ⟨r, k, -, hk, -⟩ := step_request s e ho
      have := (List.getElem?_eq_some_iff.1 hk).1
      rw [Server.run_cons] at hm
      dsimp only at hm h
      have hu : u ≠ t := by omega
      simp [requestsOf, hu]

end Verif.BmpServer
