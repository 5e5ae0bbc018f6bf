import Verif.BmpServer.Lemmas
/-! # What holds in all states of the server -/

namespace Verif.BmpServer
open Verif Verif.Service

variable {π : Type}

/-- the connection is counted: its worker has not dropped its watcher -/
def Conn.counted (k : Conn π) : Bool :=
  match k.stage with
  | .reading => true
  | .calling _ => true
  | .leaving => true
  | _ => false

theorem countP_set {p : Conn π → Bool} : ∀ {l : List (Conn π)} {t : Nat} {k k' : Conn π}, l[t]? = some k →
    (l.set t k').countP p + (if p k then 1 else 0) = l.countP p + (if p k' then 1 else 0)
  | [], _, _, _, h => by cases h
  | x :: l, 0, k, k', h => by
    obtain rfl : x = k := by simpa using h
    simp only [List.set_cons_zero, List.countP_cons]
    omega
  | x :: l, t + 1, k, k', h => by
    have := countP_set (p := p) (l := l) (t := t) (k := k) (k' := k') (by simpa using h)
    simp only [List.set_cons_succ, List.countP_cons]
    omega

theorem countP_worker {p : Conn π → Bool} (s : Server π) (t : Nat) (f : Conn π → Conn π) (hf : ∀ k, p (f k) = p k) :
    (s.worker t f).conns.countP p = s.conns.countP p := by
  unfold Server.worker
  split
  · rename_i k hk
    have := countP_set (p := p) (k' := f k) hk
    rw [hf] at this
    dsimp only
    omega
  · rfl

theorem counted_polled (g : Signal) (k : Conn π) : (k.polled g).counted = k.counted := by
  unfold Conn.polled
  split
  · rename_i hl
    split
    · simp only [Conn.live] at hl
      unfold Conn.counted
      cases hs : k.stage <;> simp_all
    · rfl
  · rfl

theorem counted_taken (r : Bool) (k : Conn π) : (k.taken r).1.counted = k.counted := by
  unfold Conn.taken
  split
  · rename_i hl
    split
    · rfl
    · split <;> simp [Conn.counted, hl.1]
  · rfl

theorem counted_answered (a : Answer) (k : Conn π) : (k.answered a).counted = k.counted := by
  unfold Conn.answered
  split
  · rename_i l hl
    simp only [Conn.counted, hl]
    split <;> rename_i h
    · rfl
    · rfl
    · rfl
    · split at h <;> simp_all
  · rfl

theorem worker_count (s : Server π) (t : Nat) (f : Conn π → Conn π) : (s.worker t f).count = s.count := by
  unfold Server.worker; split <;> rfl

theorem worker_phase (s : Server π) (t : Nat) (f : Conn π → Conn π) : (s.worker t f).phase = s.phase := by
  unfold Server.worker; split <;> rfl

theorem worker_signals (s : Server π) (t : Nat) (f : Conn π → Conn π) :
    (s.worker t f).shutdown = s.shutdown ∧ (s.worker t f).graceful = s.graceful ∧ (s.worker t f).ended = s.ended := by
  unfold Server.worker; split <;> exact ⟨rfl, rfl, rfl⟩

/-- the number of connections is that of those counted -/
def Counts (s : Server π) : Prop := s.count = s.conns.countP Conn.counted

theorem step_counts (s : Server π) (e : Event π) (h : Counts s) : Counts (s.step e).1 := by
  unfold Counts at *
  cases e with
  | arrive t i => simp only [Server.step]; rw [worker_count, countP_worker (p := Conn.counted) _ _ (fun k => { k with input := k.input ++ [i] }) (fun k => rfl), h]
  | poll t => simp only [Server.step]; rw [worker_count, countP_worker _ _ _ (counted_polled _), h]
  | take t r => simp only [Server.step]; rw [worker_count, countP_worker _ _ _ (counted_taken r), h]
  | answer t a => simp only [Server.step]; rw [worker_count, countP_worker _ _ _ (counted_answered a), h]
  | check t =>
    simp only [Server.step]
    rw [worker_count, countP_worker _ _ _ ?_, h]
    intro k
    split
    · rename_i hc
      simp only [Conn.counted, hc]
      split <;> rename_i hx <;> split at hx <;> simp_all
    · rfl
  | drop t =>
    simp only [Server.step]
    split
    · rename_i k hk
      split
      · rename_i hl
        have := countP_set (p := Conn.counted) (k' := { k with stage := if s.count - 1 = 0 then .checking else .gone }) hk
        rw [show k.counted = true by simp [Conn.counted, hl], if_pos rfl, show Conn.counted { k with stage := if s.count - 1 = 0 then .checking else .gone } = false by
          simp only [Conn.counted]; split <;> rename_i hx <;> split at hx <;> simp_all] at this
        simp only [Bool.false_eq_true, if_false] at this
        dsimp only
        omega
      · exact h
    · exact h
  | tell t =>
    simp only [Server.step]
    split
    · rename_i k hk
      split
      · rename_i hl
        have := countP_set (p := Conn.counted) (k' := { k with stage := .gone }) hk
        rw [show k.counted = false by simp [Conn.counted, hl], show Conn.counted { k with stage := .gone } = false from rfl] at this
        simp only [Bool.false_eq_true, if_false] at this
        dsimp only
        omega
      · exact h
    · exact h
  | accept p =>
    simp only [Server.step]
    split
    · simp [h, List.countP_append, Conn.counted]
    · exact h
  | _ => simp only [Server.step] <;> repeat (first | exact h | split)

/-- a connection of which someone is yet to say that it was the last -/
def Conn.tells (k : Conn π) : Bool :=
  match k.stage with
  | .checking => true
  | .telling => true
  | _ => false

/-- what holds of what `serve` does -/
def PhaseOk (s : Server π) : Prop :=
  match s.phase with
  | .serving sd gr => (∀ n, sd = .waiting n → n ≤ s.shutdown.calls) ∧ (∀ n, gr = .waiting n → n ≤ s.graceful.calls) ∧ sd ≠ .over ∧ gr ≠ .over
  | .closing => s.graceful.triggered = true
  | .draining w => s.graceful.triggered = true ∧ (∀ n, w = .waiting n → n ≤ s.ended.calls) ∧ w ≠ .over
  | .forcing => s.shutdown.triggered = true
  | .returned _ => True

/-- what holds of all states -/
structure Sane (s : Server π) : Prop where
  sd : s.shutdown.Ok
  gr : s.graceful.Ok
  en : s.ended.Ok
  phase : PhaseOk s
  below : ∀ (t : Nat) (k : Conn π), s.conns[t]? = some k → (∀ n, k.wait = .waiting n → n ≤ s.shutdown.calls) ∧ (k.wait = .over → s.shutdown.triggered = true)
  before : s.graceful.triggered = false → s.ended.triggered = false ∧ ∀ (t : Nat) (k : Conn π), s.conns[t]? = some k → k.stage ≠ .telling

theorem sane_new (limit : Bool) : Sane (Server.new limit : Server π) :=
  ⟨Signal.ok_new, Signal.ok_new, Signal.ok_new, ⟨fun _ h => (by cases h), fun _ h => (by cases h), (by decide), (by decide)⟩,
    fun _ _ h => (by cases h), fun _ => ⟨rfl, fun _ _ h => (by cases h)⟩⟩

/-- how the signals change in a step -/
theorem step_signals (s : Server π) (e : Event π) :
    ((s.step e).1.shutdown = s.shutdown ∨ (s.step e).1.shutdown = s.shutdown.set ∨ (s.step e).1.shutdown = s.shutdown.wake) ∧
    ((s.step e).1.graceful = s.graceful ∨ (s.step e).1.graceful = s.graceful.set ∨ (s.step e).1.graceful = s.graceful.wake) ∧
    ((s.step e).1.ended = s.ended ∨ (s.step e).1.ended = s.ended.set ∨ (s.step e).1.ended = s.ended.wake) := by
  cases e <;> unfold Server.step <;> dsimp only <;>
    repeat (first
      | exact ⟨.inl rfl, .inl rfl, .inl rfl⟩
      | exact ⟨.inr (.inl rfl), .inl rfl, .inl rfl⟩
      | exact ⟨.inr (.inr rfl), .inl rfl, .inl rfl⟩
      | exact ⟨.inl rfl, .inr (.inl rfl), .inl rfl⟩
      | exact ⟨.inl rfl, .inr (.inr rfl), .inl rfl⟩
      | exact ⟨.inl rfl, .inl rfl, .inr (.inl rfl)⟩
      | exact ⟨.inl rfl, .inl rfl, .inr (.inr rfl)⟩
      | exact ⟨.inl (worker_signals _ _ _).1, .inl (worker_signals _ _ _).2.1, .inl (worker_signals _ _ _).2.2⟩
      | split)

/-- signals do not go back -/
theorem change_signal {g g' : Signal} (h : g' = g ∨ g' = g.set ∨ g' = g.wake) (hg : g.Ok) :
    g'.Ok ∧ g.calls ≤ g'.calls ∧ (g.triggered = true → g'.triggered = true) := by
  rcases h with rfl | rfl | rfl
  · exact ⟨hg, Nat.le_refl _, id⟩
  · exact ⟨hg.set, Nat.le_of_eq (Signal.set_calls g).symm, fun _ => Signal.set_triggered g⟩
  · exact ⟨hg.wake, Signal.wake_calls g, fun h => by rw [Signal.wake_triggered]; exact h⟩

theorem polled_wait (g : Signal) (k : Conn π) : (k.polled g).wait = k.wait ∨ (k.polled g).wait = k.wait.poll g := by
  unfold Conn.polled
  split
  · right
    split
    · rename_i h; rw [h]
    · rfl
  · exact .inl rfl

theorem taken_wait (r : Bool) (k : Conn π) : (k.taken r).1.wait = k.wait := by
  unfold Conn.taken
  repeat (first | rfl | split)

theorem answered_wait (a : Answer) (k : Conn π) : (k.answered a).wait = k.wait := by
  unfold Conn.answered; split <;> rfl

/-- workers wait for the signal to shut down only -/
theorem connStep_wait {s : Server π} {t : Nat} {k k' : Conn π} {e : Event π} (h : k' = k ∨ ConnStep s t k e k') :
    k'.wait = k.wait ∨ k'.wait = k.wait.poll s.shutdown := by
  rcases h with rfl | h
  · exact .inl rfl
  · cases h with
    | poll => exact polled_wait _ _
    | take r => exact .inl (taken_wait r k)
    | answer a => exact .inl (answered_wait a k)
    | _ => exact .inl rfl

theorem phaseOk_mono {s s' : Server π} (hp : s'.phase = s.phase) (h : PhaseOk s) (h1 : s.shutdown.calls ≤ s'.shutdown.calls)
    (h2 : s.graceful.calls ≤ s'.graceful.calls) (h3 : s.ended.calls ≤ s'.ended.calls) (h4 : s.shutdown.triggered = true → s'.shutdown.triggered = true)
    (h5 : s.graceful.triggered = true → s'.graceful.triggered = true) : PhaseOk s' := by
  unfold PhaseOk at *
  rw [hp]
  cases hq : s.phase with
  | serving sd gr =>
    rw [hq] at h
    exact ⟨fun n hn => Nat.le_trans (h.1 n hn) h1, fun n hn => Nat.le_trans (h.2.1 n hn) h2, h.2.2⟩
  | closing => rw [hq] at h; exact h5 h
  | draining w => rw [hq] at h; exact ⟨h5 h.1, fun n hn => Nat.le_trans (h.2.1 n hn) h3, h.2.2⟩
  | forcing => rw [hq] at h; exact h4 h
  | returned o => trivial

theorem poll_waits (g : Signal) (w : Wait) : w.poll g = .over ∨ (w.poll g ≠ .over) := by
  by_cases h : w.poll g = .over
  · exact .inl h
  · exact .inr h

theorem step_phaseOk (s : Server π) (e : Event π) (h : Sane s) : PhaseOk (s.step e).1 := by
  obtain ⟨g1, g2, g3⟩ := step_signals s e
  obtain ⟨-, a1, a2⟩ := change_signal g1 h.sd
  obtain ⟨-, b1, b2⟩ := change_signal g2 h.gr
  obtain ⟨-, c1, -⟩ := change_signal g3 h.en
  have hp := h.phase
  have same : (s.step e).1.phase = s.phase → PhaseOk (s.step e).1 := fun hq => phaseOk_mono hq hp a1 b1 c1 a2 b2
  cases e with
  | serverPoll =>
    simp only [Server.step] at same ⊢
    split
    · rename_i sd gr hq
      have hp' := hp
      unfold PhaseOk at hp'
      rw [hq] at hp'
      split
      · trivial
      · rename_i w hw
        exact ⟨fun n hn => Wait.poll_le hp'.1 n hn, hp'.2.1, hw, hp'.2.2.2⟩
    · exact hp
  | gracefulPoll =>
    simp only [Server.step] at same ⊢
    split
    · rename_i n gr hq
      have hp' := hp
      unfold PhaseOk at hp'
      rw [hq] at hp'
      split
      · rename_i hw
        rcases Wait.poll_over h.gr hp'.2.1 hw with ho | ho
        · exact absurd ho hp'.2.2.2
        · exact ho
      · rename_i w hw
        exact ⟨hp'.1, fun n hn => Wait.poll_le hp'.2.1 n hn, (by simp), hw⟩
    · exact hp
  | accept p =>
    simp only [Server.step] at same ⊢
    split
    · rename_i n gr hq
      have hp' := hp
      unfold PhaseOk at hp'
      rw [hq] at hp'
      exact ⟨hp'.1, fun n hn => (by cases hn), (by simp), (by simp)⟩
    · exact hp
  | acceptFailed =>
    simp only [Server.step] at same ⊢
    split
    · trivial
    · exact hp
  | count =>
    simp only [Server.step] at same ⊢
    split
    · rename_i hq
      have hp' := hp
      unfold PhaseOk at hp'
      rw [hq] at hp'
      unfold PhaseOk
      dsimp only
      by_cases hc : s.count = 0
      · rw [if_pos hc]; trivial
      · rw [if_neg hc]; exact ⟨hp', fun n hn => (by cases hn), by simp⟩
    · exact hp
  | endPoll =>
    simp only [Server.step] at same ⊢
    split
    · rename_i w hq
      have hp' := hp
      unfold PhaseOk at hp'
      rw [hq] at hp'
      split
      · trivial
      · rename_i w' hw
        exact ⟨hp'.1, fun n hn => Wait.poll_le hp'.2.1 n hn, hw⟩
    · exact hp
  | timeout =>
    simp only [Server.step] at same ⊢
    split
    · split
      · exact Signal.set_triggered _
      · exact hp
    · exact hp
  | force =>
    simp only [Server.step] at same ⊢
    split
    · trivial
    · exact hp
  | drop t =>
    refine same ?_
    simp only [Server.step]
    repeat (first | rfl | split)
  | tell t =>
    refine same ?_
    simp only [Server.step]
    repeat (first | rfl | split)
  | _ => exact same (by simp only [Server.step, worker_phase])

theorem polled_telling (g : Signal) (k : Conn π) : (k.polled g).stage = .telling → k.stage = .telling := by
  unfold Conn.polled
  split
  · split
    · intro h; cases h
    · exact id
  · exact id

theorem taken_telling (r : Bool) (k : Conn π) : (k.taken r).1.stage = .telling → k.stage = .telling := by
  unfold Conn.taken
  split
  · split
    · exact id
    · split <;> intro h <;> cases h
  · exact id

theorem answered_telling (a : Answer) (k : Conn π) : (k.answered a).stage = .telling → k.stage = .telling := by
  unfold Conn.answered
  split
  · intro h
    dsimp only at h
    split at h <;> cases h
  · exact id

theorem step_before (s : Server π) (e : Event π) (h : Sane s) (hg : (s.step e).1.graceful.triggered = false) :
    (s.step e).1.ended.triggered = false ∧ ∀ (t : Nat) (k : Conn π), (s.step e).1.conns[t]? = some k → k.stage ≠ .telling := by
  have hg0 : s.graceful.triggered = false := by
    obtain ⟨-, -, h3⟩ := change_signal (step_signals s e).2.1 h.gr
    cases hx : s.graceful.triggered with
    | false => rfl
    | true => rw [h3 hx] at hg; cases hg
  obtain ⟨h1, h2⟩ := h.before hg0
  refine ⟨?_, fun t k' hk' => ?_⟩
  · cases e with
    | tell t =>
      simp only [Server.step]
      split
      · rename_i k hk
        rw [if_neg (h2 t k hk)]
        exact h1
      · exact h1
    | endWake => simp only [Server.step, Signal.wake_triggered]; exact h1
    | _ =>
      simp only [Server.step] <;> repeat (first | exact h1 | (rw [(worker_signals _ _ _).2.2]; exact h1) | split)
  · rcases step_conn_inv s e hk' with ⟨k, hk, hs⟩ | ⟨p, -, -, rfl⟩
    · have hk0 := h2 t k hk
      rcases hs with rfl | hs
      · exact hk0
      · cases hs with
        | arrive i => exact hk0
        | poll => exact fun hx => hk0 (polled_telling _ _ hx)
        | take r => exact fun hx => hk0 (taken_telling _ _ hx)
        | answer a => exact fun hx => hk0 (answered_telling _ _ hx)
        | drop hl => dsimp only; split <;> simp
        | check hl => dsimp only; rw [hg0]; simp
        | tell hl => simp
    · simp

theorem step_sane (s : Server π) (e : Event π) (h : Sane s) : Sane (s.step e).1 := by
  obtain ⟨g1, g2, g3⟩ := step_signals s e
  obtain ⟨a0, a1, a2⟩ := change_signal g1 h.sd
  refine ⟨a0, (change_signal g2 h.gr).1, (change_signal g3 h.en).1, step_phaseOk s e h, fun t k' hk' => ?_, step_before s e h⟩
  rcases step_conn_inv s e hk' with ⟨k, hk, hs⟩ | ⟨p, -, -, rfl⟩
  · obtain ⟨b1, b2⟩ := h.below t k hk
    rcases connStep_wait hs with hw | hw
    · rw [hw]; exact ⟨fun n hn => Nat.le_trans (b1 n hn) a1, fun ho => a2 (b2 ho)⟩
    · rw [hw]
      refine ⟨fun n hn => Nat.le_trans (Wait.poll_le b1 n hn) a1, fun ho => a2 ?_⟩
      rcases Wait.poll_over h.sd b1 ho with hx | hx
      · exact b2 hx
      · exact hx
  · exact ⟨fun n hn => (by cases hn), fun ho => (by cases ho)⟩

theorem run_sane (limit : Bool) (es : List (Event π)) : Sane ((Server.new limit).run es).1 := Server.run_inv step_sane es (sane_new limit)

theorem run_counted (limit : Bool) (es : List (Event π)) : Counts ((Server.new limit).run es).1 := Server.run_inv step_counts es rfl

end Verif.BmpServer
