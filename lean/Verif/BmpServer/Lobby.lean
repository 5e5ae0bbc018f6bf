import Verif.BmpServer.Model
/-! # Those who wait for a signal -/

namespace Verif.BmpServer
open Verif

/-- the number of calls says whether the waiters were woken -/
structure Signal.Ok (s : Signal) : Prop where
  woken : s.calls = if s.triggered ∧ s.owing = false then 1 else 0
  owes : s.owing = true → s.triggered = true

theorem Signal.ok_new : Signal.new.Ok := ⟨rfl, by simp [Signal.new]⟩

theorem Signal.Ok.set {s : Signal} (h : s.Ok) : s.set.Ok := by
  obtain ⟨h1, h2⟩ := h
  unfold Signal.set
  split
  · exact ⟨h1, h2⟩
  · rename_i ht
    refine ⟨?_, fun _ => rfl⟩
    simp only [h1]
    simp [ht]

theorem Signal.Ok.wake {s : Signal} (h : s.Ok) : s.wake.Ok := by
  obtain ⟨h1, h2⟩ := h
  unfold Signal.wake
  split
  · rename_i ho
    refine ⟨?_, fun h => absurd h (by simp)⟩
    simp only [h1]
    simp [ho, h2 ho]
  · exact ⟨h1, h2⟩

/-- the signal was given: a call of `notify_waiters` has returned -/
def Signal.given (s : Signal) : Prop := s.triggered = true ∧ s.owing = false

instance (s : Signal) : Decidable s.given := inferInstanceAs (Decidable (s.triggered = true ∧ s.owing = false))

theorem Wait.poll_le {s : Signal} {w : Wait} (h : ∀ n, w = .waiting n → n ≤ s.calls) (n : Nat) (hn : w.poll s = .waiting n) : n ≤ s.calls := by
  cases w with
  | start => simp only [Wait.poll] at hn; split at hn <;> cases hn
  | loaded => simp only [Wait.poll] at hn; cases hn; exact Nat.le_refl _
  | waiting m =>
    simp only [Wait.poll] at hn
    split at hn
    · cases hn; exact h _ rfl
    · cases hn
  | over => simp [Wait.poll] at hn

/-- who gets through found that the signal is set -/
theorem Wait.poll_over {s : Signal} {w : Wait} (hs : s.Ok) (h : ∀ n, w = .waiting n → n ≤ s.calls) (ho : w.poll s = .over) :
    w = .over ∨ s.triggered = true := by
  cases w with
  | start =>
    right
    simp only [Wait.poll] at ho
    split at ho
    · assumption
    · cases ho
  | loaded => cases ho
  | waiting m =>
    right
    simp only [Wait.poll] at ho
    split at ho
    · cases ho
    · rename_i hc
      have := h m rfl
      have := hs.woken
      split at this
      · rename_i hx; exact hx.1
      · omega
  | over => exact .inl rfl

/-- who has not looked between is sure -/
def Wait.fine (s : Signal) (w : Wait) : Prop := s.given → w = .start ∨ w = .over ∨ ∃ n, w = .waiting n ∧ n ≠ s.calls

theorem Wait.fine_poll {s : Signal} {w : Wait} (h : w.fine s) : (w.poll s).fine s := by
  intro hg
  rcases h hg with rfl | rfl | ⟨n, rfl, hn⟩
  · right; left; simp [Wait.poll, hg.1]
  · right; left; rfl
  · right; left; simp only [Wait.poll]; rw [if_neg (fun he => hn he.symm)]

theorem Wait.fine_over {s : Signal} {w : Wait} (h : w.fine s) (hg : s.given) : w.poll s = .over := by
  rcases h hg with rfl | rfl | ⟨n, rfl, hn⟩
  · simp [Wait.poll, hg.1]
  · rfl
  · simp only [Wait.poll]; rw [if_neg (fun he => hn he.symm)]

/-- setting does not give the signal, unless it was given -/
theorem Signal.set_given {s : Signal} (h : s.set.given) : s.given ∧ s.set = s := by
  unfold Signal.set at h ⊢
  split
  · rename_i ht; rw [if_pos ht] at h; exact ⟨h, rfl⟩
  · rename_i ht; rw [if_neg ht] at h; exact absurd h.2 (by simp)

theorem Wait.fine_set {s : Signal} {w : Wait} (h : w.fine s) : w.fine s.set := by
  intro hg
  obtain ⟨h1, h2⟩ := Signal.set_given hg
  rw [h2]; exact h h1

theorem Wait.fine_wake {s : Signal} {w : Wait} (h : w.fine s) (hl : s.owing = true → w ≠ .loaded) (hle : ∀ n, w = .waiting n → n ≤ s.calls) :
    w.fine s.wake := by
  unfold Signal.wake
  split
  · rename_i ho
    intro _
    cases w with
    | start => exact .inl rfl
    | over => exact .inr (.inl rfl)
    | loaded => exact absurd rfl (hl ho)
    | waiting n =>
      right; right
      refine ⟨n, rfl, ?_⟩
      have := hle n rfl
      show n ≠ s.calls + 1
      omega
  · exact h

theorem Signal.set_calls (s : Signal) : s.set.calls = s.calls := by unfold Signal.set; split <;> rfl
theorem Signal.wake_calls (s : Signal) : s.calls ≤ s.wake.calls := by unfold Signal.wake; split <;> simp
theorem Signal.set_triggered (s : Signal) : s.set.triggered = true := by
  unfold Signal.set; split
  · assumption
  · rfl
theorem Signal.wake_triggered (s : Signal) : s.wake.triggered = s.triggered := by unfold Signal.wake; split <;> rfl

/-! ## Runs of those who wait -/

/-- the state of a lobby is as it can be -/
structure Lobby.Ok (l : Lobby) : Prop where
  signal : l.signal.Ok
  below : ∀ (w n : Nat), l.waits[w]? = some (.waiting n) → n ≤ l.signal.calls
  early : ∀ w : Nat, l.waits[w]? = some .over → l.signal.triggered = true

theorem Lobby.ok_new : Lobby.new.Ok := ⟨Signal.ok_new, fun _ _ h => (by cases h), fun _ h => (by cases h)⟩

theorem Lobby.Ok.step {l : Lobby} (h : l.Ok) (e : LobbyEvent) : (l.step e).Ok := by
  obtain ⟨h1, h2, h3⟩ := h
  cases e with
  | set => exact ⟨h1.set, fun w n hw => by simp only [Lobby.step, Signal.set_calls]; exact h2 w n hw, fun _ _ => Signal.set_triggered _⟩
  | wake =>
    exact ⟨h1.wake, fun w n hw => Nat.le_trans (h2 w n hw) (Signal.wake_calls _), fun w hw => by
      simp only [Lobby.step, Signal.wake_triggered]; exact h3 w hw⟩
  | join =>
    refine ⟨h1, fun w n hw => ?_, fun w hw => ?_⟩
    · simp only [Lobby.step] at hw ⊢
      rw [List.getElem?_append] at hw
      split at hw
      · exact h2 w n hw
      · rw [List.getElem?_singleton] at hw; split at hw <;> cases hw
    · simp only [Lobby.step] at hw ⊢
      rw [List.getElem?_append] at hw
      split at hw
      · exact h3 w hw
      · rw [List.getElem?_singleton] at hw; split at hw <;> cases hw
  | poll i =>
    refine ⟨h1, fun w n hw => ?_, fun w hw => ?_⟩
    · simp only [Lobby.step, List.getElem?_modify] at hw ⊢
      cases hx : l.waits[w]? with
      | none => rw [hx] at hw; cases hw
      | some x =>
        rw [hx] at hw
        simp only [Option.map_eq_map, Option.map_some, Option.some.injEq] at hw
        split at hw
        · exact Wait.poll_le (fun m hm => h2 w m (by rw [hx, hm])) n hw
        · exact h2 w n (by rw [hx, hw])
    · simp only [Lobby.step, List.getElem?_modify] at hw ⊢
      cases hx : l.waits[w]? with
      | none => rw [hx] at hw; cases hw
      | some x =>
        rw [hx] at hw
        simp only [Option.map_eq_map, Option.map_some, Option.some.injEq] at hw
        split at hw
        · rcases Wait.poll_over h1 (fun m hm => h2 w m (by rw [hx, hm])) hw with h | h
          · exact h3 w (by rw [hx, h])
          · exact h
        · exact h3 w (by rw [hx, hw])

theorem Lobby.Ok.run {l : Lobby} (h : l.Ok) (es : List LobbyEvent) : (l.run es).Ok := by
  induction es generalizing l with
  | nil => exact h
  | cons e es ih => exact ih (h.step e)

theorem Lobby.run_append (l : Lobby) (es fs : List LobbyEvent) : l.run (es ++ fs) = (l.run es).run fs := List.foldl_append

/-- set or not, the signal is triggered from the first call on -/
theorem Lobby.triggered_iff (es : List LobbyEvent) {l : Lobby} :
    (l.run es).signal.triggered = true ↔ l.signal.triggered = true ∨ LobbyEvent.set ∈ es := by
  induction es generalizing l with
  | nil => simp [Lobby.run]
  | cons e es ih =>
    show ((l.step e).run es).signal.triggered = true ↔ _
    rw [ih]
    cases e with
    | set => simp [Lobby.step, Signal.set_triggered]
    | wake => simp [Lobby.step, Signal.wake_triggered]
    | join => simp [Lobby.step]
    | poll w => simp [Lobby.step]

/-- nobody is between its two looks when waiters are woken -/
def Lobby.Calm (l : Lobby) (es : List LobbyEvent) : Prop :=
  ∀ pre post, es = pre ++ .wake :: post → (l.run pre).signal.owing = true → Wait.loaded ∉ (l.run pre).waits

theorem Lobby.run_fine (es : List LobbyEvent) {l : Lobby} (h : l.Ok) (hc : l.Calm es) (hf : ∀ w ∈ l.waits, w.fine l.signal) :
    ∀ w ∈ (l.run es).waits, w.fine (l.run es).signal := by
  induction es generalizing l with
  | nil => exact hf
  | cons e es ih =>
    refine ih (h.step e) (fun pre post he ho => ?_) ?_
    · exact hc (e :: pre) post (by rw [he]; rfl) ho
    · cases e with
      | set => exact fun w hw => Wait.fine_set (hf w hw)
      | wake =>
        intro w hw
        replace hw : w ∈ l.waits := hw
        refine Wait.fine_wake (hf w hw) (fun ho hl => hc [] es rfl ho (hl ▸ hw)) fun n hn => ?_
        obtain ⟨i, hi⟩ := List.getElem?_of_mem hw
        exact h.below i n (by rw [hi, hn])
      | join =>
        intro w hw
        simp only [Lobby.step, List.mem_append, List.mem_singleton] at hw ⊢
        rcases hw with hw | rfl
        · exact hf w hw
        · exact fun _ => .inl rfl
      | poll i =>
        intro w hw
        obtain ⟨j, hj⟩ := List.getElem?_of_mem hw
        simp only [Lobby.step, List.getElem?_modify] at hj ⊢
        cases hx : l.waits[j]? with
        | none => rw [hx] at hj; cases hj
        | some x =>
          rw [hx] at hj
          simp only [Option.map_eq_map, Option.map_some, Option.some.injEq] at hj
          have hfx := hf x (List.mem_of_getElem? hx)
          split at hj
          · rw [← hj]; exact Wait.fine_poll hfx
          · rw [← hj]; exact hfx

/-- the signal that is given stays given, and nothing more is called -/
theorem Lobby.given_stays (es : List LobbyEvent) {l : Lobby} (hg : l.signal.given) : (l.run es).signal = l.signal := by
  induction es generalizing l with
  | nil => rfl
  | cons e es ih =>
    have : (l.step e).signal = l.signal := by
      cases e with
      | set => simp [Lobby.step, Signal.set, hg.1]
      | wake => simp [Lobby.step, Signal.wake, hg.2]
      | join => rfl
      | poll w => rfl
    show ((l.step e).run es).signal = _
    rw [ih (by rw [this]; exact hg), this]

/-- who is stuck stays stuck -/
theorem Lobby.stuck_stays (es : List LobbyEvent) {l : Lobby} {w n : Nat} (hg : l.signal.given) (hw : l.waits[w]? = some (.waiting n))
    (hn : n = l.signal.calls) : (l.run es).waits[w]? = some (.waiting n) := by
  induction es generalizing l with
  | nil => exact hw
  | cons e es ih =>
    have hs : (l.step e).signal = l.signal := Lobby.given_stays [e] hg
    refine ih (by rw [hs]; exact hg) ?_ (by rw [hs]; exact hn)
    cases e with
    | set => exact hw
    | wake => exact hw
    | join =>
      simp only [Lobby.step]
      rw [List.getElem?_append_left (List.getElem?_eq_some_iff.1 hw).1, hw]
    | poll i =>
      simp only [Lobby.step, List.getElem?_modify, hw, Option.map_eq_map, Option.map_some]
      split
      · simp [Wait.poll, hn]
      · rfl

end Verif.BmpServer
