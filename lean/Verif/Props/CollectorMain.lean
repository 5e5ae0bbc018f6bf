import Verif.Collector.Main
/-!
# The end of the collector (C301)
-/
namespace Verif.Props
open Verif.CollectorMain

/-- the collection that an event is about -/
def collectionOf : Event → Option Nat
  | .ends i => some i
  | .fails i _ => some i
  | .interrupt => none

/-- events of `n` collections, each of which ends once -/
def Proper (n : Nat) (es : List Event) : Prop := (es.filterMap collectionOf).Nodup ∧ ∀ i ∈ es.filterMap collectionOf, i < n

theorem main_append (n : Nat) (es : List Event) (e : Event) : run n (es ++ [e]) = step n (run n es) e := by simp [run]

theorem main_stays (n : Nat) (es : List Event) (s : State) (h : s.exit.isSome) : es.foldl (step n) s = s := by
  induction es with
  | nil => rfl
  | cons e es ih =>
    rw [List.foldl_cons]
    have : step n s e = s := by unfold step; rw [if_pos h]
    rw [this, ih]

/-- C301: once the collector has exited nothing changes that. -/
theorem c301_final (n : Nat) (es fs : List Event) (h : (run n es).exit.isSome) : run n (es ++ fs) = run n es := by
  unfold run at h ⊢
  rw [List.foldl_append]
  exact main_stays n fs _ h

/-- successes of collections, in any order -/
theorem main_ends {n : Nat} (is : List Nat) (hn : is.Nodup) (hl : ∀ i ∈ is, i < n) (hlen : is.length ≤ n) : run n (is.map .ends) = { ended := is, told := is, exit := if is.length = n then some true else none } := by
  suffices H : ∀ (l : List Nat), l.reverse.Nodup → (∀ i ∈ l, i < n) → l.length ≤ n → run n (l.reverse.map .ends) = { ended := l.reverse, told := l.reverse, exit := if l.length = n then some true else none } by
    have := H is.reverse (by simpa using hn) (by simpa using hl) (by simpa using hlen)
    simpa using this
  intro l
  induction l with
  | nil => intro _ _ _; simp [run, start, eq_comm]
  | cons i l ih =>
    intro h1 h2 h3
    rw [List.reverse_cons] at h1
    rw [List.reverse_cons, List.map_append, List.map_cons, List.map_nil, main_append]
    have hnd := List.nodup_append.mp h1
    rw [ih hnd.1 (fun j hj => h2 j (by simp [hj])) (by simp at h3; omega)]
    simp only [List.length_cons] at h3
    have hne : ¬ l.length = n := by omega
    have hi : i ∉ l.reverse := fun hm => hnd.2.2 i hm i (by simp) rfl
    unfold step
    simp only [if_neg hne]
    rw [if_neg (by simp), if_pos ⟨h2 i (by simp), hi⟩]
    simp

/-- C301: the collector goes on while there is a collection that has not ended, if none failed and it was not interrupted; when all have ended it exits with success, and each has told its actors to stop. -/
theorem c301_goes_on {n : Nat} (is : List Nat) (hp : Proper n (is.map .ends)) (hlen : is.length ≤ n) :
    ((run n (is.map .ends)).exit = none ↔ is.length < n) ∧ (is.length = n → (run n (is.map .ends)).exit = some true) ∧ (run n (is.map .ends)).told = is := by
  have hf : (is.map Event.ends).filterMap collectionOf = is := by
    rw [List.filterMap_map]
    exact List.filterMap_some
  unfold Proper at hp
  rw [hf] at hp
  rw [main_ends is hp.1 hp.2 hlen]
  refine ⟨?_, fun h => by simp [h], rfl⟩
  by_cases h : is.length = n
  · simp [h]
  · simp only [if_neg h, true_iff]; omega

theorem main_ended (n : Nat) (es : List Event) : ∀ i ∈ (run n es).ended, i ∈ es.filterMap collectionOf := by
  suffices H : ∀ l : List Event, ∀ i ∈ (run n l.reverse).ended, i ∈ l.reverse.filterMap collectionOf by simpa using H es.reverse
  intro l
  induction l with
  | nil => simp [run, start]
  | cons e l ih =>
    intro i hi
    rw [List.reverse_cons, main_append] at hi
    rw [List.reverse_cons, List.filterMap_append, List.mem_append]
    unfold step at hi
    split at hi
    · exact .inl (ih i hi)
    · cases e with
      | interrupt => exact .inl (ih i hi)
      | ends j =>
        simp only at hi
        split at hi
        · rcases List.mem_append.mp hi with hi | hi
          · exact .inl (ih i hi)
          · exact .inr (by simpa [collectionOf] using hi)
        · exact .inl (ih i hi)
      | fails j b =>
        simp only at hi
        split at hi
        · rcases List.mem_append.mp hi with hi | hi
          · exact .inl (ih i hi)
          · exact .inr (by simpa [collectionOf] using hi)
        · exact .inl (ih i hi)

/-- C301: the first failure ends the collector with a failure, and only a failure does. -/
theorem c301_fails {n : Nat} {es : List Event} (hp : Proper n es) : (run n es).exit = some false ↔ ∃ pre i b post, es = pre ++ .fails i b :: post ∧ (run n pre).exit = none := by
  constructor
  · suffices H : ∀ l : List Event, (run n l.reverse).exit = some false → ∃ pre i b post, l.reverse = pre ++ .fails i b :: post ∧ (run n pre).exit = none by
      intro h
      have := H es.reverse (by simpa using h)
      simpa using this
    intro l
    induction l with
    | nil => intro h; simp only [List.reverse_nil, run, start, List.foldl_nil] at h; split at h <;> cases h
    | cons e l ih =>
      intro h
      rw [List.reverse_cons] at h ⊢
      rw [main_append] at h
      by_cases hs : (run n l.reverse).exit.isSome
      · unfold step at h
        rw [if_pos hs] at h
        obtain ⟨pre, i, b, post, h1, h2⟩ := ih h
        exact ⟨pre, i, b, post ++ [e], by rw [h1]; simp, h2⟩
      · have hnone : (run n l.reverse).exit = none := by simpa using hs
        unfold step at h
        rw [if_neg hs] at h
        cases e with
        | interrupt => simp at h
        | ends i =>
          simp only at h
          split at h
          · simp only at h; split at h <;> cases h
          · rw [hnone] at h; cases h
        | fails i b => exact ⟨_, i, b, [], rfl, hnone⟩
  · rintro ⟨pre, i, b, post, rfl, hnone⟩
    have hi : i < n := hp.2 i (by simp [collectionOf])
    have hni : i ∉ (run n pre).ended := by
      intro hm
      have h1 := main_ended n pre i hm
      have h2 := hp.1
      rw [List.filterMap_append, List.nodup_append] at h2
      exact h2.2.2 i h1 i (by simp [collectionOf]) rfl
    have hx : (run n (pre ++ [.fails i b])).exit = some false := by
      rw [main_append]
      unfold step
      rw [if_neg (by simp [hnone])]
      simp only
      rw [if_pos ⟨hi, hni⟩]
    have := c301_final n (pre ++ [.fails i b]) post (by simp [hx])
    rw [List.append_assoc] at this
    rw [show pre ++ .fails i b :: post = pre ++ ([.fails i b] ++ post) from rfl, this, hx]

/-- C301 is false: when it is interrupted the collector exits, and no actor of a collection that runs is told to stop. -/
theorem c301_interrupt_disproved {n : Nat} {es : List Event} (h : (run n es).exit = none) : (run n (es ++ [.interrupt])).exit = some true ∧ (run n (es ++ [.interrupt])).told = (run n es).told := by
  rw [main_append]
  unfold step
  rw [if_neg (by simp [h])]
  exact ⟨rfl, rfl⟩

/-- C301 is false: so it is with the other collections when one fails. -/
theorem c301_others_disproved {n : Nat} (i : Nat) (hi : i < n) (b : Bool) : (run n [.fails i b]).exit = some false ∧ ∀ j, j ≠ i → j ∉ (run n [.fails i b]).told := by
  have hn : ¬ n = 0 := by omega
  have : run n [.fails i b] = { ended := [i], told := if b then [] else [i], exit := some false } := by
    simp [run, start, step, hn, hi]
  rw [this]
  refine ⟨rfl, fun j hj => ?_⟩
  cases b <;> simp [hj]

example : (run 3 [.ends 2, .ends 0]).exit = none ∧ (run 3 [.ends 2, .fails 0 false, .ends 1]).exit = some false ∧ (run 3 [.ends 2, .interrupt]).told = [2] ∧ Proper 3 [.ends 2, .fails 0 false, .ends 1] := ⟨by decide, by decide, by decide, by decide, by decide⟩

end Verif.Props
