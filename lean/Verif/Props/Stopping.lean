import Verif.Collector.Stopping
import Verif.Props.Wiring
/-!
# Which actors a collection tells to stop (C302)
-/
namespace Verif.Props
open Verif.Wiring

/-- all that a configuration of BMP makes are publishers -/
theorem stopping_bmp {gs : List Group} {w : Wired} (h : groups .bmp 0 gs = some w) : (∀ c ∈ w.chains, c.stages = [.publisher]) ∧ w.inputs = [] := by
  refine ⟨fun c hc => ?_, ?_⟩
  · obtain ⟨j, g, k, e, st, s, -, -, hst, -, rfl⟩ := (wiring_groups h c).mp hc
    cases hk : e.kind <;> rw [hk] at hst <;> simp [stages] at hst <;> exact hst.symm
  · suffices H : ∀ gi w, groups .bmp gi gs = some w → w.inputs = [] from H 0 w h
    clear h
    induction gs with
    | nil => intro gi w h; injection h with h; subst h; rfl
    | cons g gs ih =>
      intro gi w h
      simp only [groups, Option.bind_eq_some_iff, Option.map_eq_some_iff] at h
      obtain ⟨a, ha, b, hb, rfl⟩ := h
      suffices H : ∀ es ei known a, endpoints .bmp g gi ei known es = some a → a.inputs = [] by simp [ih _ _ hb, H _ _ _ _ ha]
      intro es
      induction es with
      | nil => intro ei known a h; injection h with h; subst h; rfl
      | cons e es ih =>
        intro ei known a h
        simp only [endpoints, Option.bind_eq_some_iff, Option.map_eq_some_iff] at h
        obtain ⟨x, hx, y, hy, rfl⟩ := h
        obtain ⟨st, hst, -, h3⟩ := wiring_endpoint hx
        have hn : .enrichment ∉ st := by cases hk : e.kind <;> rw [hk] at hst <;> simp [stages] at hst <;> subst hst <;> simp
        rw [if_neg hn] at h3
        simp [h3, ih _ _ _ hy]

/-- C302: when a task of a collection has ended, all actors that the collection has made are told to stop. -/
theorem c302_task {v : Svc} {gs : List Group} {w : Wired} (h : groups v 0 gs = some w) : ∀ a, a ∈ w.made v ↔ a ∈ w.told v .task := by
  intro a
  cases v with
  | flow => simp [Wired.made, Wired.told]
  | udp => simp [Wired.made, Wired.told]
  | bmp =>
    obtain ⟨h1, h2⟩ := stopping_bmp h
    simp only [Wired.made, Wired.told, Wired.actors, Wired.publishers, h2, List.map_nil, List.append_nil, List.mem_flatMap, List.mem_map, List.mem_filter]
    simp only [reduceCtorEq, if_false, List.append_nil, List.mem_flatMap, List.mem_map, List.mem_filter]
    constructor
    · rintro ⟨c, hc, s, hs, rfl⟩
      rw [h1 c hc.1] at hs
      simp only [List.mem_singleton] at hs
      subst hs
      exact ⟨c, hc, rfl⟩
    · rintro ⟨c, hc, rfl⟩
      exact ⟨c, hc, .publisher, by simpa using hc.2, rfl⟩

/-- C302, in part: when the supervisor has ended, all publishers are told to stop, and for BMP these are all actors. -/
theorem c302_supervisor_partial {v : Svc} {gs : List Group} {w : Wired} (h : groups v 0 gs = some w) :
    (∀ c ∈ w.chains, .publisher ∈ c.stages → .actor c .publisher ∈ w.told v .supervisor) ∧ (v = .bmp → ∀ a ∈ w.made v, a ∈ w.told v .supervisor) := by
  refine ⟨fun c hc hp => ?_, fun hv a ha => ?_⟩
  · simp only [Wired.told, Wired.publishers, List.mem_map, List.mem_filter]
    exact ⟨c, ⟨hc, by simpa using hp⟩, rfl⟩
  · subst hv
    exact (c302_task h a).mp ha

/-- C302 is false: no other actor is told when the supervisor has ended. -/
theorem c302_supervisor_disproved (v : Svc) (w : Wired) : (∀ c s, s ≠ .publisher → .actor c s ∉ w.told v .supervisor) ∧ (∀ i, .input i ∉ w.told v .supervisor) ∧ .schemas ∉ w.told v .supervisor := by
  refine ⟨fun c s hs hm => ?_, fun i hm => ?_, fun hm => ?_⟩ <;>
    (simp only [Wired.told, Wired.publishers, List.mem_map] at hm; obtain ⟨c', -, he⟩ := hm; cases he)
  exact hs rfl

example : ∃ w, groups .flow 0 wiringSample = some w ∧ (w.made .flow).length = 11 ∧ (w.told .flow .task).length = 11 ∧ (w.told .flow .supervisor).length = 4 := ⟨_, rfl, by decide, by decide, by decide⟩

end Verif.Props
