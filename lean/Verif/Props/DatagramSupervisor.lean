import Verif.Service.Supervisor
import Verif.Props.Datagram
/-!
# C177, C178: the supervisors of the actors that receive datagrams
-/
namespace Verif.Props
open Verif Verif.Service Verif.Collector

variable {σ π : Type}

/-! ## C178 -/

theorem startActors_ids (σ : Type) (bound : List (Option Addr)) : ∀ n,
    (startActors σ n bound).map (fun x => (x.1, x.2.actor.id, x.2.actor.addr, x.2.live)) =
      ((bound.filterMap fun x => x).zipIdx n).map fun x => (x.2, x.2, x.1, true) := by
  induction bound with
  | nil => intro n; rfl
  | cons b bound ih =>
    intro n
    cases b with
    | none => simp only [startActors, List.filterMap_cons]; exact ih n
    | some ad => simp only [startActors, List.filterMap_cons, List.zipIdx_cons, List.map_cons]; rw [ih]; rfl

/-- C178: the supervisor of flows fails to start when no socket can be bound, and otherwise has one actor for each socket that is bound, numbered
from zero -/
theorem c178_flow (σ : Type) (bound : List (Option Addr)) :
    (startFlow σ bound = .noListener ↔ ∀ b ∈ bound, b = none) ∧ startFlow σ bound ≠ .panicked ∧
    ∀ s, startFlow σ bound = .running s →
      s.map (fun x => (x.1, x.2.actor.id, x.2.actor.addr, x.2.live)) =
        (bound.filterMap fun x => x).zipIdx.map fun x => (x.2, x.2, x.1, true) := by
  have hids := startActors_ids σ bound 0
  have hemp : startActors σ 0 bound = [] ↔ ∀ b ∈ bound, b = none := by
    have h1 : startActors σ 0 bound = [] ↔ (bound.filterMap fun x => x) = [] := by
      constructor
      · intro h
        rw [h] at hids
        have := congrArg List.length hids
        simp only [List.map_nil, List.length_nil, List.length_map, List.length_zipIdx] at this
        exact List.eq_nil_of_length_eq_zero this.symm
      · intro h
        rw [h] at hids
        simpa using hids
    rw [h1, List.filterMap_eq_nil_iff]
  unfold startFlow
  simp only
  cases hs : startActors σ 0 bound with
  | nil =>
    rw [hs] at hemp
    refine ⟨⟨fun _ => hemp.1 rfl, fun _ => rfl⟩, by simp, fun s h => by simp at h⟩
  | cons x xs =>
    rw [hs] at hemp hids
    refine ⟨⟨fun h => by simp [joinActors] at h, fun h => absurd (hemp.2 h) (by simp)⟩, by simp [joinActors], fun s h => ?_⟩
    simp [joinActors] at h
    subst h
    exact hids

example : startFlow σ [none, none] = .noListener := rfl
example : startFlow σ [none, some ⟨1, 9991⟩, none, some ⟨1, 9992⟩] =
    .running [(0, ⟨.new 0 ⟨1, 9991⟩, true⟩), (1, ⟨.new 1 ⟨1, 9992⟩, true⟩)] := rfl

/-- C178: the supervisor of UDP-notif panics instead when no socket can be bound -/
theorem c178_disproved (σ : Type) : ∃ bound : List (Option Addr), bound ≠ [] ∧ startUdpNotif σ bound = .panicked :=
  ⟨[none, none], by simp, rfl⟩

/-- C178: when a socket can be bound it has one actor for each that is -/
theorem c178_partial (σ : Type) (bound : List (Option Addr)) (h : ∃ b ∈ bound, b ≠ none) :
    ∃ s, startUdpNotif σ bound = .running s ∧ s.map (fun x => (x.1, x.2.actor.id, x.2.actor.addr, x.2.live)) =
        (bound.filterMap fun x => x).zipIdx.map fun x => (x.2, x.2, x.1, true) := by
  have hids := startActors_ids σ bound 0
  unfold startUdpNotif
  simp only
  cases hs : startActors σ 0 bound with
  | nil =>
    rw [hs] at hids
    exfalso
    obtain ⟨b, hb, hne⟩ := h
    have : (bound.filterMap fun x => x) = [] := by
      have := congrArg List.length hids
      simp only [List.map_nil, List.length_nil, List.length_map, List.length_zipIdx] at this
      exact List.eq_nil_of_length_eq_zero this.symm
    exact hne (List.filterMap_eq_nil_iff.1 this b hb)
  | cons x xs => exact ⟨_, rfl, by rw [← hs]; exact hids⟩

example : startUdpNotif σ [none, some ⟨1, 9991⟩] = .running [(0, ⟨.new 0 ⟨1, 9991⟩, true⟩)] := rfl

/-! ## C177 -/

/-- the supervisor is sound: its actors are, they are kept under their identifiers, and none has given out all identifiers of subscriptions -/
structure Supervised (s : Super σ) : Prop where
  uniq : Uniq s
  named : ∀ x ∈ s, x.2.actor.id = x.1
  sound : ∀ x ∈ s, Sound x.2.actor
  room : ∀ x ∈ s, 0 < x.2.actor.next.toNat ∧ x.2.actor.next.toNat + 1 < 2 ^ 32

/-- the subscriptions the actors would give next -/
def nextSubscriptions (s : Super σ) : List Subscription := (s.filter (·.2.live)).map fun x => ⟨x.1, x.2.actor.next⟩

theorem subscribe_replies (codec : Codec σ π) (chans : List Chan) : ∀ s : Super σ, (∀ x ∈ s, x.2.actor.id = x.1) →
    (s.subscribe codec chans).2 = nextSubscriptions s := by
  intro s
  induction s with
  | nil => intro _; rfl
  | cons x s ih =>
    intro h
    have ih := ih fun y hy => h y (List.mem_cons_of_mem _ hy)
    have hx := h x (List.mem_cons_self ..)
    simp only [Super.subscribe, Super.all, nextSubscriptions] at ih ⊢
    rw [List.flatMap_cons, List.filterMap_append, ih]
    cases hl : x.2.live with
    | false => simp [hl]
    | true => simp [hl, Actor.handle, hx]

theorem unsubscribe_fold (codec : Codec σ π) (ids : List UInt32) : ∀ (a : Actor σ) (i : UInt32),
    ((ids.foldl (fun (a : Actor σ) i => (a.handle codec (.unsubscribe i)).1) a).subscribers.look i) =
      if i ∈ ids then none else a.subscribers.look i := by
  induction ids with
  | nil => intro a i; simp
  | cons j ids ih =>
    intro a i
    rw [List.foldl_cons, ih]
    show (if i ∈ ids then none else (del a.subscribers j).look i) = _
    rw [lookup_del]
    by_cases h1 : i ∈ ids
    · rw [if_pos h1, if_pos (List.mem_cons_of_mem _ h1)]
    · rw [if_neg h1]
      by_cases h2 : j = i
      · rw [if_pos h2, if_pos (by rw [h2]; exact List.mem_cons_self ..)]
      · rw [if_neg h2, if_neg]
        rintro (_ | h)
        · exact h2 rfl
        · rename_i h; exact h1 h

theorem mapped_next (s : Super σ) (hu : Uniq s) {x : Nat × Worker σ} (hx : x ∈ s) (hl : x.2.live = true) :
    mapped (nextSubscriptions s) x.1 = [x.2.actor.next] := by
  induction s with
  | nil => cases hx
  | cons y s ih =>
    obtain ⟨h1, h2⟩ := List.pairwise_cons.1 hu
    rcases List.mem_cons.1 hx with rfl | hx
    · have hnil : mapped (nextSubscriptions s) x.1 = [] := by
        simp only [mapped, nextSubscriptions, List.map_eq_nil_iff, List.filter_eq_nil_iff, List.mem_map, List.mem_filter]
        rintro _ ⟨z, ⟨hz, -⟩, rfl⟩
        simp only [decide_eq_true_eq]
        exact fun e => h1 z hz e.symm
      simp only [mapped, nextSubscriptions] at hnil ⊢
      rw [List.filter_cons, if_pos hl]
      simp only [List.map_cons, List.filter_cons, decide_true, if_true]
      rw [hnil]
    · have ih := ih h2 hx
      have hne : y.1 ≠ x.1 := h1 x hx
      simp only [mapped, nextSubscriptions] at ih ⊢
      rw [List.filter_cons]
      cases hy : y.2.live with
      | false => simpa using ih
      | true => simp only [if_true, List.map_cons, List.filter_cons, hne, decide_false]; exact ih

/-- C177: subscribing gives one subscription for each actor that has not ended, and that actor then has it, with the channels asked for; others
stay -/
theorem c177_subscribe (codec : Codec σ π) (chans : List Chan) (s : Super σ) (hs : Supervised s) :
    let r := s.subscribe codec chans
    r.2 = nextSubscriptions s ∧ r.1.map (·.1) = s.map (·.1) ∧
    ∀ x ∈ s, x.2.live = true → ∃ a, (x.1, ⟨a, true⟩) ∈ r.1 ∧ ⟨x.1, x.2.actor.next⟩ ∈ r.2 ∧
      ∀ i, a.subscribers.look i = if x.2.actor.next = i then some chans else x.2.actor.subscribers.look i := by
  refine ⟨subscribe_replies codec chans s hs.named, ?_, ?_⟩
  · simp only [Super.subscribe, Super.all, List.map_map]
    refine List.map_congr_left fun x _ => ?_
    simp only [Function.comp]
    by_cases h : x.2.live = true
    · rw [if_pos h]
    · rw [if_neg h]
  · intro x hx hl
    refine ⟨(x.2.actor.handle codec (.subscribe chans true)).1, ?_, ?_, ?_⟩
    · simp only [Super.subscribe, Super.all, List.mem_map]
      exact ⟨x, hx, by rw [if_pos hl, hl]⟩
    · show _ ∈ (s.subscribe codec chans).2
      rw [subscribe_replies codec chans s hs.named]
      exact List.mem_map.2 ⟨x, List.mem_filter.2 ⟨hx, hl⟩, rfl⟩
    · intro i
      show (put x.2.actor.subscribers x.2.actor.next chans).look i = _
      rw [lookup_put]

/-- C177: unsubscribing what subscribing gave leaves every actor with the subscribers it had, and each actor that has not ended is named in the
answer -/
theorem c177_unsubscribe (codec : Codec σ π) (chans : List Chan) (s : Super σ) (hs : Supervised s) :
    let r := s.subscribe codec chans
    let q := r.1.unsubscribe codec r.2
    q.2 = s.map (fun x => if x.2.live then some x.1 else none) ∧
    ∀ x ∈ s, ∃ a, (x.1, ⟨a, x.2.live⟩) ∈ q.1 ∧ ∀ i, a.subscribers.look i = x.2.actor.subscribers.look i := by
  simp only
  rw [subscribe_replies codec chans s hs.named]
  have hfst : (s.subscribe codec chans).1 = s.map fun x => if x.2.live then (x.1, { x.2 with actor := (x.2.actor.handle codec (.subscribe chans true)).1 }) else x := rfl
  rw [hfst]
  constructor
  · simp only [Super.unsubscribe, List.map_map]
    refine List.map_congr_left fun x hx => ?_
    simp only [Function.comp]
    by_cases h : x.2.live = true
    · rw [if_pos h, if_pos h]
      simp only
      rw [if_pos]
      exact ⟨h, by rw [mapped_next s hs.uniq hx h]; simp⟩
    · rw [if_neg h, if_neg h, if_neg (fun hh => h hh.1)]
  · intro x hx
    by_cases h : x.2.live = true
    · refine ⟨[x.2.actor.next].foldl (fun (a : Actor σ) i => (a.handle codec (.unsubscribe i)).1) (x.2.actor.handle codec (.subscribe chans true)).1, ?_, ?_⟩
      · simp only [Super.unsubscribe, List.map_map, List.mem_map]
        refine ⟨x, hx, ?_⟩
        simp only [Function.comp]
        rw [if_pos h]
        simp only
        rw [if_pos h, mapped_next s hs.uniq hx h]
      · intro i
        rw [unsubscribe_fold]
        by_cases hi : i = x.2.actor.next
        · subst hi
          rw [if_pos (List.mem_singleton.2 rfl)]
          symm
          refine look_eq_none fun y hy e => ?_
          have := ((hs.sound x hx).given y hy).2
          rw [← e] at this
          omega
        · rw [if_neg (fun hh => hi (List.mem_singleton.1 hh))]
          show (put x.2.actor.subscribers x.2.actor.next chans).look i = _
          rw [lookup_put, if_neg (Ne.symm hi)]
    · refine ⟨x.2.actor, ?_, fun _ => rfl⟩
      simp only [Super.unsubscribe, List.map_map, List.mem_map]
      refine ⟨x, hx, ?_⟩
      simp only [Function.comp]
      rw [if_neg h, if_neg h]

/-- a supervisor that was just started, with two actors, one of which has ended -/
example : Supervised ([(0, ⟨.new 0 ⟨1, 9991⟩, true⟩), (1, ⟨.new 1 ⟨1, 9992⟩, false⟩)] : Super σ) where
  uniq := by simp [Uniq]
  named := by simp [Actor.new]
  sound := by
    intro x hx
    simp at hx
    rcases hx with rfl | rfl
    · exact sound_new 0 _
    · exact sound_new 1 _
  room := by
    intro x hx
    simp at hx
    rcases hx with rfl | rfl <;> exact ⟨Nat.one_pos, (by decide : 1 + 1 < 2 ^ 32)⟩

/-- C177: the answer names the actor even if it never had the subscription, so it does not tell what was unsubscribed -/
theorem c177_disproved (codec : Codec σ π) : ∃ (s : Super σ) (x : Subscription), Supervised s ∧
    (∀ y ∈ s, y.2.actor.subscribers.look x.id = none) ∧ (s.unsubscribe codec [x]).2 = [some x.actor] := by
  refine ⟨[(0, ⟨.new 0 ⟨1, 9991⟩, true⟩)], ⟨0, 55⟩, ⟨by simp [Uniq], by simp [Actor.new], ?_, ?_⟩, ?_, rfl⟩
  · intro x hx
    rw [List.mem_singleton.1 hx]
    exact sound_new 0 _
  · intro x hx
    rw [List.mem_singleton.1 hx]
    exact ⟨Nat.one_pos, (by decide : 1 + 1 < 2 ^ 32)⟩
  · intro y hy
    rw [List.mem_singleton.1 hy]
    rfl

end Verif.Props
