import Verif.Service.DatagramRuns
import Verif.Collector.CacheLemmas

namespace Verif.Service
open Verif Verif.Collector

variable {σ π : Type}

theorem usedAt_cons (codec : Codec σ π) (p : Addr) (k : Addr → σ) (e : Event) (es : List Event) :
    usedAt codec k p (e :: es) = usedAt codec k p [e] ++ usedAt codec (knowledge codec k [e]) p es := by
  cases e with
  | command c => cases c <;> rfl
  | datagram now q b closed sending =>
    simp only [usedAt, knowledge]
    rcases codec.decode now (k q) b with ⟨x | _ | _ | _, s⟩
    · simp only; by_cases h : q = p
      · rw [if_pos h, if_pos h]; rfl
      · rw [if_neg h, if_neg h]; rfl
    · rfl
    · rfl
    · rfl
  | _ => rfl

theorem usedAt_append (codec : Codec σ π) (p : Addr) (es fs : List Event) : ∀ k : Addr → σ,
    usedAt codec k p (es ++ fs) = usedAt codec k p es ++ usedAt codec (knowledge codec k es) p fs := by
  induction es with
  | nil => intro k; rfl
  | cons e es ih => intro k; rw [List.cons_append, usedAt_cons, ih, usedAt_cons (es := es), knowledge_cons (es := es), List.append_assoc]

theorem usedAt_mem (codec : Codec σ π) (p : Addr) (es : List Event) : ∀ k : Addr → σ, ∀ t ∈ usedAt codec k p es, t ∈ es.filterMap Event.time := by
  induction es with
  | nil => intro k t h; cases h
  | cons e es ih =>
    intro k t h
    rw [usedAt_cons] at h
    rw [List.filterMap_cons]
    rcases List.mem_append.1 h with h | h
    · cases e with
      | datagram now q b closed sending =>
        simp only [usedAt] at h
        have : t = now := by
          rcases hd : codec.decode now (k q) b with ⟨x | _ | _ | _, s⟩ <;> rw [hd] at h
          · simp only at h
            by_cases hq : q = p
            · rw [if_pos hq] at h; exact List.mem_singleton.1 h
            · rw [if_neg hq] at h; cases h
          · cases h
          · cases h
          · cases h
        rw [this]
        exact List.mem_cons_self ..
      | command c => cases c <;> cases h
      | noCommands => cases h
      | socketError => cases h
      | socketDown => cases h
    · cases e.time with
      | none => exact ih _ t h
      | some x => exact List.mem_cons_of_mem _ (ih _ t h)

theorem usedAt_command (codec : Codec σ π) (p : Addr) (k : Addr → σ) (c : Command) : usedAt codec k p [.command c] = [] := by
  cases c <;> rfl

/-- the usage of a peer after a round -/
theorem step_usage {codec : Codec σ π} {hash : Nat → Nat} {a a' : Actor σ} {k : Addr → σ} {e : Event} {out : List (Effect σ π)}
    (hk : Agrees codec a k) (hu : Uniq a.usage) (h : a.step codec hash e = (a', out, none)) (p : Addr) : Uniq a'.usage ∧
    ((∃ now, e.time = some now ∧ usedAt codec k p [e] = [now] ∧
        a'.usage.look p = some ⟨((a.usage.look p).getD ⟨now, 0⟩).lastSet, ((a.usage.look p).getD ⟨now, 0⟩).count + 1⟩) ∨
     (e = .command (.purge p) ∧ usedAt codec k p [e] = [] ∧ (a'.usage.look p = none ∨ a'.usage.look p = a.usage.look p)) ∨
     (∃ now dur, e = .command (.purgeUnused now dur) ∧ usedAt codec k p [e] = [] ∧
        a'.usage.look p = ((a.usage.look p).bind fun u => if u.unused now dur then none else some (u.reset now dur)) ∧
        ((∃ u, a.usage.look p = some u ∧ u.unused now dur = true) → Reported p out)) ∨
     (usedAt codec k p [e] = [] ∧ a'.usage.look p = a.usage.look p ∧ e ≠ .command (.purge p) ∧ ∀ n d, e ≠ .command (.purgeUnused n d))) := by
  cases e with
  | noCommands => simp [Actor.step] at h
  | socketError => simp [Actor.step] at h
  | socketDown => simp [Actor.step] at h
  | datagram now q b closed sending =>
    simp only [usedAt]
    rw [← hk q]
    rcases hd : codec.decode now ((a.clients.look q).getD codec.fresh) b with ⟨x | _ | _ | _, st⟩
    · rw [step_packet hd] at h
      obtain ⟨rfl, h'⟩ := Prod.mk.inj h
      refine ⟨Uniq.put hu _ _, ?_⟩
      simp only
      by_cases hq : q = p
      · subst hq
        exact Or.inl ⟨now, rfl, by rw [if_pos rfl], by rw [lookup_put, if_pos rfl]⟩
      · exact Or.inr (Or.inr (Or.inr ⟨by rw [if_neg hq], by rw [lookup_put, if_neg hq], (fun e => nomatch e), fun _ _ e => nomatch e⟩))
    · rw [step_nothing hd] at h
      obtain ⟨rfl, h'⟩ := Prod.mk.inj h
      exact ⟨hu, Or.inr (Or.inr (Or.inr ⟨rfl, rfl, (fun e => nomatch e), fun _ _ e => nomatch e⟩))⟩
    · rw [step_malformed hd] at h
      obtain ⟨rfl, h'⟩ := Prod.mk.inj h
      exact ⟨hu, Or.inr (Or.inr (Or.inr ⟨rfl, rfl, (fun e => nomatch e), fun _ _ e => nomatch e⟩))⟩
    · rw [step_panics hd] at h; simp at h
  | command c =>
    rw [usedAt_command]
    cases c with
    | shutdown => simp [Actor.step, Actor.handle] at h
    | subscribe chans heard =>
      simp only [Actor.step, Actor.handle] at h
      cases heard <;> simp at h <;> obtain ⟨rfl, -⟩ := h <;> exact ⟨hu, Or.inr (Or.inr (Or.inr ⟨rfl, rfl, (fun e => nomatch e), fun _ _ e => nomatch e⟩))⟩
    | unsubscribe i =>
      simp [Actor.step, Actor.handle] at h; obtain ⟨rfl, -⟩ := h
      exact ⟨hu, Or.inr (Or.inr (Or.inr ⟨rfl, rfl, (fun e => nomatch e), fun _ _ e => nomatch e⟩))⟩
    | purgeUnused now dur =>
      simp [Actor.step, Actor.handle, Actor.purgeUnused] at h
      obtain ⟨rfl, rfl⟩ := h
      refine ⟨?_, Or.inr (Or.inr (Or.inl ⟨now, dur, rfl, rfl, ?_, ?_⟩))⟩
      · show ((a.usage.filter _).map _).Pairwise _
        exact List.Pairwise.map (fun x : Addr × Usage => (x.1, x.2.reset now dur)) (fun x y hxy => hxy) (Uniq.filter hu _)
      · show ((a.usage.filter fun x => !x.2.unused now dur).map fun x => (x.1, x.2.reset now dur)).look p = _
        rw [lookup_map_snd, lookup_filter hu]
        cases a.usage.look p with
        | none => rfl
        | some u => cases hun : u.unused now dur <;> simp [hun]
      · rintro ⟨u, hl, hun⟩
        exact ⟨_, List.mem_singleton.2 rfl, List.mem_map.2 ⟨(p, u), List.mem_filter.2 ⟨mem_of_lookup hl, hun⟩, rfl⟩⟩
    | purge q =>
      simp only [Actor.step, Actor.handle] at h
      by_cases hp : (a.clients.look q).isSome
      · rw [if_pos hp] at h; simp at h; obtain ⟨rfl, -⟩ := h
        refine ⟨Uniq.del hu q, ?_⟩
        by_cases hq : q = p
        · subst hq
          exact Or.inr (Or.inl ⟨rfl, rfl, Or.inl (by show (del a.usage q).look q = none; rw [lookup_del, if_pos rfl])⟩)
        · exact Or.inr (Or.inr (Or.inr ⟨rfl, by show (del a.usage q).look p = _; rw [lookup_del, if_neg hq],
            fun e => hq (by injection e with e; injection e), fun _ _ e => nomatch e⟩))
      · rw [if_neg hp] at h; simp at h; obtain ⟨rfl, -⟩ := h
        refine ⟨hu, ?_⟩
        by_cases hq : q = p
        · subst hq; exact Or.inr (Or.inl ⟨rfl, rfl, Or.inr rfl⟩)
        · exact Or.inr (Or.inr (Or.inr ⟨rfl, rfl, fun e => hq (by injection e with e; injection e), fun _ _ e => nomatch e⟩))
    | localAddr => simp [Actor.step, Actor.handle] at h; obtain ⟨rfl, -⟩ := h; exact ⟨hu, Or.inr (Or.inr (Or.inr ⟨rfl, rfl, (fun e => nomatch e), fun _ _ e => nomatch e⟩))⟩
    | peers => simp [Actor.step, Actor.handle] at h; obtain ⟨rfl, -⟩ := h; exact ⟨hu, Or.inr (Or.inr (Or.inr ⟨rfl, rfl, (fun e => nomatch e), fun _ _ e => nomatch e⟩))⟩
    | state q => simp [Actor.step, Actor.handle] at h; obtain ⟨rfl, -⟩ := h; exact ⟨hu, Or.inr (Or.inr (Or.inr ⟨rfl, rfl, (fun e => nomatch e), fun _ _ e => nomatch e⟩))⟩

/-- what the usage of a peer says: nothing was decoded since it was reset, if its count is zero -/
structure Idle (a : Actor σ) (p : Addr) (T : Nat) (L : List Nat) : Prop where
  bound : ∀ t ∈ L, t ≤ T
  last : ∀ u, a.usage.look p = some u → u.lastSet ≤ T
  zero : ∀ u, a.usage.look p = some u → u.count = 0 → ∀ t ∈ L, t ≤ u.lastSet

theorem clock_cons {e : Event} {es : List Event} (h : Clock (e :: es)) : Clock es := by
  unfold Clock at h ⊢
  rw [List.filterMap_cons] at h
  cases he : e.time with
  | none => rw [he] at h; exact h
  | some t => rw [he] at h; exact (List.pairwise_cons.1 h).2

/-- the time of an event, or the one before it -/
theorem clock_next {e : Event} {es : List Event} {T : Nat} (h : Clock (e :: es)) (hT : ∀ t ∈ (e :: es).filterMap Event.time, T ≤ t) :
    T ≤ e.time.getD T ∧ ∀ t ∈ es.filterMap Event.time, e.time.getD T ≤ t := by
  unfold Clock at h
  rw [List.filterMap_cons] at h hT
  cases he : e.time with
  | none => rw [he] at hT; exact ⟨Nat.le_refl _, hT⟩
  | some t =>
    rw [he] at h hT
    exact ⟨hT t (List.mem_cons_self ..), (List.pairwise_cons.1 h).1⟩

theorem reset_cases (now dur : Nat) (u : Usage) : u.reset now dur = u ∨ (u.reset now dur = ⟨now, 0⟩ ∧ u.lastSet + dur < now) := by
  unfold Usage.reset
  by_cases h : now - u.lastSet > dur ∧ u.count > 0
  · rw [if_pos h]; exact Or.inr ⟨rfl, by omega⟩
  · rw [if_neg h]; exact Or.inl rfl

theorem step_idle {codec : Codec σ π} {hash : Nat → Nat} {a a' : Actor σ} {k : Addr → σ} {e : Event} {out : List (Effect σ π)} {T : Nat} {L : List Nat}
    (hk : Agrees codec a k) (hu : Uniq a.usage) (h : a.step codec hash e = (a', out, none)) {p : Addr} (hi : Idle a p T L)
    (hT : T ≤ e.time.getD T) : Idle a' p (e.time.getD T) (L ++ usedAt codec k p [e]) := by
  obtain ⟨-, ⟨now, ht, h1, h2⟩ | ⟨rfl, h1, h2⟩ | ⟨now, dur, rfl, h1, h2, -⟩ | ⟨h1, h2, -⟩⟩ := step_usage hk hu h p
  · rw [ht] at hT ⊢
    rw [h1]
    refine ⟨?_, ?_, ?_⟩
    · intro t hm
      rcases List.mem_append.1 hm with hm | hm
      · exact Nat.le_trans (hi.bound t hm) hT
      · rw [List.mem_singleton.1 hm]; exact Nat.le_refl _
    · intro u hl
      rw [h2] at hl
      cases hl
      cases hx : a.usage.look p with
      | none => exact Nat.le_refl _
      | some v => exact Nat.le_trans (hi.last v hx) hT
    · intro u hl hc
      rw [h2] at hl
      cases hl
      simp at hc
  · rw [h1, List.append_nil]
    show Idle a' p T L
    refine ⟨hi.bound, ?_, ?_⟩
    · intro u hl
      rcases h2 with h2 | h2 <;> rw [h2] at hl
      · cases hl
      · exact hi.last u hl
    · intro u hl
      rcases h2 with h2 | h2 <;> rw [h2] at hl
      · cases hl
      · exact hi.zero u hl
  · rw [h1, List.append_nil]
    have hT : T ≤ now := hT
    show Idle a' p now L
    have hb : ∀ t ∈ L, t ≤ now := fun t ht => Nat.le_trans (hi.bound t ht) hT
    cases hl : a.usage.look p with
    | none =>
      rw [hl] at h2
      have h2 : a'.usage.look p = none := h2
      exact ⟨hb, fun u hx => (by rw [h2] at hx; cases hx), fun u hx => (by rw [h2] at hx; cases hx)⟩
    | some u =>
      rw [hl, Option.bind_some] at h2
      cases hun : u.unused now dur with
      | true =>
        rw [hun, if_pos rfl] at h2
        exact ⟨hb, fun u hx => (by rw [h2] at hx; cases hx), fun u hx => (by rw [h2] at hx; cases hx)⟩
      | false =>
        rw [hun, if_neg (by simp)] at h2
        rcases reset_cases now dur u with hr | ⟨hr, -⟩ <;> rw [hr] at h2
        · exact ⟨hb, fun v hx => (by rw [h2] at hx; cases hx; exact Nat.le_trans (hi.last u hl) hT),
            fun v hx => (by rw [h2] at hx; cases hx; exact hi.zero u hl)⟩
        · exact ⟨hb, fun v hx => (by rw [h2] at hx; cases hx; exact Nat.le_refl _), fun v hx _ => (by rw [h2] at hx; cases hx; exact hb)⟩
  · rw [h1, List.append_nil]
    exact ⟨fun t ht => Nat.le_trans (hi.bound t ht) hT, fun u hx => (by rw [h2] at hx; exact Nat.le_trans (hi.last u hx) hT),
      fun u hx => (by rw [h2] at hx; exact hi.zero u hx)⟩

theorem run_uniqUsage {codec : Codec σ π} {hash : Nat → Nat} (es : List Event) : ∀ {a : Actor σ} {k : Addr → σ}, Agrees codec a k →
    Uniq a.usage → Runs codec hash a es → Uniq (a.run codec hash es).1.usage := by
  induction es with
  | nil => intro a k _ h _; exact h
  | cons e es ih =>
    intro a k hk hu hr
    obtain ⟨a', out, hs, hr', he⟩ := runs_cons hr
    rw [he]
    exact ih (step_agrees hk hs) (step_usage hk hu hs ⟨0, 0⟩).1 hr'

theorem run_idle {codec : Codec σ π} {hash : Nat → Nat} {p : Addr} (es : List Event) : ∀ {a : Actor σ} {k : Addr → σ} {T : Nat} {L : List Nat},
    Agrees codec a k → Uniq a.usage → Runs codec hash a es → Idle a p T L → Clock es → (∀ t ∈ es.filterMap Event.time, T ≤ t) →
    ∃ T', T ≤ T' ∧ (T' = T ∨ T' ∈ es.filterMap Event.time) ∧ Idle (a.run codec hash es).1 p T' (L ++ usedAt codec k p es) := by
  induction es with
  | nil => intro a k T L _ _ _ hi _ _; exact ⟨T, Nat.le_refl _, Or.inl rfl, by simpa [usedAt, Actor.run] using hi⟩
  | cons e es ih =>
    intro a k T L hk hu hr hi hc hT
    obtain ⟨a', out, hs, hr', he⟩ := runs_cons hr
    obtain ⟨h1, h2⟩ := clock_next hc hT
    obtain ⟨T', h3, h4, h5⟩ := ih (step_agrees hk hs) (step_usage hk hu hs p).1 hr' (step_idle hk hu hs hi h1) (clock_cons hc) h2
    rw [he, usedAt_cons, ← List.append_assoc]
    refine ⟨T', Nat.le_trans h1 h3, ?_, h5⟩
    rw [List.filterMap_cons]
    cases ht : e.time with
    | none => rw [ht] at h4; exact h4
    | some t =>
      rw [ht] at h4
      rcases h4 with h4 | h4
      · exact Or.inr (h4 ▸ List.mem_cons_self ..)
      · exact Or.inr (List.mem_cons_of_mem _ h4)

theorem reported_append {p : Addr} {x y : List (Effect σ π)} : Reported p (x ++ y) ↔ Reported p x ∨ Reported p y := by
  unfold Reported
  constructor
  · rintro ⟨l, hl, hp⟩
    rcases List.mem_append.1 hl with h | h
    · exact Or.inl ⟨l, h, hp⟩
    · exact Or.inr ⟨l, h, hp⟩
  · rintro (⟨l, hl, hp⟩ | ⟨l, hl, hp⟩)
    · exact ⟨l, List.mem_append_left _ hl, hp⟩
    · exact ⟨l, List.mem_append_right _ hl, hp⟩

/-- a peer that has a usage keeps it, or is reported, unless it is purged -/
theorem step_kept {codec : Codec σ π} {hash : Nat → Nat} {a a' : Actor σ} {k : Addr → σ} {e : Event} {out : List (Effect σ π)} {p : Addr}
    (hk : Agrees codec a k) (hu : Uniq a.usage) (h : a.step codec hash e = (a', out, none)) (hp : e ≠ .command (.purge p))
    (hs : (a.usage.look p).isSome = true ∨ usedAt codec k p [e] ≠ []) : Reported p out ∨ (a'.usage.look p).isSome = true := by
  obtain ⟨-, ⟨now, ht, h1, h2⟩ | ⟨rfl, h1, h2⟩ | ⟨now, dur, rfl, h1, h2, h3⟩ | ⟨h1, h2, -⟩⟩ := step_usage hk hu h p
  · exact Or.inr (by rw [h2]; rfl)
  · exact absurd rfl hp
  · rcases hs with hs | hs
    · obtain ⟨u, hl⟩ := Option.isSome_iff_exists.1 hs
      rw [hl, Option.bind_some] at h2
      cases hun : u.unused now dur with
      | true => exact Or.inl (h3 ⟨u, hl, hun⟩)
      | false => rw [hun, if_neg (by simp)] at h2; exact Or.inr (by rw [h2]; rfl)
    · exact absurd h1 hs
  · rcases hs with hs | hs
    · exact Or.inr (by rw [h2]; exact hs)
    · exact absurd h1 hs

theorem run_kept {codec : Codec σ π} {hash : Nat → Nat} {p : Addr} (es : List Event) : ∀ {a : Actor σ} {k : Addr → σ},
    Agrees codec a k → Uniq a.usage → Runs codec hash a es → (∀ e ∈ es, e ≠ .command (.purge p)) →
    ((a.usage.look p).isSome = true ∨ usedAt codec k p es ≠ []) →
    Reported p (a.run codec hash es).2.1 ∨ ((a.run codec hash es).1.usage.look p).isSome = true := by
  induction es with
  | nil => intro a k _ _ _ _ h; exact Or.inr (h.resolve_right (by simp [usedAt]))
  | cons e es ih =>
    intro a k hk hu hr hp hs
    obtain ⟨a', out, hst, hr', he⟩ := runs_cons hr
    rw [he]
    simp only
    rw [reported_append]
    have hu' := (step_usage hk hu hst p).1
    have ih' := ih (step_agrees hk hst) hu' hr' (fun x hx => hp x (List.mem_cons_of_mem _ hx))
    by_cases hx : (a.usage.look p).isSome = true ∨ usedAt codec k p [e] ≠ []
    · rcases step_kept hk hu hst (hp e (List.mem_cons_self ..)) hx with h | h
      · exact Or.inl (Or.inl h)
      · exact (ih' (Or.inl h)).elim (fun h => Or.inl (Or.inr h)) Or.inr
    · have h1 : usedAt codec k p [e] = [] := Classical.byContradiction fun h => hx (Or.inr h)
      rw [usedAt_cons, h1, List.nil_append] at hs
      exact (ih' (Or.inr (hs.resolve_left fun h => hx (Or.inl h)))).elim (fun h => Or.inl (Or.inr h)) Or.inr

/-- a peer that is not used keeps its usage of zero, or is reported -/
theorem run_zero {codec : Codec σ π} {hash : Nat → Nat} {p : Addr} {t : Nat} (es : List Event) : ∀ {a : Actor σ} {k : Addr → σ},
    Agrees codec a k → Uniq a.usage → Runs codec hash a es → (∀ e ∈ es, e ≠ .command (.purge p)) → usedAt codec k p es = [] →
    a.usage.look p = some ⟨t, 0⟩ → Reported p (a.run codec hash es).2.1 ∨ (a.run codec hash es).1.usage.look p = some ⟨t, 0⟩ := by
  induction es with
  | nil => intro a k _ _ _ _ _ h; exact Or.inr h
  | cons e es ih =>
    intro a k hk hu hr hp hs hl
    obtain ⟨a', out, hst, hr', he⟩ := runs_cons hr
    rw [he]
    simp only
    rw [reported_append]
    rw [usedAt_cons, List.append_eq_nil_iff] at hs
    have hst' := step_usage hk hu hst p
    have ih' := ih (step_agrees hk hst) hst'.1 hr' (fun x hx => hp x (List.mem_cons_of_mem _ hx)) hs.2
    obtain ⟨-, ⟨now, ht, h1, h2⟩ | ⟨rfl, h1, h2⟩ | ⟨now, dur, rfl, h1, h2, h3⟩ | ⟨h1, h2, -⟩⟩ := hst'
    · rw [hs.1] at h1; cases h1
    · exact absurd rfl (hp _ (List.mem_cons_self ..))
    · cases hun : Usage.unused now dur ⟨t, 0⟩ with
      | true => exact Or.inl (Or.inl (h3 ⟨_, hl, hun⟩))
      | false =>
        rw [hl, Option.bind_some, hun, if_neg (by simp)] at h2
        exact (ih' (by rw [h2]; simp [Usage.reset])).elim (fun h => Or.inl (Or.inr h)) Or.inr
    · exact (ih' (by rw [h2, hl])).elim (fun h => Or.inl (Or.inr h)) Or.inr

/-- only peers that have a usage are reported -/
theorem step_reported {codec : Codec σ π} {hash : Nat → Nat} {a a' : Actor σ} {e : Event} {out : List (Effect σ π)} {x : Option Ending} {p : Addr}
    (h : a.step codec hash e = (a', out, x)) (hr : Reported p out) :
    ∃ now dur u, e = .command (.purgeUnused now dur) ∧ (p, u) ∈ a.usage ∧ u.unused now dur = true := by
  have hnil : ∀ {o : List (Effect σ π)}, (∀ l, Effect.unusedPurged l ∉ o) → out = o → False := fun ho e => by
    obtain ⟨l, hl, -⟩ := hr
    rw [e] at hl
    exact ho l hl
  cases e with
  | noCommands => simp [Actor.step] at h; exact (hnil (by simp) h.2.1).elim
  | socketError => simp [Actor.step] at h; exact (hnil (by simp) h.2.1).elim
  | socketDown => simp [Actor.step] at h; exact (hnil (by simp) h.2.1).elim
  | datagram now q b closed sending =>
    rcases hd : codec.decode now ((a.clients.look q).getD codec.fresh) b with ⟨x | _ | _ | _, st⟩
    · rw [step_packet hd] at h
      obtain ⟨-, h'⟩ := Prod.mk.inj h
      obtain ⟨h'', -⟩ := Prod.mk.inj h'
      refine (hnil (fun l hl => ?_) h''.symm).elim
      obtain ⟨y, -, hy⟩ := List.mem_filterMap.1 hl
      cases hpk : pick hash q y.2 with
      | none => rw [hpk] at hy; cases hy
      | some c => rw [hpk] at hy; cases hy
    · rw [step_nothing hd] at h
      exact (hnil (by simp) (Prod.mk.inj (Prod.mk.inj h).2).1.symm).elim
    · rw [step_malformed hd] at h
      exact (hnil (by simp) (Prod.mk.inj (Prod.mk.inj h).2).1.symm).elim
    · rw [step_panics hd] at h
      exact (hnil (by simp) (Prod.mk.inj (Prod.mk.inj h).2).1.symm).elim
  | command c =>
    cases c with
    | shutdown => simp [Actor.step, Actor.handle] at h; exact (hnil (by simp) h.2.1.symm).elim
    | subscribe chans heard =>
      simp only [Actor.step, Actor.handle] at h
      cases heard <;> simp at h
      · exact (hnil (by simp) h.2.1).elim
      · exact (hnil (by simp) h.2.1.symm).elim
    | unsubscribe i =>
      simp [Actor.step, Actor.handle] at h
      refine (hnil ?_ h.2.1.symm).elim
      split <;> simp
    | purge q =>
      simp only [Actor.step, Actor.handle] at h
      by_cases hp : (a.clients.look q).isSome
      · rw [if_pos hp] at h; simp at h; exact (hnil (by simp) h.2.1.symm).elim
      · rw [if_neg hp] at h; simp at h; exact (hnil (by simp) h.2.1.symm).elim
    | purgeUnused now dur =>
      simp [Actor.step, Actor.handle, Actor.purgeUnused] at h
      obtain ⟨-, rfl, -⟩ := h
      obtain ⟨l, hl, hp⟩ := hr
      simp at hl
      subst hl
      obtain ⟨⟨p', u⟩, hm, rfl⟩ := List.mem_map.1 hp
      obtain ⟨h1, h2⟩ := List.mem_filter.1 hm
      exact ⟨now, dur, u, rfl, h1, h2⟩
    | localAddr => simp [Actor.step, Actor.handle] at h; exact (hnil (by simp) h.2.1.symm).elim
    | peers => simp [Actor.step, Actor.handle] at h; exact (hnil (by simp) h.2.1.symm).elim
    | state q => simp [Actor.step, Actor.handle] at h; exact (hnil (by simp) h.2.1.symm).elim

/-- peers of which nothing is decoded have no usage, and are not reported -/
theorem run_neverUsed {codec : Codec σ π} {hash : Nat → Nat} {p : Addr} (es : List Event) : ∀ {a : Actor σ} {k : Addr → σ},
    Agrees codec a k → Uniq a.usage → usedAt codec k p es = [] → a.usage.look p = none → ¬ Reported p (a.run codec hash es).2.1 := by
  have hno : ∀ {a a' : Actor σ} {e : Event} {out : List (Effect σ π)} {x}, Uniq a.usage → a.usage.look p = none → a.step codec hash e = (a', out, x) →
      ¬ Reported p out := fun hu hl h hr => by
    obtain ⟨_, _, u, -, hm, -⟩ := step_reported h hr
    rw [lookup_of_mem hu hm] at hl
    cases hl
  induction es with
  | nil => rintro a k _ _ _ _ ⟨l, hl, -⟩; cases hl
  | cons e es ih =>
    intro a k hk hu hs hl
    rw [usedAt_cons, List.append_eq_nil_iff] at hs
    simp only [Actor.run]
    rcases hst : a.step codec hash e with ⟨a', out, _ | x⟩
    · simp only
      rw [reported_append]
      have hst' := step_usage hk hu hst p
      have hl' : a'.usage.look p = none := by
        obtain ⟨-, ⟨now, ht, h1, h2⟩ | ⟨rfl, h1, h2⟩ | ⟨now, dur, rfl, h1, h2, h3⟩ | ⟨h1, h2, -⟩⟩ := hst'
        · rw [hs.1] at h1; cases h1
        · rcases h2 with h2 | h2
          · exact h2
          · rw [h2, hl]
        · rw [h2, hl]; rfl
        · rw [h2, hl]
      rintro (h | h)
      · exact hno hu hl hst h
      · exact ih (step_agrees hk hst) hst'.1 hs.2 hl' h
    · exact hno hu hl hst

/-- a decoder of a peer that is not heard of since it was purged is fresh -/
theorem knowledge_fresh (codec : Codec σ π) (p : Addr) (es : List Event) : ∀ k : Addr → σ, (k p = codec.fresh ∨ fromPeer p es ≠ []) →
    ¬ Heard p es → knowledge codec k es p = codec.fresh := by
  induction es with
  | nil => intro k h _; exact h.resolve_right (by simp [fromPeer])
  | cons e es ih =>
    intro k h hh
    have same : fromPeer p (e :: es) = fromPeer p es → knowledge codec k [e] p = k p → knowledge codec k (e :: es) p = codec.fresh :=
      fun h1 h2 => by
        rw [knowledge_cons]
        unfold Heard at hh
        rw [h1] at h hh
        exact ih _ (by rw [h2]; exact h) hh
    cases e with
    | noCommands => exact same rfl rfl
    | socketError => exact same rfl rfl
    | socketDown => exact same rfl rfl
    | datagram now q b closed sending =>
      by_cases hq : q = p
      · rw [knowledge_cons]
        have hf : fromPeer p (.datagram now q b closed sending :: es) = some (now, b) :: fromPeer p es := by simp [fromPeer, hq]
        unfold Heard at hh
        rw [hf] at hh
        cases hx : fromPeer p es with
        | nil => rw [hx] at hh; exact absurd ⟨(now, b), rfl⟩ hh
        | cons y ys =>
          refine ih _ (Or.inr (by rw [hx]; simp)) ?_
          rintro ⟨z, hz⟩
          rw [hx] at hz hh
          exact hh ⟨z, by rw [List.getLast?_cons_cons]; exact hz⟩
      · exact same (by simp [fromPeer, hq]) (by simp [knowledge, at', Ne.symm hq])
    | command c =>
      cases c with
      | purge q =>
        by_cases hq : q = p
        · rw [knowledge_cons]
          have hf : fromPeer p (.command (.purge q) :: es) = none :: fromPeer p es := by simp [fromPeer, hq]
          unfold Heard at hh
          rw [hf] at hh
          refine ih _ (Or.inl (by simp [knowledge, at', hq])) ?_
          rintro ⟨z, hz⟩
          cases hx : fromPeer p es with
          | nil => rw [hx] at hz; cases hz
          | cons y ys =>
            rw [hx] at hz hh
            exact hh ⟨z, by rw [List.getLast?_cons_cons]; exact hz⟩
        · exact same (by simp [fromPeer, hq]) (by simp [knowledge, at', Ne.symm hq])
      | shutdown => exact same rfl rfl
      | subscribe chans heard => exact same rfl rfl
      | unsubscribe i => exact same rfl rfl
      | purgeUnused now dur => exact same rfl rfl
      | localAddr => exact same rfl rfl
      | peers => exact same rfl rfl
      | state q => exact same rfl rfl

/-- a subscriber keeps its channels or is gone -/
theorem step_same {codec : Codec σ π} {hash : Nat → Nat} {a a' : Actor σ} {e : Event} {out : List (Effect σ π)} {x : Option Ending}
    (hs : Sound a) (h : a.step codec hash e = (a', out, x)) {s : UInt32} (hlt : s.toNat < a.next.toNat) :
    a'.subscribers.look s = a.subscribers.look s ∨ a'.subscribers.look s = none := by
  cases e with
  | noCommands => simp [Actor.step] at h; obtain ⟨rfl, -⟩ := h; exact Or.inl rfl
  | socketError => simp [Actor.step] at h; obtain ⟨rfl, -⟩ := h; exact Or.inl rfl
  | socketDown => simp [Actor.step] at h; obtain ⟨rfl, -⟩ := h; exact Or.inl rfl
  | datagram now p b closed sending =>
    rcases hd : codec.decode now ((a.clients.look p).getD codec.fresh) b with ⟨x | _ | _ | _, st⟩
    · rw [step_packet hd] at h
      obtain ⟨rfl, h'⟩ := Prod.mk.inj h
      show (remaining closed a.subscribers).look s = _ ∨ (remaining closed a.subscribers).look s = _
      rw [look_remaining hs.uniq]
      cases hl : a.subscribers.look s with
      | none => exact Or.inl rfl
      | some cs =>
        simp only [Option.filter]
        split
        · exact Or.inl rfl
        · exact Or.inr rfl
    · rw [step_nothing hd] at h; obtain ⟨rfl, h'⟩ := Prod.mk.inj h; exact Or.inl rfl
    · rw [step_malformed hd] at h; obtain ⟨rfl, h'⟩ := Prod.mk.inj h; exact Or.inl rfl
    · rw [step_panics hd] at h; obtain ⟨rfl, h'⟩ := Prod.mk.inj h; exact Or.inl rfl
  | command c =>
    by_cases hc : ∃ i, c = .unsubscribe i ∧ i = s
    · obtain ⟨i, rfl, rfl⟩ := hc
      simp [Actor.step, Actor.handle] at h; obtain ⟨rfl, -⟩ := h
      right
      show (del a.subscribers i).look i = _
      rw [lookup_del, if_pos rfl]
    · exact Or.inl (step_command_look h s (fun i hi e => hc ⟨i, hi, e⟩) fun e => by rw [e] at hlt; omega)

theorem run_same {codec : Codec σ π} {hash : Nat → Nat} (es : List Event) : ∀ {a : Actor σ}, Sound a → 0 < a.next.toNat →
    a.next.toNat + subscriptions es < 2 ^ 32 → Runs codec hash a es → ∀ {s : UInt32}, s.toNat < a.next.toNat →
    (a.run codec hash es).1.subscribers.look s = a.subscribers.look s ∨ (a.run codec hash es).1.subscribers.look s = none := by
  induction es with
  | nil => intro a _ _ _ _ s _; exact Or.inl rfl
  | cons e es ih =>
    intro a hs hp hn hr s hlt
    rw [subscriptions_cons] at hn
    obtain ⟨a', out, hst, hr', he⟩ := runs_cons hr
    rw [he]
    obtain ⟨h1, h2⟩ := step_sound hs hp (by omega) hst
    rcases ih h1 (by omega) (by omega) hr' (s := s) (by omega) with h3 | h3
    · rcases step_same hs hst hlt with h4 | h4
      · exact Or.inl (h3.trans h4)
      · exact Or.inr (h3.trans h4)
    · exact Or.inr h3

/-! ### the peers known -/

theorem fromPeer_append (p : Addr) (es fs : List Event) : fromPeer p (es ++ fs) = fromPeer p es ++ fromPeer p fs := by
  induction es with
  | nil => rfl
  | cons e es ih =>
    cases e with
    | datagram now q b closed sending =>
      simp only [List.cons_append, fromPeer]
      by_cases hq : q = p
      · rw [if_pos hq, if_pos hq, ih]; rfl
      · rw [if_neg hq, if_neg hq, ih]
    | command c =>
      cases c with
      | purge q =>
        simp only [List.cons_append, fromPeer]
        by_cases hq : q = p
        · rw [if_pos hq, if_pos hq, ih]; rfl
        · rw [if_neg hq, if_neg hq, ih]
      | _ => exact ih
    | _ => exact ih

theorem step_clients {codec : Codec σ π} {hash : Nat → Nat} {a a' : Actor σ} {e : Event} {out : List (Effect σ π)}
    (hu : Uniq a.clients) (h : a.step codec hash e = (a', out, none)) (p : Addr) : Uniq a'.clients ∧
    ((fromPeer p [e] = [] ∧ (a'.clients.look p).isSome = (a.clients.look p).isSome) ∨
     (fromPeer p [e] = [none] ∧ (a'.clients.look p).isSome = false) ∨
     (∃ x, fromPeer p [e] = [some x] ∧ (a'.clients.look p).isSome = true)) := by
  cases e with
  | noCommands => simp [Actor.step] at h
  | socketError => simp [Actor.step] at h
  | socketDown => simp [Actor.step] at h
  | datagram now q b closed sending =>
    have key : ∀ st, a'.clients = put a.clients q st → _ := fun st hst => show Uniq a'.clients ∧
      ((fromPeer p [Event.datagram now q b closed sending] = [] ∧ (a'.clients.look p).isSome = (a.clients.look p).isSome) ∨
     (fromPeer p [Event.datagram now q b closed sending] = [none] ∧ (a'.clients.look p).isSome = false) ∨
     (∃ x, fromPeer p [Event.datagram now q b closed sending] = [some x] ∧ (a'.clients.look p).isSome = true)) from by
      rw [hst, lookup_put]
      refine ⟨Uniq.put hu _ _, ?_⟩
      by_cases hq : q = p
      · exact Or.inr (Or.inr ⟨(now, b), by simp [fromPeer, hq], by rw [if_pos hq]; rfl⟩)
      · exact Or.inl ⟨by simp [fromPeer, hq], by rw [if_neg hq]⟩
    rcases hd : codec.decode now ((a.clients.look q).getD codec.fresh) b with ⟨x | _ | _ | _, st⟩
    · rw [step_packet hd] at h
      obtain ⟨rfl, h'⟩ := Prod.mk.inj h
      exact key st rfl
    · rw [step_nothing hd] at h
      obtain ⟨rfl, h'⟩ := Prod.mk.inj h
      exact key st rfl
    · rw [step_malformed hd] at h
      obtain ⟨rfl, h'⟩ := Prod.mk.inj h
      exact key st rfl
    · rw [step_panics hd] at h; simp at h
  | command c =>
    cases c with
    | shutdown => simp [Actor.step, Actor.handle] at h
    | subscribe chans heard =>
      simp only [Actor.step, Actor.handle] at h
      cases heard <;> simp at h <;> obtain ⟨rfl, -⟩ := h <;> exact ⟨hu, Or.inl ⟨rfl, rfl⟩⟩
    | unsubscribe i => simp [Actor.step, Actor.handle] at h; obtain ⟨rfl, -⟩ := h; exact ⟨hu, Or.inl ⟨rfl, rfl⟩⟩
    | purgeUnused now dur => simp [Actor.step, Actor.handle, Actor.purgeUnused] at h; obtain ⟨rfl, -⟩ := h; exact ⟨hu, Or.inl ⟨rfl, rfl⟩⟩
    | localAddr => simp [Actor.step, Actor.handle] at h; obtain ⟨rfl, -⟩ := h; exact ⟨hu, Or.inl ⟨rfl, rfl⟩⟩
    | peers => simp [Actor.step, Actor.handle] at h; obtain ⟨rfl, -⟩ := h; exact ⟨hu, Or.inl ⟨rfl, rfl⟩⟩
    | state q => simp [Actor.step, Actor.handle] at h; obtain ⟨rfl, -⟩ := h; exact ⟨hu, Or.inl ⟨rfl, rfl⟩⟩
    | purge q =>
      simp only [Actor.step, Actor.handle] at h
      by_cases hp : (a.clients.look q).isSome
      · rw [if_pos hp] at h; simp at h; obtain ⟨rfl, -⟩ := h
        refine ⟨Uniq.del hu q, ?_⟩
        show _ ∨ (_ ∧ ((del a.clients q).look p).isSome = false) ∨ _
        by_cases hq : q = p
        · exact Or.inr (Or.inl ⟨by simp [fromPeer, hq], by rw [lookup_del, if_pos hq]; rfl⟩)
        · exact Or.inl ⟨by simp [fromPeer, hq], by show ((del a.clients q).look p).isSome = _; rw [lookup_del, if_neg hq]⟩
      · rw [if_neg hp] at h; simp at h; obtain ⟨rfl, -⟩ := h
        refine ⟨hu, ?_⟩
        by_cases hq : q = p
        · exact Or.inr (Or.inl ⟨by simp [fromPeer, hq], by rw [hq] at hp; simpa using hp⟩)
        · exact Or.inl ⟨by simp [fromPeer, hq], rfl⟩

theorem run_clients {codec : Codec σ π} {hash : Nat → Nat} (p : Addr) (es : List Event) : ∀ {a : Actor σ}, Uniq a.clients →
    Runs codec hash a es → Uniq (a.run codec hash es).1.clients ∧
      ((a.run codec hash es).1.clients.look p).isSome =
        (match (fromPeer p es).getLast? with | none => (a.clients.look p).isSome | some x => x.isSome) := by
  induction es with
  | nil => intro a hu _; exact ⟨hu, rfl⟩
  | cons e es ih =>
    intro a hu hr
    obtain ⟨a', out, hst, hr', he⟩ := runs_cons hr
    rw [he]
    obtain ⟨hu', hcase⟩ := step_clients hu hst p
    obtain ⟨h1, h2⟩ := ih hu' hr'
    refine ⟨h1, ?_⟩
    simp only
    rw [h2, show e :: es = [e] ++ es from rfl, fromPeer_append, List.getLast?_append]
    cases hl : (fromPeer p es).getLast? with
    | some x => rfl
    | none =>
      simp only [Option.none_or]
      rcases hcase with ⟨h3, h4⟩ | ⟨h3, h4⟩ | ⟨x, h3, h4⟩ <;> rw [h3, h4] <;> rfl

theorem mem_keys {κ α : Type} [DecidableEq κ] {m : List (κ × α)} (hu : Uniq m) {k : κ} : k ∈ m.map (·.1) ↔ (m.look k).isSome = true := by
  constructor
  · intro h
    obtain ⟨⟨k', v⟩, hm, rfl⟩ := List.mem_map.1 h
    rw [lookup_of_mem hu hm]; rfl
  · intro h
    obtain ⟨v, hv⟩ := Option.isSome_iff_exists.1 h
    exact List.mem_map.2 ⟨(k, v), mem_of_lookup hv, rfl⟩

end Verif.Service
