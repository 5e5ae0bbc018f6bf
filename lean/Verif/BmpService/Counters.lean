import Verif.BmpService.Table

/-! The counters, the entries of the table, and what keeps a task going -/

namespace Verif.BmpService
open Verif Verif.Collector Verif.Service

variable {π : Type} {hash : Addr → Nat}

/-- entries of the table are of different peers, and of tasks of their peers -/
structure Entries (a : Actor π) : Prop where
  uniq : Uniq a.table
  entry : ∀ (p : Addr) (t : Nat), a.table.look p = some t → ∃ k : Task π, a.tasks[t]? = some k ∧ k.peer = p

theorem step_table_uniq {a : Actor π} (e : Event π) (h : Uniq a.table) : Uniq (a.step hash e).1.table := by
  have task : (∃ u, (e = .update u ∨ (∃ m, e = .message u m) ∨ (∃ how, e = .send u how) ∨ e = .malformed u ∨ e = .eof u)) →
      Uniq (a.step hash e).1.table := fun hh => by rw [(task_step_keeps (hash := hash) a e hh).2.2.2]; exact h
  cases e with
  | command c =>
    simp only [Actor.step]
    split
    · exact h
    · cases c with
      | shutdown => exact .nil
      | disconnect p =>
        simp only [Actor.handle]
        split
        · exact h.del _
        · exact h
      | _ => exact h
  | noCommands => simp only [Actor.step]; split <;> exact h
  | notice =>
    simp only [Actor.step]
    split
    · exact h
    · unfold Actor.notice
      split
      · exact h
      · split
        · exact h.del _
        · exact h
  | accept p =>
    simp only [Actor.step]
    split
    · exact h
    · unfold Actor.accept
      dsimp only
      refine Uniq.put ?_ _ _
      split
      · exact h.del _
      · exact h
  | acceptFailed => exact h
  | update u => exact task ⟨u, .inl rfl⟩
  | message u m => exact task ⟨u, .inr (.inl ⟨m, rfl⟩)⟩
  | send u how => exact task ⟨u, .inr (.inr (.inl ⟨how, rfl⟩))⟩
  | malformed u => exact task ⟨u, .inr (.inr (.inr (.inl rfl)))⟩
  | eof u => exact task ⟨u, .inr (.inr (.inr (.inr rfl)))⟩

theorem step_entries (a : Actor π) (e : Event π) (h : Entries a) : Entries (a.step hash e).1 := by
  refine ⟨step_table_uniq e h.uniq, fun p t hp => ?_⟩
  rcases step_entry a e hp with h1 | ⟨h1, h2⟩
  · obtain ⟨k, hk, hkp⟩ := h.entry p t h1
    obtain ⟨k', hk', hc⟩ := step_task (hash := hash) a e hk
    exact ⟨k', hk', by rw [change_peer hc, hkp]⟩
  · have hl : t < (a.step hash e).1.tasks.length := by rw [step_length, h1, h2]; simp
    refine ⟨_, List.getElem?_eq_getElem hl, ?_⟩
    rcases step_task_inv a e (List.getElem?_eq_getElem hl) with ⟨k, hk, _⟩ | ⟨q, hq, _, hk, _, _⟩
    · rw [List.getElem?_eq_none (by omega)] at hk; cases hk
    · rw [hk]
      rw [h1] at hq
      exact (Option.some.inj hq).symm

theorem entries (i : Nat) (ad : Addr) (es : List (Event π)) : Entries ((Actor.new i ad).run hash es).1 :=
  run_inv step_entries _ _ ⟨.nil, fun _ _ h => by cases h⟩

/-! ## Counters -/

theorem length_put {κ α : Type} [DecidableEq κ] (m : List (κ × α)) (k : κ) (v : α) (h : m.look k = none) : (put m k v).length = m.length + 1 := by
  induction m with
  | nil => rfl
  | cons x m ih =>
    obtain ⟨k', v'⟩ := x
    rw [lookup_cons'] at h
    split at h
    · cases h
    next hk => simp [put, hk, ih h]

theorem del_of_none {κ α : Type} [DecidableEq κ] (m : List (κ × α)) (k : κ) (h : m.look k = none) : del m k = m := by
  unfold del
  rw [List.filter_eq_self]
  intro x hx
  simp only [ne_eq, decide_not, Bool.not_eq_eq_eq_not, Bool.not_true, decide_eq_false_iff_not]
  intro he
  induction m with
  | nil => cases hx
  | cons y m ih =>
    obtain ⟨k', v'⟩ := y
    rw [lookup_cons'] at h
    split at h
    · cases h
    next hk =>
      rcases List.mem_cons.1 hx with rfl | hx
      · exact hk he
      · exact ih h hx

theorem length_del {κ α : Type} [DecidableEq κ] {m : List (κ × α)} {k : κ} {v : α} (hu : Uniq m) (h : m.look k = some v) :
    (del m k).length + 1 = m.length := by
  induction m with
  | nil => cases h
  | cons x m ih =>
    obtain ⟨k', v'⟩ := x
    have hu' := List.pairwise_cons.1 hu
    rw [lookup_cons'] at h
    by_cases hk : k' = k
    · have hn : m.look k = none := look_eq_none fun y hy => by rw [← hk]; exact hu'.1 y hy
      have : del ((k', v') :: m) k = del m k := by simp [del, hk]
      rw [this, del_of_none m k hn]
      rfl
    · rw [if_neg hk] at h
      have : del ((k', v') :: m) k = (k', v') :: del m k := by simp [del, hk]
      rw [this]
      have := ih hu'.2 h
      simp only [List.length_cons]
      omega

/-- connections are accounted for: those taken were closed, or are in the table -/
def Balanced (a : Actor π) : Prop := a.over = false → a.accepted = a.closed + a.table.length

theorem step_balanced {a : Actor π} (e : Event π) (he : Entries a) (h : Balanced a) : Balanced (a.step hash e).1 := by
  intro ho
  have ho0 : a.over = false ∧ e.ends = false := by
    rw [(step_subs (hash := hash) a e).2.2] at ho
    simpa using ho
  have hb := h ho0.1
  have hfin : ∀ (b : Actor π) (u : Nat) (k : Task π), (b.finish u k).accepted = b.accepted ∧ (b.finish u k).closed = b.closed ∧
      (b.finish u k).table = b.table := by
    intro b u k
    unfold Actor.finish
    dsimp only
    repeat' split
    all_goals exact ⟨rfl, rfl, rfl⟩
  have hrem : ∀ (p : Addr) (t : Nat), a.table.look p = some t → a.accepted = a.closed + 1 + (del a.table p).length := by
    intro p t hp
    have := length_del he.uniq hp
    omega
  cases e with
  | command c =>
    simp only [Actor.step, ho0.1, Bool.false_eq_true, if_false]
    cases c with
    | shutdown => cases ho0.2
    | disconnect p =>
      simp only [Actor.handle]
      split
      next u hu => exact hrem p u hu
      next => exact hb
    | _ => exact hb
  | noCommands => cases ho0.2
  | notice =>
    simp only [Actor.step, ho0.1, Bool.false_eq_true, if_false]
    unfold Actor.notice
    split
    · exact hb
    · split
      next p _ _ _ u hu => exact hrem p u hu
      next => exact hb
  | accept p =>
    simp only [Actor.step, ho0.1, Bool.false_eq_true, if_false]
    unfold Actor.accept
    dsimp only
    split
    next u hu =>
      dsimp only
      rw [length_put _ _ _ (by rw [lookup_del, if_pos rfl])]
      have := hrem p u hu
      omega
    next hu =>
      rw [length_put _ _ _ hu]
      omega
  | acceptFailed => exact hb
  | update u =>
    simp only [Actor.step, Actor.idle]
    split
    next k hk =>
      split
      · unfold Actor.update
        dsimp only
        split
        · exact hb
        · split
          · exact hb
          · split
            · obtain ⟨h1, h2, h3⟩ := hfin a u k
              rw [h1, h2, h3]; exact hb
            · exact hb
      · exact hb
    · exact hb
  | message u m =>
    simp only [Actor.step, Actor.idle]
    repeat' split
    all_goals exact hb
  | send u how =>
    simp only [Actor.step]
    split
    · split
      · unfold Actor.send
        split
        · exact hb
        · split
          · exact hb
          · dsimp only
            split <;> exact hb
      · exact hb
    · exact hb
  | malformed u =>
    simp only [Actor.step, Actor.idle]
    split
    next k hk =>
      split
      · obtain ⟨h1, h2, h3⟩ := hfin { a with malformed := a.malformed + 1 } u k
        dsimp only
        rw [h1, h2, h3]; exact hb
      · exact hb
    · exact hb
  | eof u =>
    simp only [Actor.step, Actor.idle]
    split
    next k hk =>
      split
      · obtain ⟨h1, h2, h3⟩ := hfin a u k
        dsimp only
        rw [h1, h2, h3]; exact hb
      · exact hb
    · exact hb

theorem balanced (i : Nat) (ad : Addr) (es : List (Event π)) : Balanced ((Actor.new i ad).run hash es).1 :=
  (run_inv (P := fun a : Actor π => Entries a ∧ Balanced a) (fun a e h => ⟨step_entries a e h.1, step_balanced e h.1 h.2⟩) _ _
    ⟨entries (hash := hash) i ad [], fun _ => rfl⟩).2

/-- the messages taken from any connection -/
def allReceived (es : List (Effect π)) : List π :=
  es.filterMap fun
    | .received _ m => some m
    | _ => none

/-- the counters of a step -/
theorem step_counts (a : Actor π) (e : Event π) :
    (a.step hash e).1.received = a.received + (allReceived (a.step hash e).2).length ∧
    (a.step hash e).1.sent = a.sent + (sendings (a.step hash e).2).count .sent ∧
    (a.step hash e).1.dropped = a.dropped + ((sendings (a.step hash e).2).length - (sendings (a.step hash e).2).count .sent) ∧
    (a.step hash e).1.accepted = a.accepted + (a.taking e).toList.length := by
  have hno : (if a.over = true then none else (none : Option Addr)).toList.length = 0 := by split <;> rfl
  have hfin : ∀ (b : Actor π) (u : Nat) (k : Task π), (b.finish u k).received = b.received ∧ (b.finish u k).sent = b.sent ∧
      (b.finish u k).dropped = b.dropped ∧ (b.finish u k).accepted = b.accepted := by
    intro b u k
    unfold Actor.finish
    dsimp only
    repeat' split
    all_goals exact ⟨rfl, rfl, rfl, rfl⟩
  cases e with
  | command c =>
    simp only [Actor.step, Actor.taking, Event.accepts, hno]
    split
    · exact ⟨rfl, rfl, rfl, rfl⟩
    · cases c with
      | disconnect p =>
        simp only [Actor.handle]
        split <;> exact ⟨rfl, rfl, rfl, rfl⟩
      | _ => exact ⟨rfl, rfl, rfl, rfl⟩
  | noCommands =>
    simp only [Actor.step, Actor.taking, Event.accepts, hno]
    split <;> exact ⟨rfl, rfl, rfl, rfl⟩
  | notice =>
    simp only [Actor.step, Actor.taking, Event.accepts, hno]
    split
    · exact ⟨rfl, rfl, rfl, rfl⟩
    · unfold Actor.notice
      repeat' split
      all_goals exact ⟨rfl, rfl, rfl, rfl⟩
  | accept p =>
    simp only [Actor.step, Actor.taking, Event.accepts]
    split
    · exact ⟨rfl, rfl, rfl, rfl⟩
    · unfold Actor.accept
      dsimp only
      split <;> exact ⟨rfl, rfl, rfl, rfl⟩
  | acceptFailed =>
    simp only [Actor.step, Actor.taking, Event.accepts, hno]
    exact ⟨rfl, rfl, rfl, rfl⟩
  | update u =>
    simp only [Actor.step, Actor.taking, Event.accepts, hno, Actor.idle]
    split
    next k hk =>
      split
      · unfold Actor.update
        dsimp only
        split
        · exact ⟨rfl, rfl, rfl, rfl⟩
        · split
          · exact ⟨rfl, rfl, rfl, rfl⟩
          · split
            · exact hfin a u k
            · exact ⟨rfl, rfl, rfl, rfl⟩
      · exact ⟨rfl, rfl, rfl, rfl⟩
    · exact ⟨rfl, rfl, rfl, rfl⟩
  | message u m =>
    simp only [Actor.step, Actor.taking, Event.accepts, hno, Actor.idle]
    repeat' split
    all_goals exact ⟨rfl, rfl, rfl, rfl⟩
  | send u how =>
    simp only [Actor.step, Actor.taking, Event.accepts, hno]
    split
    · split
      · unfold Actor.send
        split
        · exact ⟨rfl, rfl, rfl, rfl⟩
        · split
          · exact ⟨rfl, rfl, rfl, rfl⟩
          · dsimp only
            by_cases hs : how = .sent
            · subst hs
              exact ⟨rfl, rfl, rfl, rfl⟩
            · simp only [if_neg hs]
              cases how <;> first | exact absurd rfl hs | exact ⟨rfl, rfl, rfl, rfl⟩
      · exact ⟨rfl, rfl, rfl, rfl⟩
    · exact ⟨rfl, rfl, rfl, rfl⟩
  | malformed u =>
    simp only [Actor.step, Actor.taking, Event.accepts, hno, Actor.idle]
    split
    next k hk =>
      split
      · exact hfin { a with malformed := a.malformed + 1 } u k
      · exact ⟨rfl, rfl, rfl, rfl⟩
    · exact ⟨rfl, rfl, rfl, rfl⟩
  | eof u =>
    simp only [Actor.step, Actor.taking, Event.accepts, hno, Actor.idle]
    split
    next k hk =>
      split
      · exact hfin a u k
      · exact ⟨rfl, rfl, rfl, rfl⟩
    · exact ⟨rfl, rfl, rfl, rfl⟩

theorem run_counts (es : List (Event π)) (a : Actor π) :
    (a.run hash es).1.received = a.received + (allReceived (a.run hash es).2).length ∧
    (a.run hash es).1.sent = a.sent + (sendings (a.run hash es).2).count .sent ∧
    (a.run hash es).1.sent + (a.run hash es).1.dropped = a.sent + a.dropped + (sendings (a.run hash es).2).length := by
  induction es generalizing a with
  | nil => exact ⟨rfl, rfl, rfl⟩
  | cons e es ih =>
    obtain ⟨h1, h2, h3, -⟩ := step_counts (hash := hash) a e
    obtain ⟨h4, h5, h6⟩ := ih (a.step hash e).1
    have hle := List.count_le_length (a := Sending.sent) (l := sendings (a.step hash e).2)
    rw [run_cons]
    dsimp only
    have e1 : allReceived ((a.step hash e).2 ++ ((a.step hash e).1.run hash es).2) =
      allReceived (a.step hash e).2 ++ allReceived ((a.step hash e).1.run hash es).2 := List.filterMap_append
    have e2 : sendings ((a.step hash e).2 ++ ((a.step hash e).1.run hash es).2) =
      sendings (a.step hash e).2 ++ sendings ((a.step hash e).1.run hash es).2 := List.filterMap_append
    rw [e1, e2, List.length_append, List.length_append, List.count_append]
    exact ⟨by omega, by omega, by omega⟩

/-! ## What keeps a task going -/

/-- subscribers have channels -/
def HaveChannels (l : Subs) : Prop := ∀ x ∈ l, x.2 ≠ []

/-- all the task has of subscribers is with channels -/
def Sound (k : Task π) : Prop := Sees HaveChannels k ∧ ∀ x ∈ k.todo, x.2.1 ≠ []

theorem change_sound {t : Nat} {subs subs' : Subs} {k k' : Task π} {out : List (Effect π)} (h : Change hash t subs subs' k k' out)
    (hs : HaveChannels subs') (hk : Sound k) : Sound k' := by
  refine ⟨change_sees h hs hk.1, ?_⟩
  cases h with
  | same => exact hk.2
  | told => rw [tell_todo]; exact hk.2
  | stop => exact hk.2
  | caught => exact hk.2
  | updated => exact hk.2
  | took m =>
    intro x hx
    obtain ⟨y, hy, rfl⟩ := List.mem_map.1 hx
    exact hk.1.1 y hy
  | sent _ _ _ _ _ _ _ _ he => exact fun x hx => hk.2 x (by rw [he]; exact List.mem_cons_of_mem _ hx)

/-- all subscribers and all that tasks have of them are with channels -/
def AllSound (a : Actor π) : Prop := HaveChannels a.subscribers ∧ ∀ (t : Nat) (k : Task π), a.tasks[t]? = some k → Sound k

theorem step_allSound {a : Actor π} {e : Event π} (h : AllSound a) (hc : Channels [e]) : AllSound (a.step hash e).1 := by
  have hs : HaveChannels (a.step hash e).1.subscribers := by
    rw [(step_subs (hash := hash) a e).1]
    unfold Actor.subsAfter
    split
    · exact h.1
    · split
      next l =>
        intro x hx
        rcases mem_put hx with rfl | hx
        · exact hc _ (List.mem_cons_self ..) l rfl
        · exact h.1 x hx
      next i => exact fun x hx => h.1 x (List.mem_filter.1 hx).1
      next => exact h.1
  refine ⟨hs, fun t k' hk' => ?_⟩
  rcases step_task_inv a e hk' with ⟨k, hk, hch⟩ | ⟨p, _, _, rfl, _, _⟩
  · exact change_sound hch hs (h.2 t k hk)
  · exact ⟨⟨h.1, fun _ hx => by cases hx⟩, fun _ hx => by cases hx⟩

theorem run_allSound {a : Actor π} (es : List (Event π)) (h : AllSound a) (hc : Channels es) : AllSound (a.run hash es).1 := by
  induction es generalizing a with
  | nil => exact h
  | cons e es ih =>
    rw [run_cons]
    exact ih (step_allSound h fun x hx => hc x (by rw [List.mem_singleton] at hx; rw [hx]; exact List.mem_cons_self ..))
      fun x hx => hc x (List.mem_cons_of_mem _ hx)

/-- an event that does not stop a connection leaves its task running -/
theorem step_goes {a : Actor π} {e : Event π} {t : Nat} {k : Task π} (he : Entries a) (ht : a.tasks[t]? = some k) (hk : Sound k)
    (hr : k.running = true) (ho : a.over = false) (hs : e.stops t k.peer = false) :
    ∃ k', (a.step hash e).1.tasks[t]? = some k' ∧ k'.running = true ∧ k'.peer = k.peer ∧ (a.step hash e).1.over = false := by
  obtain ⟨k', h1, h2⟩ := step_task (hash := hash) a e ht
  have hover : (a.step hash e).1.over = false := by
    rw [(step_subs (hash := hash) a e).2.2, ho]
    cases e with
    | command c => cases c <;> simp_all [Event.stops, Event.ends]
    | _ => simp_all [Event.stops, Event.ends]
  refine ⟨k', h1, ?_, change_peer h2, hover⟩
  have habort : ∀ (p : Addr) (u : Nat), a.table.look p = some u → p ≠ k.peer → (abort a.tasks u)[t]? = some k := by
    intro p u hu hp
    rw [abort_get, if_neg, ht]
    rintro rfl
    obtain ⟨x, hx, hxp⟩ := he.entry p u hu
    obtain rfl := Option.some.inj (hx.symm.trans ht)
    exact hp hxp.symm
  have same : (a.step hash e).1.tasks[t]? = some k → k'.running = true := by
    intro h
    rw [h] at h1
    rw [← Option.some.inj h1]; exact hr
  have hset : ∀ (u : Nat) (x y : Task π), a.tasks[u]? = some x → (u = t → y.running = x.running) →
      (a.step hash e).1.tasks = a.tasks.set u y → k'.running = true := by
    intro u x y hx hy hh
    rw [hh, set_get _ hx ht] at h1
    by_cases hu : u = t
    · rw [if_pos hu] at h1
      rw [← Option.some.inj h1, hy hu]
      subst hu
      rw [← hr, Option.some.inj (hx.symm.trans ht)]
    · rw [if_neg hu] at h1
      rw [← Option.some.inj h1]; exact hr
  cases e with
  | command c =>
    cases c with
    | shutdown => cases hs
    | subscribe l =>
      have : (a.step hash (.command (.subscribe l))).1.tasks = a.tasks.map (·.tell (put a.subscribers a.next l)) := by
        simp [Actor.step, Actor.handle, ho]
      rw [this, List.getElem?_map, ht] at h1
      rw [← Option.some.inj h1, tell_running]; exact hr
    | unsubscribe i =>
      have : (a.step hash (.command (.unsubscribe i))).1.tasks = a.tasks.map (·.tell (del a.subscribers i)) := by
        simp [Actor.step, Actor.handle, ho]
      rw [this, List.getElem?_map, ht] at h1
      rw [← Option.some.inj h1, tell_running]; exact hr
    | disconnect p =>
      refine same ?_
      simp only [Actor.step, ho, Bool.false_eq_true, if_false, Actor.handle]
      split
      next u hu => exact habort p u hu (by simpa [Event.stops] using hs)
      next => exact ht
    | localAddr => refine same ?_; simp [Actor.step, Actor.handle, ho, ht]
    | peers => refine same ?_; simp [Actor.step, Actor.handle, ho, ht]
  | noCommands => cases hs
  | notice =>
    refine same ?_
    simp only [Actor.step, ho, Bool.false_eq_true, if_false]
    unfold Actor.notice
    repeat' split
    all_goals exact ht
  | accept p =>
    refine same ?_
    have hl : t < a.tasks.length := (List.getElem?_eq_some_iff.1 ht).1
    simp only [Actor.step, ho, Bool.false_eq_true, if_false]
    unfold Actor.accept
    dsimp only
    split
    next u hu =>
      dsimp only
      rw [List.getElem?_append_left (by rw [abort_length]; exact hl)]
      exact habort p u hu (by simpa [Event.stops] using hs)
    next => rw [List.getElem?_append_left hl]; exact ht
  | acceptFailed => exact same ht
  | update u =>
    rcases hx : a.tasks[u]? with _ | x
    · exact same (by simp only [Actor.step, Actor.idle, hx]; exact ht)
    · by_cases hc : x.running ∧ x.todo.isEmpty
      · have hst : (a.step hash (.update u)).1 = a.update u x := by simp only [Actor.step, Actor.idle, hx, if_pos hc]
        by_cases hl : x.lagged = true
        · refine hset u x { x with lagged := false } hx (fun _ => rfl) ?_
          rw [hst]; unfold Actor.update; rw [if_pos hl]
        · cases hp : x.pending with
          | cons s rest =>
            refine hset u x { x with view := s, pending := rest } hx (fun _ => rfl) ?_
            rw [hst]; unfold Actor.update; rw [if_neg hl, hp]
          | nil =>
            refine same ?_
            rw [hst]; unfold Actor.update; rw [if_neg hl, hp]
            simp only [ho, Bool.false_eq_true, if_false]
            exact ht
      · exact same (by simp only [Actor.step, Actor.idle, hx, if_neg hc]; exact ht)
  | message u m =>
    rcases hx : a.tasks[u]? with _ | x
    · exact same (by simp only [Actor.step, Actor.idle, hx]; exact ht)
    · by_cases hc : x.running ∧ x.todo.isEmpty
      · refine hset u x { x with todo := x.view.map fun e => (e.1, e.2, m) } hx (fun _ => rfl) ?_
        simp only [Actor.step, Actor.idle, hx, if_pos hc]
      · exact same (by simp only [Actor.step, Actor.idle, hx, if_neg hc]; exact ht)
  | send u how =>
    rcases hx : a.tasks[u]? with _ | x
    · exact same (by simp only [Actor.step, hx]; exact ht)
    · by_cases hc : x.running = true
      · have hst : (a.step hash (.send u how)).1 = (a.send hash u x how).1 := by simp only [Actor.step, hx, if_pos hc]
        cases htodo : x.todo with
        | nil => refine same ?_; rw [hst]; unfold Actor.send; rw [htodo]; exact ht
        | cons y rest =>
          obtain ⟨id, chans, m⟩ := y
          cases hp : pick hash x.peer chans with
          | none =>
            refine hset u x { x with running := false } hx (fun hu => ?_) (by rw [hst]; unfold Actor.send; rw [htodo]; simp only [hp])
            subst hu
            obtain rfl := Option.some.inj (hx.symm.trans ht)
            obtain ⟨c, -, hc'⟩ := pick_some hash x.peer (hk.2 (id, chans, m) (by rw [htodo]; exact List.mem_cons_self ..))
            rw [hp] at hc'; cases hc'
          | some c =>
            refine hset u x { x with todo := rest } hx (fun _ => rfl) ?_
            rw [hst]; unfold Actor.send; rw [htodo]
            simp only [hp]
            split <;> rfl
      · exact same (by simp only [Actor.step, hx, if_neg hc]; exact ht)
  | malformed u =>
    have hu : u ≠ t := by simpa [Event.stops] using hs
    refine same ?_
    simp only [Actor.step, Actor.idle]
    split
    next x hx =>
      split
      · dsimp only
        rw [finish_get]
        exact other_get _ hx ht hu
      · exact ht
    · exact ht
  | eof u =>
    have hu : u ≠ t := by simpa [Event.stops] using hs
    refine same ?_
    simp only [Actor.step, Actor.idle]
    split
    next x hx =>
      split
      · dsimp only
        rw [finish_get]
        exact other_get _ hx ht hu
      · exact ht
    · exact ht

/-- a connection that nothing stops goes on -/
theorem run_goes {t : Nat} (es : List (Event π)) {a : Actor π} {k : Task π} (he : Entries a) (hs : AllSound a) (ht : a.tasks[t]? = some k)
    (hr : k.running = true) (ho : a.over = false) (hc : Channels es) (hst : ∀ e ∈ es, e.stops t k.peer = false) :
    ∃ k', (a.run hash es).1.tasks[t]? = some k' ∧ k'.running = true ∧ k'.peer = k.peer := by
  induction es generalizing a k with
  | nil => exact ⟨k, ht, hr, rfl⟩
  | cons e es ih =>
    obtain ⟨k1, h1, h2, h3, h4⟩ := step_goes (hash := hash) he ht (hs.2 t k ht) hr ho (hst e (List.mem_cons_self ..))
    have hs' := step_allSound (hash := hash) (e := e) hs fun x hx => hc x (by rw [List.mem_singleton] at hx; rw [hx]; exact List.mem_cons_self ..)
    obtain ⟨k', h5, h6, h7⟩ := ih (step_entries a e he) hs' h1 h2 h4 (fun x hx => hc x (List.mem_cons_of_mem _ hx)) fun x hx => by
      rw [h3]; exact hst x (List.mem_cons_of_mem _ hx)
    exact ⟨k', h5, h6, h7.trans h3⟩

end Verif.BmpService
