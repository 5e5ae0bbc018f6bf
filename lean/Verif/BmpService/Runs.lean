import Verif.BmpService.Lemmas

/-! What holds after any number of steps -/

namespace Verif.BmpService
open Verif Verif.Collector Verif.Service

variable {π : Type} {hash : Addr → Nat}

theorem run_cons (a : Actor π) (e : Event π) (es : List (Event π)) :
    a.run hash (e :: es) = (((a.step hash e).1.run hash es).1, (a.step hash e).2 ++ ((a.step hash e).1.run hash es).2) := rfl

theorem run_append (a : Actor π) (es es' : List (Event π)) :
    a.run hash (es ++ es') = (((a.run hash es).1.run hash es').1, (a.run hash es).2 ++ ((a.run hash es).1.run hash es').2) := by
  induction es generalizing a with
  | nil => rfl
  | cons e es ih => rw [List.cons_append, run_cons, ih, run_cons, List.append_assoc]

/-- an invariant of steps is one of runs -/
theorem run_inv {P : Actor π → Prop} (h : ∀ a e, P a → P (a.step hash e).1) (a : Actor π) (es : List (Event π)) (ha : P a) :
    P (a.run hash es).1 := by
  induction es generalizing a with
  | nil => exact ha
  | cons e es ih => rw [run_cons]; exact ih _ (h a e ha)

/-- the task of a connection that was just taken -/
def Task.fresh (p : Addr) (subs : Subs) : Task π := ⟨p, subs, [], [], false, true⟩

theorem accept_tasks (a : Actor π) (p : Addr) :
    ∃ ts, (a.accept p).tasks = ts ++ [Task.fresh p a.subscribers] ∧ ts.length = a.tasks.length := by
  unfold Actor.accept
  dsimp only
  split
  next u _ => exact ⟨abort a.tasks u, rfl, abort_length ..⟩
  next => exact ⟨a.tasks, rfl, rfl⟩

theorem finish_length (a : Actor π) (u : Nat) (k : Task π) : (a.finish u k).tasks.length = a.tasks.length := by
  unfold Actor.finish
  dsimp only
  split
  · simp
  · split <;> simp

theorem update_length (a : Actor π) (u : Nat) (k : Task π) : (a.update u k).tasks.length = a.tasks.length := by
  unfold Actor.update
  split
  · simp
  · split
    · simp
    · split
      · exact finish_length ..
      · rfl

theorem send_length (a : Actor π) (u : Nat) (k : Task π) (how : Sending) : (a.send hash u k how).1.tasks.length = a.tasks.length := by
  unfold Actor.send
  split
  · rfl
  · split
    · simp
    · dsimp only
      split <;> simp

/-- the connection a step takes, if any -/
def Actor.taking (a : Actor π) (e : Event π) : Option Addr := if a.over then none else e.accepts

theorem step_length (a : Actor π) (e : Event π) :
    (a.step hash e).1.tasks.length = a.tasks.length + (a.taking e).toList.length := by
  cases e with
  | command c =>
    have : a.taking (.command c) = none := by unfold Actor.taking; split <;> rfl
    rw [this]
    simp only [Actor.step]
    split
    · rfl
    · cases c with
      | shutdown => exact aborts_length ..
      | subscribe chans => simp [Actor.handle]
      | unsubscribe i => simp [Actor.handle]
      | disconnect p =>
        simp only [Actor.handle]
        split
        · exact abort_length ..
        · rfl
      | localAddr => rfl
      | peers => rfl
  | accept p =>
    simp only [Actor.step, Actor.taking]
    split
    · rfl
    · obtain ⟨ts, h1, h2⟩ := accept_tasks a p
      rw [h1]
      simp [h2, Event.accepts]
  | noCommands =>
    simp only [Actor.step, Actor.taking]
    split <;> rfl
  | notice =>
    simp only [Actor.step, Actor.taking]
    split
    · rfl
    · unfold Actor.notice
      split
      · rfl
      · split <;> rfl
  | acceptFailed => simp [Actor.step, Actor.taking, Event.accepts]
  | update u =>
    have : a.taking (.update u) = none := by unfold Actor.taking; split <;> rfl
    rw [this]
    simp only [Actor.step, Actor.idle]
    split
    · split
      · exact update_length ..
      · rfl
    · rfl
  | message u m =>
    have : a.taking (.message u m) = none := by unfold Actor.taking; split <;> rfl
    rw [this]
    simp only [Actor.step, Actor.idle]
    split
    · split
      · simp
      · rfl
    · rfl
  | send u how =>
    have : a.taking (.send u how) = none := by unfold Actor.taking; split <;> rfl
    rw [this]
    simp only [Actor.step]
    split
    · split
      · exact send_length ..
      · rfl
    · rfl
  | malformed u =>
    have : a.taking (.malformed u) = none := by unfold Actor.taking; split <;> rfl
    rw [this]
    simp only [Actor.step, Actor.idle]
    split
    · split
      · exact finish_length ..
      · rfl
    · rfl
  | eof u =>
    have : a.taking (.eof u) = none := by unfold Actor.taking; split <;> rfl
    rw [this]
    simp only [Actor.step, Actor.idle]
    split
    · split
      · exact finish_length ..
      · rfl
    · rfl

/-- where a task comes from -/
theorem step_task_inv (a : Actor π) (e : Event π) {t : Nat} {k' : Task π} (h : (a.step hash e).1.tasks[t]? = some k') :
    (∃ k, a.tasks[t]? = some k ∧
      Change hash t a.subscribers (a.step hash e).1.subscribers k k' ((a.step hash e).2.filter (Effect.of t))) ∨
    (∃ p, a.taking e = some p ∧ t = a.tasks.length ∧ k' = Task.fresh p a.subscribers ∧
      (a.step hash e).1.subscribers = a.subscribers ∧ (a.step hash e).2 = []) := by
  rcases hk : a.tasks[t]? with _ | k
  · refine .inr ?_
    have hl : a.tasks.length ≤ t := List.getElem?_eq_none_iff.1 hk
    have hl' : t < (a.step hash e).1.tasks.length := (List.getElem?_eq_some_iff.1 h).1
    rw [step_length] at hl'
    rcases hp : a.taking e with _ | p
    · rw [hp] at hl'; simp at hl'; omega
    · rw [hp] at hl'
      simp at hl'
      have ht : t = a.tasks.length := by omega
      refine ⟨p, rfl, ht, ?_⟩
      unfold Actor.taking at hp
      split at hp
      · cases hp
      next ho =>
        cases e <;> simp only [Event.accepts, Option.some.injEq] at hp <;> try cases hp
        simp only [Actor.step, ho] at h ⊢
        obtain ⟨ts, h1, h2⟩ := accept_tasks a p
        refine ⟨?_, accept_subs a p, rfl⟩
        simp only [Bool.false_eq_true, if_false] at h
        rw [h1, ht, ← h2] at h
        simpa using h.symm
  · obtain ⟨k1, h1, h2⟩ := step_task a e hk
    obtain rfl : k1 = k' := Option.some.inj (h1.symm.trans h)
    exact .inl ⟨k, rfl, h2⟩

theorem change_peer {t : Nat} {subs subs' : Subs} {k k' : Task π} {out : List (Effect π)} (h : Change hash t subs subs' k k' out) :
    k'.peer = k.peer := by
  cases h <;> try rfl
  unfold Task.tell
  dsimp only
  split <;> rfl

theorem tell_view (s : Subs) (k : Task π) : (k.tell s).view = k.view := by
  unfold Task.tell
  dsimp only
  split <;> rfl

theorem tell_todo (s : Subs) (k : Task π) : (k.tell s).todo = k.todo := by
  unfold Task.tell
  dsimp only
  split <;> rfl

theorem tell_running (s : Subs) (k : Task π) : (k.tell s).running = k.running := by
  unfold Task.tell
  dsimp only
  split <;> rfl

theorem tell_mem (s : Subs) (k : Task π) {x : Subs} (h : x ∈ (k.tell s).pending) : x = s ∨ x ∈ k.pending := by
  unfold Task.tell at h
  dsimp only at h
  have aux : x ∈ k.pending ++ [s] → x = s ∨ x ∈ k.pending := by simp [or_comm]
  split at h
  · exact aux (List.mem_of_mem_drop h)
  · exact aux h

theorem tell_last (s : Subs) (k : Task π) : (k.tell s).pending.getLast? = some s := by
  unfold Task.tell
  dsimp only
  split
  next h =>
    dsimp only
    rw [List.getLast?_drop, if_neg (by unfold updatesKept; omega)]
    simp
  next => simp

theorem tell_length (s : Subs) (k : Task π) : (k.tell s).pending.length ≤ updatesKept := by
  unfold Task.tell
  dsimp only
  split
  next h =>
    dsimp only
    rw [List.length_drop]
    omega
  next h => exact Nat.le_of_not_lt h

/-! ## All a task knows of subscribers -/

/-- whatever list of subscribers a task has is as said -/
def Sees (P : Subs → Prop) (k : Task π) : Prop := P k.view ∧ ∀ s ∈ k.pending, P s

theorem change_sees {P : Subs → Prop} {t : Nat} {subs subs' : Subs} {k k' : Task π} {out : List (Effect π)}
    (h : Change hash t subs subs' k k' out) (hs : P subs') (hk : Sees P k) : Sees P k' := by
  cases h with
  | same => exact hk
  | told =>
    refine ⟨by rw [tell_view]; exact hk.1, fun s hm => ?_⟩
    rcases tell_mem _ _ hm with rfl | h
    · exact hs
    · exact hk.2 _ h
  | stop => exact hk
  | caught => exact hk
  | updated s rest _ _ _ _ hp =>
    exact ⟨hk.2 s (by rw [hp]; simp), fun x hx => hk.2 x (by rw [hp]; exact List.mem_cons_of_mem _ hx)⟩
  | took => exact hk
  | sent => exact hk

/-- the tasks have the subscribers of the actor, or will have them once they took the updates that wait -/
def Current (subs : Subs) (k : Task π) : Prop := k.pending.getLast?.getD k.view = subs ∧ k.pending.length ≤ updatesKept

theorem change_current {t : Nat} {subs subs' : Subs} {k k' : Task π} {out : List (Effect π)}
    (h : Change hash t subs subs' k k' out) (hk : Current subs k) : Current subs' k' := by
  cases h with
  | same e => rw [e]; exact hk
  | told =>
    exact ⟨by rw [tell_last]; rfl, tell_length ..⟩
  | stop e => rw [e]; exact hk
  | caught e => rw [e]; exact hk
  | updated s rest e _ _ _ hp =>
    rw [e]
    obtain ⟨h1, h2⟩ := hk
    rw [hp, List.getLast?_cons] at h1
    rw [hp] at h2
    refine ⟨h1, ?_⟩
    simp only [List.length_cons] at h2 ⊢
    omega
  | took _ e => rw [e]; exact hk
  | sent _ _ _ _ _ _ e => rw [e]; exact hk

/-- all tasks have, or will have, the subscribers of the actor -/
def Informed (a : Actor π) : Prop := ∀ (t : Nat) (k : Task π), a.tasks[t]? = some k → Current a.subscribers k

theorem step_informed (a : Actor π) (e : Event π) (h : Informed a) : Informed (a.step hash e).1 := by
  intro t k' hk'
  rcases step_task_inv a e hk' with ⟨k, hk, hc⟩ | ⟨p, _, _, rfl, hs, _⟩
  · exact change_current hc (h t k hk)
  · rw [hs]; exact ⟨rfl, Nat.zero_le _⟩

theorem informed (i : Nat) (ad : Addr) (es : List (Event π)) : Informed ((Actor.new i ad).run hash es).1 :=
  run_inv step_informed _ _ (fun t k h => by cases h)

/-! ## The subscribers of the actor -/

/-- what an event does to the subscribers -/
def Actor.subsAfter (a : Actor π) (e : Event π) : Subs :=
  if a.over then a.subscribers else match e with
    | .command (.subscribe l) => put a.subscribers a.next l
    | .command (.unsubscribe i) => del a.subscribers i
    | _ => a.subscribers

theorem finish_keeps (a : Actor π) (u : Nat) (k : Task π) :
    (a.finish u k).subscribers = a.subscribers ∧ (a.finish u k).next = a.next ∧ (a.finish u k).over = a.over ∧ (a.finish u k).table = a.table := by
  unfold Actor.finish
  dsimp only
  repeat' split
  all_goals exact ⟨rfl, rfl, rfl, rfl⟩

theorem update_keeps (a : Actor π) (u : Nat) (k : Task π) :
    (a.update u k).subscribers = a.subscribers ∧ (a.update u k).next = a.next ∧ (a.update u k).over = a.over ∧ (a.update u k).table = a.table := by
  unfold Actor.update
  split
  · exact ⟨rfl, rfl, rfl, rfl⟩
  · split
    · exact ⟨rfl, rfl, rfl, rfl⟩
    · split
      · exact finish_keeps ..
      · exact ⟨rfl, rfl, rfl, rfl⟩

theorem send_keeps (a : Actor π) (u : Nat) (k : Task π) (how : Sending) :
    (a.send hash u k how).1.subscribers = a.subscribers ∧ (a.send hash u k how).1.next = a.next ∧ (a.send hash u k how).1.over = a.over ∧
      (a.send hash u k how).1.table = a.table := by
  unfold Actor.send
  dsimp only
  repeat' split
  all_goals exact ⟨rfl, rfl, rfl, rfl⟩

/-- the step of a task leaves the rest alone -/
theorem task_step_keeps (a : Actor π) (e : Event π) (h : ∃ u, (e = .update u ∨ (∃ m, e = .message u m) ∨ (∃ how, e = .send u how) ∨ e = .malformed u ∨ e = .eof u)) :
    (a.step hash e).1.subscribers = a.subscribers ∧ (a.step hash e).1.next = a.next ∧ (a.step hash e).1.over = a.over ∧
      (a.step hash e).1.table = a.table := by
  obtain ⟨u, rfl | ⟨m, rfl⟩ | ⟨how, rfl⟩ | rfl | rfl⟩ := h
  · simp only [Actor.step, Actor.idle]
    split
    · split
      · exact update_keeps ..
      · exact ⟨rfl, rfl, rfl, rfl⟩
    · exact ⟨rfl, rfl, rfl, rfl⟩
  · simp only [Actor.step, Actor.idle]
    repeat' split
    all_goals exact ⟨rfl, rfl, rfl, rfl⟩
  · simp only [Actor.step]
    split
    · split
      · exact send_keeps ..
      · exact ⟨rfl, rfl, rfl, rfl⟩
    · exact ⟨rfl, rfl, rfl, rfl⟩
  · simp only [Actor.step, Actor.idle]
    split
    · split
      · exact finish_keeps { a with malformed := a.malformed + 1 } ..
      · exact ⟨rfl, rfl, rfl, rfl⟩
    · exact ⟨rfl, rfl, rfl, rfl⟩
  · simp only [Actor.step, Actor.idle]
    split
    · split
      · exact finish_keeps ..
      · exact ⟨rfl, rfl, rfl, rfl⟩
    · exact ⟨rfl, rfl, rfl, rfl⟩

/-- the next identifier and whether the actor is over after an event -/
theorem step_subs (a : Actor π) (e : Event π) :
    (a.step hash e).1.subscribers = a.subsAfter e ∧
    (a.step hash e).1.next = (if a.over = false ∧ e.isSubscribe = true then a.next + 1 else a.next) ∧
    (a.step hash e).1.over = (a.over || e.ends) := by
  have task : ∀ e : Event π, (∃ u, (e = .update u ∨ (∃ m, e = .message u m) ∨ (∃ how, e = .send u how) ∨ e = .malformed u ∨ e = .eof u)) →
      (a.step hash e).1.subscribers = a.subsAfter e ∧
      (a.step hash e).1.next = (if a.over = false ∧ e.isSubscribe = true then a.next + 1 else a.next) ∧
      (a.step hash e).1.over = (a.over || e.ends) := by
    intro e h
    obtain ⟨h1, h2, h3, -⟩ := task_step_keeps (hash := hash) a e h
    rw [h1, h2, h3]
    obtain ⟨u, rfl | ⟨m, rfl⟩ | ⟨how, rfl⟩ | rfl | rfl⟩ := h <;> simp [Actor.subsAfter, Event.isSubscribe, Event.ends]
  cases e with
  | command c =>
    rcases ho : a.over with _ | _
    · cases c with
      | shutdown => simp [Actor.step, Actor.handle, Actor.subsAfter, Event.isSubscribe, Event.ends, ho]
      | subscribe => simp [Actor.step, Actor.handle, Actor.subsAfter, Event.isSubscribe, Event.ends, ho]
      | unsubscribe => simp [Actor.step, Actor.handle, Actor.subsAfter, Event.isSubscribe, Event.ends, ho]
      | disconnect p =>
        simp only [Actor.step, ho, Actor.handle, Bool.false_eq_true, if_false]
        split <;> simp [Actor.subsAfter, Event.isSubscribe, Event.ends, ho]
      | localAddr => simp [Actor.step, Actor.handle, Actor.subsAfter, Event.isSubscribe, Event.ends, ho]
      | peers => simp [Actor.step, Actor.handle, Actor.subsAfter, Event.isSubscribe, Event.ends, ho]
    · simp [Actor.step, Actor.subsAfter, ho]
  | noCommands => rcases ho : a.over with _ | _ <;> simp [Actor.step, Actor.subsAfter, Event.isSubscribe, Event.ends, ho]
  | notice =>
    simp only [Actor.step, Actor.subsAfter, Event.isSubscribe, Event.ends]
    split
    next ho => simp [ho]
    next ho =>
      have ho : a.over = false := by simpa using ho
      unfold Actor.notice
      repeat' split
      all_goals simp [ho]
  | accept p =>
    simp only [Actor.step, Actor.subsAfter, Event.isSubscribe, Event.ends]
    split
    next ho => simp [ho]
    next ho =>
      have ho : a.over = false := by simpa using ho
      unfold Actor.accept
      dsimp only
      split <;> simp [ho]
  | acceptFailed => simp [Actor.step, Actor.subsAfter, Event.isSubscribe, Event.ends]
  | update u => exact task _ ⟨u, .inl rfl⟩
  | message u m => exact task _ ⟨u, .inr (.inl ⟨m, rfl⟩)⟩
  | send u how => exact task _ ⟨u, .inr (.inr (.inl ⟨how, rfl⟩))⟩
  | malformed u => exact task _ ⟨u, .inr (.inr (.inr (.inl rfl)))⟩
  | eof u => exact task _ ⟨u, .inr (.inr (.inr (.inr rfl)))⟩

theorem subscriptions_cons (e : Event π) (es : List (Event π)) : subscriptions (e :: es) = subscriptions [e] + subscriptions es := by
  unfold subscriptions
  rw [← List.countP_append]
  rfl

theorem subscriptions_append (es es' : List (Event π)) : subscriptions (es ++ es') = subscriptions es + subscriptions es' :=
  List.countP_append ..

theorem subscriptions_one (e : Event π) : subscriptions [e] = if e.isSubscribe then 1 else 0 := by
  simp [subscriptions, List.countP_cons]

/-- subscribers have different identifiers, given out before -/
structure Known (a : Actor π) : Prop where
  uniq : Uniq a.subscribers
  below : ∀ i, (a.subscribers.look i).isSome → i.toNat < a.next.toNat

theorem known_new (i : Nat) (ad : Addr) : Known (Actor.new i ad : Actor π) := ⟨.nil, fun _ h => by simp [Actor.new, List.look] at h⟩

theorem step_known {a : Actor π} {e : Event π} (h : Known a) (hn : a.next.toNat + subscriptions [e] < 2 ^ 32) :
    Known (a.step hash e).1 ∧ (a.step hash e).1.next.toNat ≤ a.next.toNat + subscriptions [e] ∧ a.next.toNat ≤ (a.step hash e).1.next.toNat := by
  obtain ⟨h1, h2, -⟩ := step_subs (hash := hash) a e
  have key : (a.step hash e).1.next.toNat = a.next.toNat + (if a.over = false ∧ e.isSubscribe = true then 1 else 0) := by
    rw [h2]
    rw [subscriptions_one] at hn
    split
    next hc =>
      rw [if_pos hc.2] at hn
      rw [UInt32.toNat_add, Nat.mod_eq_of_lt]
      · rfl
      · exact hn
    next => rfl
  have hle : (if a.over = false ∧ e.isSubscribe = true then 1 else 0) ≤ subscriptions [e] := by
    rw [subscriptions_one]
    split
    next hc => rw [if_pos hc.2]; exact Nat.le_refl _
    next => exact Nat.zero_le _
  refine ⟨⟨?_, fun i hi => ?_⟩, by omega, by omega⟩
  · rw [h1]
    unfold Actor.subsAfter
    split
    · exact h.uniq
    · split
      · exact h.uniq.put ..
      · exact h.uniq.del ..
      · exact h.uniq
  · rw [h1] at hi
    unfold Actor.subsAfter at hi
    split at hi
    · have := h.below i hi; omega
    next ho =>
      split at hi
      next l =>
        rw [lookup_put] at hi
        have : (if a.over = false ∧ (Event.command (π := π) (.subscribe l)).isSubscribe = true then 1 else 0) = 1 := by
          rw [if_pos ⟨by simpa using ho, rfl⟩]
        rw [key, this]
        split at hi
        next hx => rw [← hx]; omega
        next => have := h.below i hi; omega
      next j =>
        rw [lookup_del] at hi
        split at hi
        · simp at hi
        · have := h.below i hi; omega
      next => have := h.below i hi; omega

theorem run_known {a : Actor π} (es : List (Event π)) (h : Known a) (hn : a.next.toNat + subscriptions es < 2 ^ 32) :
    Known (a.run hash es).1 ∧ (a.run hash es).1.next.toNat ≤ a.next.toNat + subscriptions es ∧ a.next.toNat ≤ (a.run hash es).1.next.toNat := by
  induction es generalizing a with
  | nil => exact ⟨h, Nat.le_refl _, Nat.le_refl _⟩
  | cons e es ih =>
    rw [subscriptions_cons] at hn
    obtain ⟨h1, h2, h3⟩ := step_known (hash := hash) h (e := e) (by omega)
    rw [run_cons, subscriptions_cons]
    obtain ⟨h4, h5, h6⟩ := ih h1 (by omega)
    exact ⟨h4, Nat.le_trans h5 (by omega), Nat.le_trans h3 h6⟩

/-- an actor that is not told to end goes on, and gives identifiers in order -/
theorem run_next {a : Actor π} (es : List (Event π)) (ho : a.over = false) (hr : Runs es) (hn : a.next.toNat + subscriptions es < 2 ^ 32) :
    (a.run hash es).1.over = false ∧ (a.run hash es).1.next.toNat = a.next.toNat + subscriptions es := by
  induction es generalizing a with
  | nil => exact ⟨ho, rfl⟩
  | cons e es ih =>
    rw [subscriptions_cons] at hn
    obtain ⟨-, h2, h3⟩ := step_subs (hash := hash) a e
    rw [run_cons, subscriptions_cons]
    have ho' : (a.step hash e).1.over = false := by rw [h3, ho, hr e (List.mem_cons_self ..)]; rfl
    have hnext : (a.step hash e).1.next.toNat = a.next.toNat + subscriptions [e] := by
      rw [h2, subscriptions_one]
      rw [subscriptions_one] at hn
      by_cases hs : e.isSubscribe = true
      · rw [if_pos ⟨ho, hs⟩, if_pos hs, UInt32.toNat_add, Nat.mod_eq_of_lt]
        · rfl
        · rw [if_pos hs] at hn
          show _ + 1 < _
          omega
      · rw [if_neg (fun h => hs h.2), if_neg hs]; rfl
    obtain ⟨h4, h5⟩ := ih ho' (fun x hx => hr x (List.mem_cons_of_mem _ hx)) (by omega)
    exact ⟨h4, by rw [h5, hnext]; omega⟩

/-- the connections taken by an actor that goes on -/
theorem run_length {a : Actor π} (es : List (Event π)) (ho : a.over = false) (hr : Runs es) :
    (a.run hash es).1.tasks.length = a.tasks.length + (connections es).length := by
  induction es generalizing a with
  | nil => rfl
  | cons e es ih =>
    obtain ⟨-, -, h3⟩ := step_subs (hash := hash) a e
    rw [run_cons]
    have ho' : (a.step hash e).1.over = false := by rw [h3, ho, hr e (List.mem_cons_self ..)]; rfl
    rw [ih ho' fun x hx => hr x (List.mem_cons_of_mem _ hx), step_length]
    unfold Actor.taking connections
    rw [ho, List.filterMap_cons]
    cases e.accepts <;> simp
    omega

end Verif.BmpService
