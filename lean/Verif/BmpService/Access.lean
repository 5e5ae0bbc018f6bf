import Verif.BmpService.Sending

/-! The actor at the time it takes a subscription, and at the time it takes a connection -/

namespace Verif.BmpService
open Verif Verif.Collector Verif.Service

variable {π : Type} {hash : Addr → Nat}

theorem subscriptionId_toNat {pre : List (Event π)} (h : subscriptions pre < 2 ^ 32) : (subscriptionId pre).toNat = subscriptions pre := by
  unfold subscriptionId
  rw [UInt32.toNat_ofNat']
  omega

/-- a subscriber stays while no event unsubscribes it -/
theorem run_has {s : UInt32} {chans : List Chan} (es : List (Event π)) {a : Actor π} (hk : Known a)
    (hn : a.next.toNat + subscriptions es < 2 ^ 32) (h : a.subscribers.look s = some chans) (hst : Stays s es) :
    (a.run hash es).1.subscribers.look s = some chans := by
  induction es generalizing a with
  | nil => exact h
  | cons e es ih =>
    rw [subscriptions_cons] at hn
    obtain ⟨h1, h2, h3⟩ := step_known (hash := hash) hk (e := e) (by omega)
    rw [run_cons]
    exact ih h1 (by omega) (step_has hk (by omega) h fun x hx => hst x (by
      rw [List.mem_singleton] at hx
      rw [hx]; exact List.mem_cons_self ..)) fun x hx => hst x (List.mem_cons_of_mem _ hx)

/-- a subscriber that is gone stays so -/
theorem run_gone {s : UInt32} (es : List (Event π)) {a : Actor π} (hk : Known a) (hn : a.next.toNat + subscriptions es < 2 ^ 32)
    (h : Lacks s a.subscribers) (hs : s.toNat < a.next.toNat) : Lacks s (a.run hash es).1.subscribers := by
  induction es generalizing a with
  | nil => exact h
  | cons e es ih =>
    rw [subscriptions_cons] at hn
    obtain ⟨h1, h2, h3⟩ := step_known (hash := hash) hk (e := e) (by omega)
    rw [run_cons]
    exact ih h1 (by omega) (step_lacks h hs) (by omega)

theorem runs_left {es es' : List (Event π)} (h : Runs (es ++ es')) : Runs es := fun e he => h e (List.mem_append_left _ he)
theorem runs_right {es es' : List (Event π)} (h : Runs (es ++ es')) : Runs es' := fun e he => h e (List.mem_append_right _ he)
theorem stays_left {s : UInt32} {es es' : List (Event π)} (h : Stays s (es ++ es')) : Stays s es := fun e he => h e (List.mem_append_left _ he)
theorem stays_right {s : UInt32} {es es' : List (Event π)} (h : Stays s (es ++ es')) : Stays s es' := fun e he => h e (List.mem_append_right _ he)

/-- the actor just after a subscription -/
theorem at_subscription (i : Nat) (ad : Addr) {pre : List (Event π)} {chans : List Chan} (hr : Runs pre) (hn : subscriptions pre + 1 < 2 ^ 32) :
    ∃ a : Actor π, ((Actor.new i ad : Actor π).run hash (pre ++ [.command (.subscribe chans)])).1 = a ∧ Known a ∧ a.over = false ∧
      a.next.toNat = subscriptions pre + 1 ∧ a.subscribers.look (subscriptionId pre) = some chans ∧
      ((Actor.new i ad : Actor π).run hash (pre ++ [.command (.subscribe chans)])).2 =
        ((Actor.new i ad : Actor π).run hash pre).2 ++ [.subscribed i (subscriptionId pre)] := by
  have h0 : (Actor.new i ad : Actor π).next.toNat = 0 := rfl
  have hone : subscriptions [Event.command (π := π) (.subscribe chans)] = 1 := rfl
  obtain ⟨h1, h2⟩ := run_next (hash := hash) (a := (Actor.new i ad : Actor π)) pre rfl hr (by rw [h0]; omega)
  obtain ⟨h3, -, -⟩ := run_known (hash := hash) (a := (Actor.new i ad : Actor π)) pre (known_new i ad) (by rw [h0]; omega)
  rw [h0, Nat.zero_add] at h2
  have hid : ((Actor.new i ad : Actor π).run hash pre).1.next = subscriptionId pre := UInt32.toNat.inj (by
    rw [h2, subscriptionId_toNat (by omega)])
  have hi : ((Actor.new i ad : Actor π).run hash pre).1.id = i := by
    refine run_inv (hash := hash) (P := fun a : Actor π => a.id = i) (fun a e h => ?_) _ pre rfl
    have hfin : ∀ (b : Actor π) (u : Nat) (k : Task π), (b.finish u k).id = b.id := by
      intro b u k
      unfold Actor.finish
      dsimp only
      repeat' split
      all_goals rfl
    rw [← h]
    cases e with
    | command c =>
      simp only [Actor.step]
      split
      · rfl
      · cases c with
        | disconnect p =>
          simp only [Actor.handle]
          split <;> rfl
        | _ => rfl
    | noCommands => simp only [Actor.step]; split <;> rfl
    | notice =>
      simp only [Actor.step]
      split
      · rfl
      · unfold Actor.notice
        repeat' split
        all_goals rfl
    | accept p =>
      simp only [Actor.step]
      split
      · rfl
      · unfold Actor.accept
        dsimp only
        split <;> rfl
    | acceptFailed => rfl
    | update u =>
      simp only [Actor.step, Actor.idle]
      split
      · split
        · unfold Actor.update
          dsimp only
          split
          · rfl
          · split
            · rfl
            · split
              · exact hfin ..
              · rfl
        · rfl
      · rfl
    | message u m =>
      simp only [Actor.step, Actor.idle]
      repeat' split
      all_goals rfl
    | send u how =>
      simp only [Actor.step]
      split
      · split
        · unfold Actor.send
          split
          · rfl
          · split
            · rfl
            · dsimp only
              split <;> rfl
        · rfl
      · rfl
    | malformed u =>
      simp only [Actor.step, Actor.idle]
      split
      · split
        · exact hfin ..
        · rfl
      · rfl
    | eof u =>
      simp only [Actor.step, Actor.idle]
      split
      · split
        · exact hfin ..
        · rfl
      · rfl
  rw [run_append]
  generalize ((Actor.new i ad : Actor π).run hash pre).1 = a at *
  have hst : a.step hash (.command (.subscribe chans)) =
      ({ a with next := a.next + 1, subscribers := put a.subscribers a.next chans, tasks := a.tasks.map (·.tell (put a.subscribers a.next chans)) },
        [.subscribed a.id a.next]) := by simp [Actor.step, h1, Actor.handle]
  obtain ⟨h4, -, -⟩ := step_known (hash := hash) h3 (e := .command (.subscribe chans)) (by rw [hone]; omega)
  have h5 := (run_next (hash := hash) (a := a) [.command (.subscribe chans)] h1 (fun e he => by
    rw [List.mem_singleton] at he; rw [he]; rfl) (by rw [hone]; omega))
  have e1 : a.run hash [.command (.subscribe chans)] = ((a.step hash (.command (.subscribe chans))).1, [.subscribed i (subscriptionId pre)]) := by
    rw [run_cons, hst, ← hid, ← hi]; rfl
  rw [e1] at h5 ⊢
  refine ⟨_, rfl, h4, h5.1, by rw [h5.2, h2, hone], ?_, rfl⟩
  rw [hst]
  dsimp only
  rw [lookup_put, hid, if_pos rfl]

/-- the actor just after a connection was taken -/
theorem at_accept {a : Actor π} (p : Addr) (ho : a.over = false) :
    ∃ b : Actor π, a.step hash (.accept p) = (b, []) ∧ b.next = a.next ∧ b.subscribers = a.subscribers ∧ b.over = false ∧
      b.tasks[a.tasks.length]? = some (Task.fresh p a.subscribers) := by
  have hst : a.step hash (.accept p) = (a.accept p, []) := by simp [Actor.step, ho]
  obtain ⟨h1, h2, h3⟩ := step_subs (hash := hash) a (.accept p)
  rw [hst] at h1 h2 h3
  refine ⟨a.accept p, hst, by rw [h2, if_neg]; simp [Event.isSubscribe], ?_, by rw [h3, ho]; rfl, ?_⟩
  · rw [h1]; simp [Actor.subsAfter]
  · obtain ⟨ts, h4, h5⟩ := accept_tasks a p
    rw [h4, ← h5]
    simp

/-- an actor that takes no message has no effects of a connection -/
theorem offers_of_filter {t : Nat} {s : UInt32} {l : List (Effect π)} (h : l.filter (Effect.of t) = []) :
    offersTo t s l = [] ∧ receivedBy t l = [] := by
  rw [← offersTo_filter, ← receivedBy_filter, h]
  exact ⟨rfl, rfl⟩

/-- the actor is not over when nothing ends it -/
theorem run_over {a : Actor π} (es : List (Event π)) (ho : a.over = false) (hr : Runs es) : (a.run hash es).1.over = false := by
  induction es generalizing a with
  | nil => exact ho
  | cons e l ih =>
    rw [run_cons]
    exact ih (by rw [(step_subs (hash := hash) a e).2.2, ho, hr e (List.mem_cons_self ..)]; rfl) fun x hx => hr x (List.mem_cons_of_mem _ hx)

theorem allSound_new (i : Nat) (ad : Addr) : AllSound (Actor.new i ad : Actor π) :=
  ⟨fun _ hx => absurd hx List.not_mem_nil, fun _ _ h => nomatch h⟩

end Verif.BmpService
