import Verif.BmpService.Runs

/-! What subscribers are sent -/

namespace Verif.BmpService
open Verif Verif.Collector Verif.Service

variable {π : Type} {hash : Addr → Nat}

theorem pick_some (hash : Addr → Nat) (peer : Addr) {chans : List Chan} (h : chans ≠ []) :
    ∃ c ∈ chans, pick hash peer chans = some c := by
  unfold pick
  have hl : 0 < chans.length := List.length_pos_iff.2 h
  by_cases h1 : chans.length = 1
  · rw [if_pos h1]
    exact ⟨chans[0], List.getElem_mem _, List.getElem?_eq_getElem hl⟩
  · rw [if_neg h1, if_neg (by omega)]
    have := Nat.mod_lt (hash peer) hl
    exact ⟨chans[hash peer % chans.length], List.getElem_mem _, List.getElem?_eq_getElem this⟩

theorem receivedBy_append (t : Nat) (x y : List (Effect π)) : receivedBy t (x ++ y) = receivedBy t x ++ receivedBy t y := List.filterMap_append
theorem offersTo_append (t : Nat) (s : UInt32) (x y : List (Effect π)) : offersTo t s (x ++ y) = offersTo t s x ++ offersTo t s y :=
  List.filterMap_append

theorem receivedBy_filter (t : Nat) (l : List (Effect π)) : receivedBy t (l.filter (Effect.of t)) = receivedBy t l := by
  unfold receivedBy
  rw [List.filterMap_filter]
  congr 1
  funext e
  cases e <;> simp [Effect.of]

theorem offersTo_filter (t : Nat) (s : UInt32) (l : List (Effect π)) : offersTo t s (l.filter (Effect.of t)) = offersTo t s l := by
  unfold offersTo
  rw [List.filterMap_filter]
  congr 1
  funext e
  cases e with
  | offer u =>
    by_cases h : u = t <;> simp [Effect.of, h]
  | _ => simp [Effect.of]

/-- what the message in hand is still owed to a subscriber -/
def owed (s : UInt32) (k : Task π) : List (List Chan × π) := k.todo.filterMap fun e => if e.1 = s then some e.2 else none

/-- the list of subscribers has a subscriber with the given channels -/
def Has (s : UInt32) (chans : List Chan) (l : Subs) : Prop := Uniq l ∧ l.look s = some chans

theorem has_owed {s : UInt32} {chans : List Chan} {l : Subs} (h : Has s chans l) (m : π) :
    (l.map fun e => (e.1, e.2, m)).filterMap (fun e => if e.1 = s then some e.2 else none) = [(chans, m)] := by
  obtain ⟨hu, hl⟩ := h
  induction l with
  | nil => cases hl
  | cons x l ih =>
    obtain ⟨i, c⟩ := x
    rw [lookup_cons'] at hl
    simp only [List.map_cons, List.filterMap_cons]
    have hu' := List.pairwise_cons.1 hu
    by_cases hi : i = s
    · rw [if_pos hi] at hl
      simp only [hi, if_true]
      obtain rfl := Option.some.inj hl
      congr 1
      rw [List.filterMap_map]
      refine List.filterMap_eq_nil_iff.2 fun y hy => ?_
      have := hu'.1 y hy
      simp only [Function.comp]
      rw [if_neg (fun h => this (by simp [hi, h]))]
    · rw [if_neg hi] at hl
      simp only [hi, if_false]
      exact ih hu'.2 hl

/-- the message in hand is owed to a subscriber at most once, on its channels -/
def OwedOnce (s : UInt32) (chans : List Chan) (k : Task π) : Prop := owed s k = [] ∨ ∃ m, owed s k = [(chans, m)]

theorem change_owed {s : UInt32} {chans : List Chan} {c : Chan} {t : Nat} {subs subs' : Subs} {k k' : Task π} {out : List (Effect π)}
    (h : Change hash t subs subs' k k' out) (hc : pick hash k.peer chans = some c) (hs : Sees (Has s chans) k) (ho : OwedOnce s chans k) :
    (owed s k).map (fun e => (c, k.peer, e.2)) ++ (receivedBy t out).map (fun m => (c, k.peer, m)) =
      offersTo t s out ++ (owed s k').map (fun e => (c, k.peer, e.2)) ∧ OwedOnce s chans k' := by
  cases h with
  | same => exact ⟨by simp [receivedBy, offersTo], ho⟩
  | told => exact ⟨by simp [receivedBy, offersTo, owed, tell_todo], by unfold OwedOnce owed at *; rw [tell_todo]; exact ho⟩
  | stop => exact ⟨by simp [receivedBy, offersTo, owed], ho⟩
  | caught => exact ⟨by simp [receivedBy, offersTo, owed], ho⟩
  | updated => exact ⟨by simp [receivedBy, offersTo, owed], ho⟩
  | took m _ _ he =>
    have h1 : owed s k = [] := by unfold owed; rw [he]; rfl
    have h2 : owed s { k with todo := k.view.map fun e => (e.1, e.2, m) } = [(chans, m)] := has_owed hs.1 m
    rw [h1, h2]
    exact ⟨by simp [receivedBy, offersTo], .inr ⟨m, h2⟩⟩
  | sent id l m rest c' how _ _ he hp =>
    have h1 : owed s k = (if id = s then [(l, m)] else []) ++ owed s { k with todo := rest } := by
      unfold owed
      rw [he, List.filterMap_cons]
      by_cases hi : id = s <;> simp [hi]
    by_cases hi : id = s
    · rw [if_pos hi] at h1
      have h2 : l = chans ∧ owed s { k with todo := rest } = [] := by
        rcases ho with ho | ⟨m', ho⟩
        · rw [ho] at h1; simp at h1
        · rw [ho] at h1
          simp only [List.cons_append, List.nil_append, List.cons.injEq, Prod.mk.injEq] at h1
          exact ⟨h1.1.1.symm, h1.2.symm⟩
      rw [h1, h2.2]
      rw [h2.1, hc] at hp
      obtain rfl := Option.some.inj hp
      refine ⟨by simp [receivedBy, offersTo, hi], .inl h2.2⟩
    · rw [if_neg hi, List.nil_append] at h1
      refine ⟨?_, ?_⟩
      · rw [h1]; simp [receivedBy, offersTo, hi]
      · unfold OwedOnce at *; rw [h1] at ho; exact ho

/-- a subscriber stays when no event unsubscribes it -/
theorem step_has {a : Actor π} {e : Event π} {s : UInt32} {chans : List Chan} (hk : Known a) (hn : a.next.toNat + subscriptions [e] < 2 ^ 32)
    (h : a.subscribers.look s = some chans) (hst : Stays s [e]) : (a.step hash e).1.subscribers.look s = some chans := by
  rw [(step_subs (hash := hash) a e).1]
  unfold Actor.subsAfter
  split
  · exact h
  · split
    next l =>
      rw [lookup_put, if_neg ?_]
      · exact h
      · intro hx
        have := hk.below s (by rw [h]; rfl)
        rw [hx] at this
        omega
    next i =>
      rw [lookup_del, if_neg (hst _ (List.mem_cons_self ..) i rfl)]
      exact h
    next => exact h

/-- what a task sends to a subscriber that is known to it, and stays -/
theorem run_owed {s : UInt32} {chans : List Chan} {c : Chan} {t : Nat} (es : List (Event π)) {a : Actor π} {k : Task π}
    (hk : Known a) (hn : a.next.toNat + subscriptions es < 2 ^ 32) (ha : a.subscribers.look s = some chans) (hst : Stays s es)
    (ht : a.tasks[t]? = some k) (hc : pick hash k.peer chans = some c) (hs : Sees (Has s chans) k) (ho : OwedOnce s chans k) :
    ∃ k', (a.run hash es).1.tasks[t]? = some k' ∧ OwedOnce s chans k' ∧
      (owed s k).map (fun e => (c, k.peer, e.2)) ++ (receivedBy t (a.run hash es).2).map (fun m => (c, k.peer, m)) =
        offersTo t s (a.run hash es).2 ++ (owed s k').map (fun e => (c, k.peer, e.2)) := by
  induction es generalizing a k with
  | nil => exact ⟨k, ht, ho, by simp [Actor.run, receivedBy, offersTo]⟩
  | cons e es ih =>
    rw [subscriptions_cons] at hn
    obtain ⟨k1, h1, h2⟩ := step_task (hash := hash) a e ht
    obtain ⟨h3, h4, h5⟩ := step_known (hash := hash) hk (e := e) (by omega)
    have h6 := step_has (hash := hash) (e := e) hk (by omega) ha fun x hx => hst x (by
      rw [List.mem_singleton] at hx
      rw [hx]; exact List.mem_cons_self ..)
    obtain ⟨h7, h8⟩ := change_owed h2 hc hs ho
    have h9 := change_peer h2
    have h10 := change_sees h2 ⟨h3.uniq, h6⟩ hs
    obtain ⟨k', h11, h12, h13⟩ := ih h3 (by omega) h6 (fun x hx => hst x (List.mem_cons_of_mem _ hx)) h1 (by rw [h9]; exact hc) h10 h8
    refine ⟨k', h11, h12, ?_⟩
    rw [h9] at h13
    rw [receivedBy_filter, offersTo_filter] at h7
    rw [run_cons]
    dsimp only
    rw [receivedBy_append, offersTo_append, List.map_append, ← List.append_assoc, h7, List.append_assoc, h13, List.append_assoc]

/-- the list of subscribers is without a subscriber -/
def Lacks (s : UInt32) (l : Subs) : Prop := l.look s = none

theorem lacks_owed {s : UInt32} {l : Subs} (h : Lacks s l) (m : π) :
    (l.map fun e => (e.1, e.2, m)).filterMap (fun e => if e.1 = s then some e.2 else none) = [] := by
  rw [List.filterMap_map]
  refine List.filterMap_eq_nil_iff.2 fun y hy => ?_
  simp only [Function.comp]
  rw [if_neg]
  intro hx
  unfold Lacks at h
  induction l with
  | nil => cases hy
  | cons x l ih =>
    obtain ⟨i, c⟩ := x
    rw [lookup_cons'] at h
    split at h
    · cases h
    next hi =>
      rcases List.mem_cons.1 hy with rfl | hy
      · exact hi hx
      · exact ih h hy

theorem change_lacks {s : UInt32} {t : Nat} {subs subs' : Subs} {k k' : Task π} {out : List (Effect π)}
    (h : Change hash t subs subs' k k' out) (hs : Sees (Lacks s) k) (ho : owed s k = []) : offersTo t s out = [] ∧ owed s k' = [] := by
  cases h with
  | same => exact ⟨rfl, ho⟩
  | told => exact ⟨rfl, by unfold owed at *; rw [tell_todo]; exact ho⟩
  | stop => exact ⟨rfl, ho⟩
  | caught => exact ⟨rfl, ho⟩
  | updated => exact ⟨rfl, ho⟩
  | took m => exact ⟨rfl, lacks_owed hs.1 m⟩
  | sent id l m rest c' how _ _ he hp =>
    unfold owed at ho
    rw [he, List.filterMap_cons] at ho
    by_cases hi : id = s
    · simp [hi] at ho
    · simp only [hi, if_false] at ho
      exact ⟨by simp [offersTo, hi], ho⟩

theorem step_lacks {a : Actor π} {e : Event π} {s : UInt32} (h : Lacks s a.subscribers) (hs : s.toNat < a.next.toNat) :
    Lacks s (a.step hash e).1.subscribers := by
  rw [(step_subs (hash := hash) a e).1]
  unfold Actor.subsAfter Lacks at *
  split
  · exact h
  · split
    next l =>
      rw [lookup_put, if_neg ?_]
      · exact h
      · intro hx; rw [hx] at hs; omega
    next i =>
      rw [lookup_del]
      split
      · rfl
      · exact h
    next => exact h

/-- a task does not send to a subscriber it does not know -/
theorem run_lacks {s : UInt32} {t : Nat} (es : List (Event π)) {a : Actor π} {k : Task π} (hk : Known a)
    (hn : a.next.toNat + subscriptions es < 2 ^ 32) (hl : Lacks s a.subscribers) (hlt : s.toNat < a.next.toNat)
    (ht : a.tasks[t]? = some k) (hs : Sees (Lacks s) k) (ho : owed s k = []) :
    offersTo t s (a.run hash es).2 = [] := by
  induction es generalizing a k with
  | nil => rfl
  | cons e es ih =>
    rw [subscriptions_cons] at hn
    obtain ⟨k1, h1, h2⟩ := step_task (hash := hash) a e ht
    obtain ⟨h3, h4, h5⟩ := step_known (hash := hash) hk (e := e) (by omega)
    have h6 := step_lacks (hash := hash) (e := e) hl hlt
    obtain ⟨h7, h8⟩ := change_lacks h2 hs ho
    rw [offersTo_filter] at h7
    rw [run_cons]
    dsimp only
    rw [offersTo_append, h7, ih h3 (by omega) h6 (by omega) h1 (change_sees h2 h6 hs) h8]
    rfl

/-- a place that has no task has no effects -/
theorem no_task {a : Actor π} {e : Event π} {t : Nat} (h : a.tasks[t]? = none) : (a.step hash e).2.filter (Effect.of t) = [] := by
  have hidle : ∀ (u : Nat) (f : Task π → Actor π × List (Effect π)), (∀ k, u ≠ t → ((f k).2.filter (Effect.of t)) = []) →
      ((a.idle u f).2.filter (Effect.of t)) = [] := by
    intro u f hf
    unfold Actor.idle
    split
    next k hk =>
      split
      · exact hf k fun e => by rw [e, h] at hk; cases hk
      · rfl
    next => rfl
  cases e with
  | command c =>
    simp only [Actor.step]
    split
    · rfl
    · cases c <;> simp only [Actor.handle] <;> try rfl
      split <;> rfl
  | noCommands => simp only [Actor.step]; split <;> rfl
  | notice => simp only [Actor.step]; split <;> rfl
  | accept p => simp only [Actor.step]; split <;> rfl
  | acceptFailed => rfl
  | update u => exact hidle u _ fun _ _ => rfl
  | message u m => exact hidle u _ fun _ hu => of_received hu
  | send u how =>
    simp only [Actor.step]
    split
    next k hk =>
      have hu : u ≠ t := fun e => by rw [e, h] at hk; cases hk
      split
      · unfold Actor.send
        split
        · rfl
        · split
          · rfl
          · exact of_offer hu
      · rfl
    next => rfl
  | malformed u => exact hidle u _ fun _ _ => rfl
  | eof u => exact hidle u _ fun _ _ => rfl

/-- nothing is seen of a connection before it is taken -/
theorem before_accept (es : List (Event π)) {a : Actor π} {t : Nat} (ho : a.over = false) (hr : Runs es)
    (h : a.tasks.length + (connections es).length ≤ t) : (a.run hash es).2.filter (Effect.of t) = [] := by
  induction es generalizing a with
  | nil => rfl
  | cons e es ih =>
    have h3 := (step_subs (hash := hash) a e).2.2
    have ho' : (a.step hash e).1.over = false := by rw [h3, ho, hr e (List.mem_cons_self ..)]; rfl
    have hl : (a.step hash e).1.tasks.length + (connections es).length ≤ t := by
      rw [step_length]
      unfold connections at h
      rw [List.filterMap_cons] at h
      unfold Actor.taking
      rw [ho]
      cases hx : e.accepts with
      | none => rw [hx] at h; simpa [connections] using h
      | some p => rw [hx] at h; simp [connections] at h ⊢; omega
    rw [run_cons]
    dsimp only
    rw [List.filter_append, ih ho' (fun x hx => hr x (List.mem_cons_of_mem _ hx)) hl,
      no_task (List.getElem?_eq_none (by omega))]
    rfl

end Verif.BmpService
