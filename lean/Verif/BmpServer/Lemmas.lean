import Verif.BmpServer.Lobby
/-! # What a step of the server does to a connection -/

namespace Verif.BmpServer
open Verif Verif.Service

variable {π : Type}

theorem Server.run_cons (s : Server π) (e : Event π) (es : List (Event π)) :
    s.run (e :: es) = (((s.step e).1.run es).1, (s.step e).2.toList ++ ((s.step e).1.run es).2) := rfl

theorem Server.run_append (s : Server π) (es fs : List (Event π)) :
    s.run (es ++ fs) = (((s.run es).1.run fs).1, (s.run es).2 ++ ((s.run es).1.run fs).2) := by
  induction es generalizing s with
  | nil => simp [Server.run]
  | cons e es ih => rw [List.cons_append, run_cons, run_cons, ih]; simp

theorem Server.run_inv {P : Server π → Prop} (hs : ∀ s e, P s → P (s.step e).1) (es : List (Event π)) {s : Server π} (h : P s) : P (s.run es).1 := by
  induction es generalizing s with
  | nil => exact h
  | cons e es ih => rw [run_cons]; exact ih (hs s e h)

/-- the steps of a worker -/
inductive ConnStep (s : Server π) (t : Nat) (k : Conn π) : Event π → Conn π → Prop where
  | arrive (i : Item π) : ConnStep s t k (.arrive t i) { k with input := k.input ++ [i] }
  | poll : ConnStep s t k (.poll t) (k.polled s.shutdown)
  | take (r : Bool) : ConnStep s t k (.take t r) (k.taken r).1
  | answer (a : Answer) : ConnStep s t k (.answer t a) (k.answered a)
  | drop (h : k.stage = .leaving) : ConnStep s t k (.drop t) { k with stage := if s.count - 1 = 0 then .checking else .gone }
  | check (h : k.stage = .checking) : ConnStep s t k (.check t) { k with stage := if s.graceful.triggered then .telling else .gone }
  | tell (h : k.stage = .telling) : ConnStep s t k (.tell t) { k with stage := .gone }

theorem worker_get (s : Server π) (t i : Nat) (f : Conn π → Conn π) :
    (s.worker t f).conns[i]? = if i = t then s.conns[t]?.map f else s.conns[i]? := by
  unfold Server.worker
  split
  · rename_i k hk
    rw [List.getElem?_set]
    by_cases h : t = i
    · subst h; rw [if_pos rfl, if_pos rfl, if_pos (List.getElem?_eq_some_iff.1 hk).1, hk]; rfl
    · rw [if_neg h, if_neg (fun x => h x.symm)]
  · rename_i hk
    split
    · rename_i h; subst h; simp [hk]
    · rfl

theorem worker_step {s : Server π} {t i : Nat} {k : Conn π} {f : Conn π → Conn π} {e : Event π} (h : s.conns[i]? = some k)
    (hf : i = t → ConnStep s i k e (f k)) : ∃ k', (s.worker t f).conns[i]? = some k' ∧ (k' = k ∨ ConnStep s i k e k') := by
  rw [worker_get]
  split
  · rename_i hi; subst hi; exact ⟨_, by rw [h]; rfl, .inr (hf rfl)⟩
  · exact ⟨k, h, .inl rfl⟩

/-- a connection is as it was, or its worker did a step -/
theorem step_conn (s : Server π) (e : Event π) {t : Nat} {k : Conn π} (h : s.conns[t]? = some k) :
    ∃ k', (s.step e).1.conns[t]? = some k' ∧ (k' = k ∨ ConnStep s t k e k') := by
  cases e with
  | shutdownSet => exact ⟨k, h, .inl rfl⟩
  | shutdownWake => exact ⟨k, h, .inl rfl⟩
  | gracefulSet => exact ⟨k, h, .inl rfl⟩
  | gracefulWake => exact ⟨k, h, .inl rfl⟩
  | endWake => exact ⟨k, h, .inl rfl⟩
  | serverPoll =>
    simp only [Server.step]
    split
    · split <;> exact ⟨k, h, .inl rfl⟩
    · exact ⟨k, h, .inl rfl⟩
  | gracefulPoll =>
    simp only [Server.step]
    split
    · split <;> exact ⟨k, h, .inl rfl⟩
    · exact ⟨k, h, .inl rfl⟩
  | accept peer =>
    simp only [Server.step]
    split
    · exact ⟨k, by rw [List.getElem?_append_left (List.getElem?_eq_some_iff.1 h).1]; exact h, .inl rfl⟩
    · exact ⟨k, h, .inl rfl⟩
  | acceptFailed => simp only [Server.step]; split <;> exact ⟨k, h, .inl rfl⟩
  | count => simp only [Server.step]; split <;> exact ⟨k, h, .inl rfl⟩
  | endPoll =>
    simp only [Server.step]
    split
    · split <;> exact ⟨k, h, .inl rfl⟩
    · exact ⟨k, h, .inl rfl⟩
  | timeout =>
    simp only [Server.step]
    split
    · split <;> exact ⟨k, h, .inl rfl⟩
    · exact ⟨k, h, .inl rfl⟩
  | force => simp only [Server.step]; split <;> exact ⟨k, h, .inl rfl⟩
  | arrive i x => exact worker_step h fun hi => hi ▸ .arrive x
  | poll i => exact worker_step h fun hi => hi ▸ .poll
  | take i r => exact worker_step h fun hi => hi ▸ .take r
  | answer i a => exact worker_step h fun hi => hi ▸ .answer a
  | check i =>
    simp only [Server.step]
    rw [worker_get]
    split
    · rename_i hi
      subst hi
      rw [h]
      by_cases hc : k.stage = .checking
      · exact ⟨_, rfl, .inr (by dsimp only; rw [if_pos hc]; exact .check hc)⟩
      · exact ⟨_, rfl, .inl (by dsimp only; rw [if_neg hc])⟩
    · exact ⟨k, h, .inl rfl⟩
  | drop i =>
    simp only [Server.step]
    split
    · rename_i k0 hk0
      split
      · rename_i hl
        by_cases hi : i = t
        · subst hi
          rw [h] at hk0
          obtain rfl := Option.some.inj hk0
          exact ⟨_, by simp [(List.getElem?_eq_some_iff.1 h).1], .inr (.drop hl)⟩
        · exact ⟨k, by simp only []; rw [List.getElem?_set_ne hi]; exact h, .inl rfl⟩
      · exact ⟨k, h, .inl rfl⟩
    · exact ⟨k, h, .inl rfl⟩
  | tell i =>
    simp only [Server.step]
    split
    · rename_i k0 hk0
      split
      · rename_i hl
        by_cases hi : i = t
        · subst hi
          rw [h] at hk0
          obtain rfl := Option.some.inj hk0
          exact ⟨_, by simp [(List.getElem?_eq_some_iff.1 h).1], .inr (.tell hl)⟩
        · exact ⟨k, by simp only []; rw [List.getElem?_set_ne hi]; exact h, .inl rfl⟩
      · exact ⟨k, h, .inl rfl⟩
    · exact ⟨k, h, .inl rfl⟩

/-- the peer of a connection that is taken in this step -/
def Server.taking (s : Server π) : Event π → Option Addr
  | .accept peer => match s.phase with
    | .serving (.waiting _) _ => some peer
    | _ => none
  | _ => none

theorem worker_length (s : Server π) (t : Nat) (f : Conn π → Conn π) : (s.worker t f).conns.length = s.conns.length := by
  unfold Server.worker; split <;> simp

theorem step_length (s : Server π) (e : Event π) : (s.step e).1.conns.length = s.conns.length + (s.taking e).toList.length := by
  cases e <;> simp only [Server.step, Server.taking, worker_length] <;> repeat (first | rfl | (split <;> simp_all))

/-- a connection after a step was there before, or is new -/
theorem step_conn_inv (s : Server π) (e : Event π) {t : Nat} {k' : Conn π} (h : (s.step e).1.conns[t]? = some k') :
    (∃ k, s.conns[t]? = some k ∧ (k' = k ∨ ConnStep s t k e k')) ∨
    (∃ p, s.taking e = some p ∧ t = s.conns.length ∧ k' = ⟨p, .start, .reading, []⟩) := by
  cases hk : s.conns[t]? with
  | some k =>
    left
    obtain ⟨k'', h1, h2⟩ := step_conn s e hk
    rw [h] at h1
    obtain rfl := Option.some.inj h1
    exact ⟨k, rfl, h2⟩
  | none =>
    right
    have hlen := step_length s e
    have hl := (List.getElem?_eq_some_iff.1 h).1
    have hge := List.getElem?_eq_none_iff.1 hk
    cases hp : s.taking e with
    | none => rw [hp] at hlen; simp at hlen; omega
    | some p =>
      rw [hp] at hlen
      simp at hlen
      have ht : t = s.conns.length := by omega
      refine ⟨p, rfl, ht, ?_⟩
      cases e with
      | accept q =>
        simp only [Server.taking] at hp
        split at hp
        · rename_i n gr hph
          obtain rfl := Option.some.inj hp
          simp only [Server.step, hph] at h
          rw [ht] at h
          simp at h
          exact h.symm
        · cases hp
      | _ => cases hp

end Verif.BmpServer
