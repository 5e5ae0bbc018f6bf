import Verif.BmpServer.Invariant
/-! # What the service is asked -/

namespace Verif.BmpServer
open Verif Verif.Service

variable {π : Type}

/-- the requests of a connection, in order -/
def requestsOf (t : Nat) (out : List (Nat × Item π)) : List (Item π) := (out.filter fun x => x.1 = t).map (·.2)

/-- what the decoder of a connection gives, in order -/
def arrivals (t : Nat) (es : List (Event π)) : List (Item π) :=
  es.filterMap fun e => match e with
    | .arrive u i => if u = t then some i else none
    | _ => none

theorem requestsOf_append (t : Nat) (a b : List (Nat × Item π)) : requestsOf t (a ++ b) = requestsOf t a ++ requestsOf t b := by
  simp [requestsOf]

theorem arrivals_cons (t : Nat) (e : Event π) (es : List (Event π)) : arrivals t (e :: es) = arrivals t [e] ++ arrivals t es := by
  simp only [arrivals, List.filterMap_cons]
  split <;> simp

/-- only taking asks the service -/
theorem step_request (s : Server π) (e : Event π) {t : Nat} {i : Item π} (h : (s.step e).2 = some (t, i)) :
    ∃ r k, e = .take t r ∧ s.conns[t]? = some k ∧ (k.taken r).2 = some i := by
  cases e with
  | take u r =>
    simp only [Server.step] at h
    cases hk : s.conns[u]? with
    | none => rw [hk] at h; cases h
    | some k =>
      rw [hk] at h
      simp only [Option.bind_some, Option.map_eq_some_iff] at h
      obtain ⟨j, hj, he⟩ := h
      cases he
      exact ⟨r, k, rfl, hk, hj⟩
  | _ =>
    exfalso
    revert h
    simp only [Server.step]
    repeat' (first | (simp; done) | split)

theorem taken_some {r : Bool} {k : Conn π} {i : Item π} (h : (k.taken r).2 = some i) :
    k.stage = .reading ∧ (k.taken r).1.stage = .calling i.last ∧ k.input = i :: (k.taken r).1.input := by
  unfold Conn.taken at *
  split at h
  · rename_i hl
    rw [if_pos hl]
    split at h
    · cases h
    · rename_i j rest hj
      split at h
      · rename_i hr
        obtain rfl := Option.some.inj h
        exact ⟨hl.1, by simp [hr], by simp [hr, hj]⟩
      · cases h
  · cases h

theorem taken_none {r : Bool} {k : Conn π} (h : (k.taken r).2 = none) :
    (k.taken r).1 = k ∨ ∃ i, k.input = i :: (k.taken r).1.input ∧ (k.taken r).1.stage = .leaving ∧ r = false := by
  unfold Conn.taken at *
  split at h
  · rename_i hl
    rw [if_pos hl]
    split at h
    · exact .inl rfl
    · rename_i j rest hj
      split at h
      · cases h
      · rename_i hr
        right
        exact ⟨j, by simp [hr, hj], by simp [hr], by simpa using hr⟩
  · rename_i hl; rw [if_neg hl]; exact .inl rfl

theorem polled_input (g : Signal) (k : Conn π) : (k.polled g).input = k.input := by
  unfold Conn.polled
  repeat (first | rfl | split)

theorem answered_input (a : Answer) (k : Conn π) : (k.answered a).input = k.input := by
  unfold Conn.answered; split <;> rfl

theorem live_iff (k : Conn π) : k.live = true ↔ k.stage = .reading ∨ ∃ l, k.stage = .calling l := by
  unfold Conn.live
  split <;> simp_all

/-- a worker that has left does not come back -/
theorem connStep_live {s : Server π} {t : Nat} {k k' : Conn π} {e : Event π} (h : k' = k ∨ ConnStep s t k e k') (hl : k'.live = true) : k.live = true := by
  rcases h with rfl | h
  · exact hl
  · cases h with
    | arrive i => exact hl
    | poll =>
      cases hk : k.live with
      | true => rfl
      | false => simp [Conn.polled, hk] at hl
    | take r =>
      cases hx : (k.taken r).2 with
      | some i => rw [live_iff]; exact .inl (taken_some hx).1
      | none =>
        rcases taken_none hx with h | ⟨i, -, h, -⟩
        · rw [h] at hl; exact hl
        · rw [live_iff, h] at hl; rcases hl with hl | ⟨l, hl⟩ <;> cases hl
    | answer a =>
      cases hk : k.stage with
      | reading => rw [live_iff]; exact .inl hk
      | calling l => rw [live_iff]; exact .inr ⟨l, hk⟩
      | leaving => simp [Conn.answered, hk, Conn.live] at hl
      | checking => simp [Conn.answered, hk, Conn.live] at hl
      | telling => simp [Conn.answered, hk, Conn.live] at hl
      | gone => simp [Conn.answered, hk, Conn.live] at hl
    | drop h =>
      rw [live_iff] at hl
      dsimp only at hl
      rcases hl with hl | ⟨l, hl⟩ <;> split at hl <;> cases hl
    | check h =>
      rw [live_iff] at hl
      dsimp only at hl
      rcases hl with hl | ⟨l, hl⟩ <;> split at hl <;> cases hl
    | tell h => rw [live_iff] at hl; rcases hl with hl | ⟨l, hl⟩ <;> cases hl

theorem taking_silent (s : Server π) (e : Event π) {t : Nat} (h : ∀ r, e ≠ .take t r) : requestsOf t (s.step e).2.toList = [] := by
  cases ho : (s.step e).2 with
  | none => rfl
  | some x =>
    obtain ⟨u, i⟩ := x
    obtain ⟨r, k, rfl, -⟩ := step_request s e ho
    by_cases hu : u = t
    · subst hu; exact absurd rfl (h r)
    · simp [requestsOf, hu]

theorem take_request {s : Server π} {t : Nat} {r : Bool} {k : Conn π} (hk : s.conns[t]? = some k) :
    requestsOf t (s.step (.take t r)).2.toList = (k.taken r).2.toList := by
  simp only [Server.step, hk, Option.bind_some]
  cases (k.taken r).2 <;> simp [requestsOf]

/-- what a step does to what a connection has -/
theorem step_ledger {s : Server π} (e : Event π) {t : Nat} {k : Conn π} (hk : s.conns[t]? = some k) :
    ∃ k' lost, (s.step e).1.conns[t]? = some k' ∧ k.input ++ arrivals t [e] = requestsOf t (s.step e).2.toList ++ lost ++ k'.input ∧
      (lost = [] ∨ (∃ i, lost = [i]) ∧ e = .take t false ∧ k'.live = false) ∧
      (requestsOf t (s.step e).2.toList = [] ∨ ∃ i, requestsOf t (s.step e).2.toList = [i] ∧ k.stage = .reading ∧ k'.stage = .calling i.last) ∧
      (k' = k ∨ ConnStep s t k e k') := by
  have nothing : ∀ k', (∀ r, e ≠ .take t r) → k.input ++ arrivals t [e] = k'.input → (s.step e).1.conns[t]? = some k' → (k' = k ∨ ConnStep s t k e k') →
      ∃ k' lost, (s.step e).1.conns[t]? = some k' ∧ k.input ++ arrivals t [e] = requestsOf t (s.step e).2.toList ++ lost ++ k'.input ∧
      (lost = [] ∨ (∃ i, lost = [i]) ∧ e = .take t false ∧ k'.live = false) ∧
      (requestsOf t (s.step e).2.toList = [] ∨ ∃ i, requestsOf t (s.step e).2.toList = [i] ∧ k.stage = .reading ∧ k'.stage = .calling i.last) ∧
      (k' = k ∨ ConnStep s t k e k') := by
    intro k' ht hi hg hs
    exact ⟨k', [], hg, by rw [taking_silent s e ht, hi]; rfl, .inl rfl, .inl (taking_silent s e ht), hs⟩
  by_cases hx : ∃ r, e = .take t r
  · obtain ⟨r, rfl⟩ := hx
    have hg : (s.step (.take t r)).1.conns[t]? = some (k.taken r).1 := by
      simp only [Server.step]; rw [worker_get, if_pos rfl, hk]; rfl
    have hs : (k.taken r).1 = k ∨ ConnStep s t k (.take t r) (k.taken r).1 := .inr (.take r)
    have ha : arrivals t [Event.take (π := π) t r] = [] := rfl
    rw [ha, List.append_nil, take_request hk]
    cases ho : (k.taken r).2 with
    | some i =>
      obtain ⟨h1, h2, h3⟩ := taken_some ho
      exact ⟨_, [], hg, by simpa using h3, .inl rfl, .inr ⟨i, rfl, h1, h2⟩, hs⟩
    | none =>
      rcases taken_none ho with h | ⟨i, h1, h2, h3⟩
      · exact ⟨_, [], hg, by simp [h], .inl rfl, .inl rfl, hs⟩
      · refine ⟨_, [i], hg, by simpa using h1, .inr ⟨⟨i, rfl⟩, by rw [h3], ?_⟩, .inl rfl, hs⟩
        simp [Conn.live, h2]
  · have ht : ∀ r, e ≠ .take t r := fun r hr => hx ⟨r, hr⟩
    obtain ⟨k', h1, h2⟩ := step_conn s e hk
    refine nothing k' ht ?_ h1 h2
    rcases h2 with rfl | h2
    · -- as it was: nothing arrived for it
      have : arrivals t [e] = [] := by
        cases e with
        | arrive u i =>
          by_cases hu : u = t
          · subst hu
            simp only [Server.step] at h1
            rw [worker_get, if_pos rfl, hk] at h1
            have := congrArg Conn.input (Option.some.inj h1)
            simp at this
          · simp [arrivals, hu]
        | _ => rfl
      rw [this, List.append_nil]
    · cases h2 with
      | arrive i => simp [arrivals]
      | poll => rw [polled_input]; simp [arrivals]
      | take r => exact absurd rfl (ht r)
      | answer a => rw [answered_input]; simp [arrivals]
      | drop => simp [arrivals]
      | check => simp [arrivals]
      | tell => simp [arrivals]

/-- a worker that has left asks nothing -/
theorem run_left {t : Nat} (es : List (Event π)) {s : Server π} {k : Conn π} (hk : s.conns[t]? = some k) (hl : k.live = false) :
    requestsOf t (s.run es).2 = [] ∧ ∃ k', (s.run es).1.conns[t]? = some k' ∧ k'.live = false ∧ k'.input = k.input ++ arrivals t es := by
  induction es generalizing s k with
  | nil => exact ⟨rfl, k, hk, hl, by simp [arrivals]⟩
  | cons e es ih =>
    obtain ⟨k', lost, h1, h2, h3, h4, h5⟩ := step_ledger e hk
    have hl' : k'.live = false := by
      cases hx : k'.live with
      | false => rfl
      | true => rw [connStep_live h5 hx] at hl; cases hl
    have hno : requestsOf t (s.step e).2.toList = [] := by
      rcases h4 with h | ⟨i, -, h, -⟩
      · exact h
      · rw [Conn.live, h] at hl; cases hl
    have hlost : lost = [] := by
      rcases h3 with h | ⟨⟨i, hi⟩, he, -⟩
      · exact h
      · subst he
        rcases h5 with h5 | h5
        · exfalso
          rw [show arrivals t [Event.take (π := π) t false] = [] from rfl, List.append_nil, hno, hi, h5] at h2
          have := congrArg List.length h2
          simp at this
        · exfalso
          cases h5 with
          | take =>
            have : (k.taken false).1 = k := by
              unfold Conn.taken
              rw [if_neg]
              intro hc
              rw [Conn.live, hc.1] at hl
              cases hl
            rw [show arrivals t [Event.take (π := π) t false] = [] from rfl, List.append_nil, hno, hi, this] at h2
            have := congrArg List.length h2
            simp at this
    obtain ⟨g1, k'', g2, g3, g4⟩ := ih h1 hl'
    rw [Server.run_cons, requestsOf_append, hno, g1]
    refine ⟨rfl, k'', g2, g3, ?_⟩
    rw [g4, arrivals_cons, ← List.append_assoc, h2, hno, hlost]
    rfl

/-- everything that arrives is asked about, in order, or still there; but for one that the service was not ready for -/
theorem run_ledger {t : Nat} (es : List (Event π)) {s : Server π} {k : Conn π} (hk : s.conns[t]? = some k) :
    ∃ k' lost, (s.run es).1.conns[t]? = some k' ∧ k.input ++ arrivals t es = requestsOf t (s.run es).2 ++ lost ++ k'.input ∧
      (lost = [] ∨ (∃ i, lost = [i]) ∧ .take t false ∈ es ∧ k'.live = false) := by
  induction es generalizing s k with
  | nil => exact ⟨k, [], hk, by simp [arrivals, requestsOf, Server.run], .inl rfl⟩
  | cons e es ih =>
    obtain ⟨k1, lost1, h1, h2, h3, h4, h5⟩ := step_ledger e hk
    rcases h3 with rfl | ⟨⟨i, rfl⟩, rfl, hl⟩
    · obtain ⟨k', lost, g1, g2, g3⟩ := ih h1
      refine ⟨k', lost, by rw [Server.run_cons]; exact g1, ?_, ?_⟩
      · rw [Server.run_cons, requestsOf_append, arrivals_cons, ← List.append_assoc, h2, List.append_nil, List.append_assoc, g2]
        simp
      · rcases g3 with g3 | ⟨a, b, c⟩
        · exact .inl g3
        · exact .inr ⟨a, List.mem_cons_of_mem _ b, c⟩
    · obtain ⟨g1, k', g2, g3, g4⟩ := run_left es h1 hl
      refine ⟨k', [i], by rw [Server.run_cons]; exact g2, ?_, .inr ⟨⟨i, rfl⟩, List.mem_cons_self .., g3⟩⟩
      rw [Server.run_cons, requestsOf_append, arrivals_cons, ← List.append_assoc, h2, g1, g4]
      simp

/-- from a last request on nothing more is asked -/
theorem run_called {t : Nat} (es : List (Event π)) {s : Server π} {k : Conn π} (hk : s.conns[t]? = some k) (hl : k.stage = .calling true) :
    requestsOf t (s.run es).2 = [] := by
  induction es generalizing s k with
  | nil => rfl
  | cons e es ih =>
    obtain ⟨k', lost, h1, -, -, h4, h5⟩ := step_ledger e hk
    have hno : requestsOf t (s.step e).2.toList = [] := by
      rcases h4 with h | ⟨i, -, h, -⟩
      · exact h
      · rw [hl] at h; cases h
    rw [Server.run_cons, requestsOf_append, hno, List.nil_append]
    by_cases hx : k'.live = true
    · refine ih h1 ?_
      rcases h5 with rfl | h5
      · exact hl
      · cases h5 with
        | arrive i => exact hl
        | poll =>
          unfold Conn.polled at hx ⊢
          split
          · rename_i hlive
            rw [if_pos hlive] at hx
            split at hx
            · rw [live_iff] at hx; rcases hx with hx | ⟨l, hx⟩ <;> cases hx
            · exact hl
          · exact hl
        | take r =>
          unfold Conn.taken
          rw [if_neg (by rw [hl]; simp)]
          exact hl
        | answer a => simp [Conn.answered, hl, Conn.live] at hx
        | drop h => rw [hl] at h; cases h
        | check h => rw [hl] at h; cases h
        | tell h => rw [hl] at h; cases h
    · exact (run_left es h1 (by simpa using hx)).1

/-- only the last request is one that ends the connection -/
theorem run_last {t : Nat} (es : List (Event π)) {s : Server π} {k : Conn π} (hk : s.conns[t]? = some k) {a b : List (Item π)} {i : Item π}
    (h : requestsOf t (s.run es).2 = a ++ i :: b) (hi : i.last = true) : b = [] := by
  induction es generalizing s k a with
  | nil => simp [requestsOf, Server.run] at h
  | cons e es ih =>
    obtain ⟨k', lost, h1, -, -, h4, -⟩ := step_ledger e hk
    rw [Server.run_cons, requestsOf_append] at h
    rcases h4 with h4 | ⟨j, h4, -, h6⟩
    · rw [h4, List.nil_append] at h; exact ih h1 h
    · rw [h4] at h
      cases a with
      | nil =>
        simp only [List.singleton_append, List.nil_append, List.cons.injEq] at h
        obtain ⟨rfl, h⟩ := h
        rw [hi] at h6
        rw [run_called es h1 h6] at h
        exact h.symm
      | cons x a =>
        simp only [List.cons_append, List.cons.injEq] at h
        exact ih h1 h.2

end Verif.BmpServer
