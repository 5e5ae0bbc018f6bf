import Verif.Speaker.Listener
/-!
# Connections of BGP peers
-/
namespace Verif.Props
open Verif
open Verif.Speaker hiding Conn
open Verif.Listener
open Verif.Collector (put lookup_put)

/-- the connections that were given to a peer, in order -/
def givenTo (t : Nat) (log : List (Conn × Fate)) : List Conn := log.filterMap fun x => if x.2 = .given t then some x.1 else none

/-- the connections that the task of a peer got, in order -/
def connsGot (s : Listener.St) (t : Nat) : List Conn :=
  match s.tasks[t]? with
  | some k => k.got.filterMap fun m => match m with | .accept c => some c | _ => none
  | none => []

/-- the connection that is waited with -/
def pendingConn : Listener.Phase → Option (Conn × Nat)
  | .listening => none
  | .starting c t => some (c, t)
  | .negotiating c t => some (c, t)

/-! ## What steps change -/

theorem send_fields (s : Listener.St) (t : Nat) (m : ToPeer) : (s.send t m).1.sockets = s.sockets ∧ (s.send t m).1.known = s.known ∧ (s.send t m).1.owned = s.owned ∧ (s.send t m).1.phase = s.phase ∧
    (s.send t m).1.log = s.log ∧ (s.send t m).1.tasks.length = s.tasks.length := by
  unfold Listener.St.send
  split
  · split
    · exact ⟨rfl, rfl, rfl, rfl, rfl, rfl⟩
    · exact ⟨rfl, rfl, rfl, rfl, rfl, by simp⟩
  · exact ⟨rfl, rfl, rfl, rfl, rfl, rfl⟩

theorem give_fields (s : Listener.St) (t : Nat) (c : Conn) : (s.give t c).sockets = s.sockets ∧ (s.give t c).known = s.known ∧ (s.give t c).owned = s.owned ∧ (s.give t c).phase = s.phase ∧ (s.give t c).tasks.length = s.tasks.length ∧
    ∃ f, (s.give t c).log = s.log ++ [(c, f)] ∧ ((f = .given t ∧ (s.send t (.accept c)).2 = true ∧ ∃ k, s.tasks[t]? = some k ∧ k.ended = false) ∨
      (f = .failed ∧ (s.send t (.accept c)).2 = false ∧ ∀ k, s.tasks[t]? = some k → k.ended = true)) := by
  have h := send_fields s t (.accept c)
  unfold Listener.St.give
  refine ⟨h.1, h.2.1, h.2.2.1, h.2.2.2.1, h.2.2.2.2.2, if (s.send t (.accept c)).2 = true then .given t else .failed, congrArg (· ++ [(c, if (s.send t (.accept c)).2 = true then Fate.given t else .failed)]) h.2.2.2.2.1, ?_⟩
  unfold Listener.St.send
  split
  · next k hk =>
    by_cases he : k.ended = true
    · right; simp [he, hk]
    · left; simp [he, hk]
  · next hk => right; simp [hk]

theorem settle_fields (s : Listener.St) : s.settle.known = s.known ∧ s.settle.owned = s.owned ∧ s.settle.phase = s.phase ∧ s.settle.log = s.log ∧ s.settle.tasks = s.tasks ∧ s.settle.sockets.map (·.backlog) = s.sockets.map (·.backlog) := by
  unfold Listener.St.settle Listener.St.rearm
  split
  · refine ⟨rfl, rfl, rfl, rfl, rfl, ?_⟩
    simp
  · exact ⟨rfl, rfl, rfl, rfl, rfl, rfl⟩

theorem run_append (dyn : Bool) : ∀ (ls ms : List Listener.Label) (s : Listener.St), Listener.run dyn s (ls ++ ms) = (Listener.run dyn s ls).bind fun s' => Listener.run dyn s' ms := by
  intro ls
  induction ls with
  | nil => intro ms s; rfl
  | cons l ls ih =>
    intro ms s
    rw [List.cons_append, Listener.run, Listener.run]
    split
    · exact ih ms _
    · rfl

theorem run_invariant {dyn : Bool} (P : Listener.St → Prop) (h : ∀ s l s', P s → Listener.step dyn s l = some s' → P s') : ∀ (ls : List Listener.Label) (s s' : Listener.St), P s → Listener.run dyn s ls = some s' → P s' := by
  intro ls
  induction ls with
  | nil => intro s s' hp e; injection e with e; exact e ▸ hp
  | cons l ls ih =>
    intro s s' hp e
    rw [Listener.run] at e
    split at e
    · next s1 h1 => exact ih s1 s' (h s l s1 hp h1) e
    · cases e

/-- what one step does to peers that are known, to those of the supervisor, to what became of connections and to where the listener waits -/
theorem step_cases {dyn : Bool} {s s' : Listener.St} {l : Listener.Label} (h : Listener.step dyn s l = some s') :
    -- nothing of these
    (s'.known = s.known ∧ s'.owned = s.owned ∧ s'.phase = s.phase ∧ s'.log = s.log ∧ s'.tasks.length = s.tasks.length) ∨
    -- a connection of a peer that is known
    (∃ c t f, s.phase = .listening ∧ s.known.look c.ip = some t ∧ s'.known = s.known ∧ s'.owned = s.owned ∧ s'.phase = .listening ∧ s'.log = s.log ++ [(c, f)] ∧ s'.tasks.length = s.tasks.length ∧
      (f = .given t ∨ (f = .failed ∧ ∀ k, s.tasks[t]? = some k → k.ended = true))) ∨
    -- a connection that is turned away
    (∃ c f, s.phase = .listening ∧ s.known.look c.ip = none ∧ s'.known = s.known ∧ s'.owned = s.owned ∧ s'.phase = .listening ∧ s'.log = s.log ++ [(c, f)] ∧ s'.tasks.length = s.tasks.length ∧
      ((f = .noPeer ∧ dyn = false) ∨ (f = .taken ∧ dyn = true ∧ s.owned.look c.ip ≠ none))) ∨
    -- a connection for which a peer is made
    (∃ c, dyn = true ∧ s.phase = .listening ∧ s.known.look c.ip = none ∧ s.owned.look c.ip = none ∧ s'.known = s.known ∧ s'.owned = put s.owned c.ip s.tasks.length ∧ s'.phase = .starting c s.tasks.length ∧
      s'.log = s.log ∧ s'.tasks.length = s.tasks.length + 1) ∨
    -- it is given the connection
    (∃ c t f, s.phase = .starting c t ∧ s'.known = s.known ∧ s'.owned = s.owned ∧ s'.log = s.log ++ [(c, f)] ∧ s'.tasks.length = s.tasks.length ∧
      ((s'.phase = .negotiating c t ∧ f = .given t) ∨ (s'.phase = .listening ∧ f = .failed))) ∨
    -- it has failed
    (∃ c t, s.phase = .negotiating c t ∧ s'.known = s.known ∧ s'.owned = s.owned ∧ s'.phase = .listening ∧ s'.log = s.log ∧ s'.tasks.length = s.tasks.length) ∨
    -- it is known from now on
    (∃ c t, s.phase = .negotiating c t ∧ s'.known = put s.known c.ip t ∧ s'.owned = s.owned ∧ s'.phase = .listening ∧ s'.log = s.log ∧ s'.tasks.length = s.tasks.length) := by
  cases l with
  | arrive i c =>
    rw [Listener.step] at h
    split at h
    · injection h with h; subst h; exact .inl ⟨rfl, rfl, rfl, rfl, rfl⟩
    · cases h
  | acceptError i =>
    rw [Listener.step] at h
    split at h
    · injection h with h; subst h; exact .inl ⟨rfl, rfl, rfl, rfl, rfl⟩
    · cases h
  | ends t =>
    rw [Listener.step] at h
    split at h
    · injection h with h; subst h; exact .inl ⟨rfl, rfl, rfl, rfl, by simp⟩
    · cases h
  | report r =>
    rw [Listener.step] at h
    split at h
    · cases h
    · next c t hp =>
      obtain ⟨g1, g2, g3, g4, g5, f, g6, g7⟩ := give_fields s t c
      simp only at h
      split at h
      · next hs =>
        injection h with h; subst h
        refine .inr (.inr (.inr (.inr (.inl ⟨c, t, f, hp, g2, g3, g6, g5, .inl ⟨rfl, ?_⟩⟩))))
        rcases g7 with g | g
        · exact g.1
        · rw [hs] at g; exact absurd g.2.1 (by decide)
      · next hs =>
        injection h with h; subst h
        have q := settle_fields { s.give t c with phase := .listening }
        refine .inr (.inr (.inr (.inr (.inl ⟨c, t, f, hp, by rw [q.1]; exact g2, by rw [q.2.1]; exact g3, by rw [q.2.2.2.1]; exact g6, by rw [q.2.2.2.2.1]; exact g5, .inr ⟨q.2.2.1, ?_⟩⟩))))
        rcases g7 with g | g
        · exact absurd g.2.1 hs
        · exact g.1
    · next c t hp =>
      have q := settle_fields { s with phase := .listening }
      have stop : s' = Listener.St.settle { s with phase := .listening } → ∃ c t, s.phase = .negotiating c t ∧ s'.known = s.known ∧ s'.owned = s.owned ∧ s'.phase = .listening ∧ s'.log = s.log ∧ s'.tasks.length = s.tasks.length := by
        rintro rfl
        exact ⟨c, t, hp, q.1, q.2.1, q.2.2.1, q.2.2.2.1, by rw [q.2.2.2.2.1]⟩
      split at h
      · injection h with h; exact .inr (.inr (.inr (.inr (.inr (.inl (stop h.symm))))))
      · injection h with h; subst h
        have q := settle_fields { s with known := put s.known c.ip t, phase := .listening }
        exact .inr (.inr (.inr (.inr (.inr (.inr ⟨c, t, hp, q.1, q.2.1, q.2.2.1, q.2.2.2.1, by rw [q.2.2.2.2.1]⟩)))))
      · injection h with h; subst h; exact .inl ⟨rfl, rfl, rfl, rfl, rfl⟩
      · injection h with h; exact .inr (.inr (.inr (.inr (.inr (.inl (stop h.symm))))))
      · injection h with h; exact .inr (.inr (.inr (.inr (.inr (.inl (stop h.symm))))))
  | accept i =>
    rw [Listener.step] at h
    split at h
    · next c b hp hk =>
      injection h with h
      generalize hs0 : ({ s with sockets := s.sockets.set i ⟨b, false⟩ } : Listener.St) = s0 at h
      have e1 : s0.known = s.known := by rw [← hs0]
      have e2 : s0.owned = s.owned := by rw [← hs0]
      have e3 : s0.phase = s.phase := by rw [← hs0]
      have e4 : s0.log = s.log := by rw [← hs0]
      have e5 : s0.tasks = s.tasks := by rw [← hs0]
      have q := settle_fields (Listener.St.take dyn s0 c)
      rw [h] at q
      unfold Listener.St.take at q
      split at q
      · next t ht =>
        obtain ⟨g1, g2, g3, g4, g5, f, g6, g7⟩ := give_fields s0 t c
        refine .inr (.inl ⟨c, t, f, hp, e1 ▸ ht, ?_, ?_, ?_, ?_, ?_, ?_⟩)
        · rw [q.1, g2, e1]
        · rw [q.2.1, g3, e2]
        · rw [q.2.2.1, g4, e3, hp]
        · rw [q.2.2.2.1, g6, e4]
        · rw [q.2.2.2.2.1, g5, e5]
        · rcases g7 with g | g
          · exact .inl g.1
          · exact .inr ⟨g.1, e5 ▸ g.2.2⟩
      · next ht =>
        split at q
        · next hd =>
          refine .inr (.inr (.inl ⟨c, .noPeer, hp, e1 ▸ ht, by rw [q.1, e1], by rw [q.2.1, e2], by rw [q.2.2.1, e3, hp], by rw [q.2.2.2.1, e4], by rw [q.2.2.2.2.1, e5], .inl ⟨rfl, by simpa using hd⟩⟩))
        · next hd =>
          split at q
          · next x hx =>
            refine .inr (.inr (.inl ⟨c, .taken, hp, e1 ▸ ht, by rw [q.1, e1], by rw [q.2.1, e2], by rw [q.2.2.1, e3, hp], by rw [q.2.2.2.1, e4], by rw [q.2.2.2.2.1, e5], .inr ⟨rfl, by simpa using hd, ?_⟩⟩))
            rw [← e2, hx]; simp
          · next hx =>
            refine .inr (.inr (.inr (.inl ⟨c, by simpa using hd, hp, e1 ▸ ht, e2 ▸ hx, ?_, ?_, ?_, ?_, ?_⟩)))
            · rw [q.1]; exact e1
            · rw [q.2.1, ← e2, ← e5]
            · rw [q.2.2.1, ← e5]
            · rw [q.2.2.2.1]; exact e4
            · rw [q.2.2.2.2.1, ← e5]; simp
    · cases h

/-! ## C257: peers that are registered -/

/-- what holds of a run from its start on -/
structure Kept (s0 s : Listener.St) : Prop where
  known : ∀ ip t, s0.known.look ip = some t → s.known.look ip = some t
  pending : ∀ c t, pendingConn s.phase = some (c, t) → s.known.look c.ip = none ∧ s0.known.look c.ip = none
  fates : ∀ x ∈ s.log, ∀ t, s0.known.look x.1.ip = some t → x.2 = .given t ∨ x.2 = .failed

theorem kept_step {dyn : Bool} (s0 s s' : Listener.St) (l : Listener.Label) (hk : Kept s0 s) (h : Listener.step dyn s l = some s') : Kept s0 s' := by
  rcases step_cases h with h | ⟨c, t, f, h1, h2, h3, h4, h5, h6, h7, h8⟩ | ⟨c, f, h1, h2, h3, h4, h5, h6, h7, h8⟩ | ⟨c, h0, h1, h2, h2', h3, h4, h5, h6, h7⟩ | ⟨c, t, f, h1, h3, h4, h6, h7, h8⟩ | ⟨c, t, h1, h3, h4, h5, h6, h7⟩ |
    ⟨c, t, h1, h3, h4, h5, h6, h7⟩
  · refine ⟨?_, ?_, ?_⟩
    · rw [h.1]; exact hk.known
    · rw [h.1, h.2.2.1]; exact hk.pending
    · rw [h.2.2.2.1]; exact hk.fates
  · refine ⟨by rw [h3]; exact hk.known, by rw [h5]; intro c t e; (cases e), ?_⟩
    rw [h6]
    intro x hx t' ht'
    rcases List.mem_append.1 hx with hx | hx
    · exact hk.fates x hx t' ht'
    · simp only [List.mem_singleton] at hx
      subst hx
      have := hk.known _ _ ht'
      rw [h2] at this
      injection this with this
      subst this
      rcases h8 with h8 | h8
      · exact .inl h8
      · exact .inr h8.1
  · refine ⟨by rw [h3]; exact hk.known, by rw [h5]; intro c t e; (cases e), ?_⟩
    rw [h6]
    intro x hx t' ht'
    rcases List.mem_append.1 hx with hx | hx
    · exact hk.fates x hx t' ht'
    · simp only [List.mem_singleton] at hx
      subst hx
      have := hk.known _ _ ht'
      rw [h2] at this
      cases this
  · refine ⟨by rw [h3]; exact hk.known, ?_, by rw [h6]; exact hk.fates⟩
    rw [h5, h3]
    intro c' t' e
    injection e with e
    injection e with e1 e2
    subst e1
    refine ⟨h2, ?_⟩
    cases hq : s0.known.look c.ip with
    | none => rfl
    | some q => rw [hk.known _ _ hq] at h2; cases h2
  · have hpend : pendingConn s.phase = some (c, t) := by rw [h1]; rfl
    have hn := hk.pending c t hpend
    refine ⟨by rw [h3]; exact hk.known, ?_, ?_⟩
    · rw [h3]
      rcases h8 with h8 | h8
      · rw [h8.1]
        intro c' t' e
        injection e with e
        injection e with e1 e2
        subst e1
        exact hn
      · rw [h8.1]; intro c t e; cases e
    · rw [h6]
      intro x hx t' ht'
      rcases List.mem_append.1 hx with hx | hx
      · exact hk.fates x hx t' ht'
      · simp only [List.mem_singleton] at hx
        subst hx
        rw [hn.2] at ht'
        cases ht'
  · exact ⟨by rw [h3]; exact hk.known, by rw [h5]; intro c t e; (cases e), by rw [h6]; exact hk.fates⟩
  · have hpend : pendingConn s.phase = some (c, t) := by rw [h1]; rfl
    have hn := hk.pending c t hpend
    refine ⟨?_, by rw [h5]; intro c t e; (cases e), by rw [h6]; exact hk.fates⟩
    intro ip t' hip
    rw [h3, lookup_put]
    split
    · next e => subst e; rw [hn.2] at hip; cases hip
    · exact hk.known ip t' hip

/-- connections that a task got are those that were given to it -/
def Ledger (s : Listener.St) : Prop := ∀ t, connsGot s t = givenTo t s.log

theorem conns_tasks {s s' : Listener.St} (h : s'.tasks = s.tasks) (t : Nat) : connsGot s' t = connsGot s t := by unfold connsGot; rw [h]

theorem ledger_give (s : Listener.St) (t : Nat) (c : Conn) (h : Ledger s) : Ledger (s.give t c) := by
  intro t'
  have hl := h t'
  unfold Listener.St.give Listener.St.send
  cases hk : s.tasks[t]? with
  | none =>
    show connsGot s t' = givenTo t' (s.log ++ [(c, .failed)])
    rw [hl]; simp [givenTo, List.filterMap_append]
  | some k =>
    by_cases he : k.ended = true
    · simp only [he, if_true]
      show connsGot s t' = givenTo t' (s.log ++ [(c, .failed)])
      rw [hl]; simp [givenTo, List.filterMap_append]
    · simp only [if_neg he, if_true]
      show connsGot { s with tasks := s.tasks.set t { k with got := k.got ++ [.accept c] }, log := s.log ++ [(c, .given t)] } t' = givenTo t' (s.log ++ [(c, .given t)])
      have hlt : t < s.tasks.length := (List.getElem?_eq_some_iff.1 hk).1
      by_cases e : t = t'
      · subst e
        have h1 : connsGot s t = k.got.filterMap fun m => match m with | .accept c => some c | _ => none := by unfold connsGot; rw [hk]
        rw [h1] at hl
        unfold connsGot givenTo
        simp only [List.getElem?_set_self hlt, List.filterMap_append]
        rw [hl]
        simp [givenTo]
      · have h1 : connsGot { s with tasks := s.tasks.set t { k with got := k.got ++ [.accept c] }, log := s.log ++ [(c, .given t)] } t' = connsGot s t' := by
          unfold connsGot
          simp only [List.getElem?_set_ne e]
        rw [h1, hl]
        simp [givenTo, List.filterMap_append, e]

theorem ledger_step {dyn : Bool} (s s' : Listener.St) (l : Listener.Label) (hk : Ledger s) (h : Listener.step dyn s l = some s') (hlen : ∀ t, s.tasks.length ≤ t → givenTo t s.log = []) : Ledger s' := by
  have keep : ∀ s1 : Listener.St, s1.tasks = s.tasks → s1.log = s.log → Ledger s1 := fun s1 h1 h2 t => by rw [conns_tasks h1, h2]; exact hk t
  have sett : ∀ s1 : Listener.St, Ledger s1 → Ledger s1.settle := fun s1 h1 t => by
    have q := settle_fields s1
    rw [conns_tasks q.2.2.2.2.1, q.2.2.2.1]; exact h1 t
  have other : ∀ (s1 : Listener.St) (c : Conn) (f : Fate), Ledger s1 → (∀ t, f ≠ .given t) → Ledger { s1 with log := s1.log ++ [(c, f)] } := fun s1 c f h1 h2 t => by
    show connsGot s1 t = _
    rw [h1 t]
    simp [givenTo, List.filterMap_append, h2 t]
  cases l with
  | arrive i c =>
    rw [Listener.step] at h
    split at h
    · injection h with h; subst h; exact keep _ rfl rfl
    · cases h
  | acceptError i =>
    rw [Listener.step] at h
    split at h
    · injection h with h; subst h; exact keep _ rfl rfl
    · cases h
  | ends t =>
    rw [Listener.step] at h
    split at h
    · next k hkt =>
      injection h with h; subst h
      intro t'
      show connsGot { s with tasks := s.tasks.set t { k with ended := true } } t' = givenTo t' s.log
      rw [← hk t']
      unfold connsGot
      have hlt : t < s.tasks.length := (List.getElem?_eq_some_iff.1 hkt).1
      by_cases e : t = t'
      · subst e; simp only [List.getElem?_set_self hlt, hkt]
      · simp only [List.getElem?_set_ne e]
    · cases h
  | report r =>
    rw [Listener.step] at h
    split at h
    · cases h
    · next c t hp =>
      simp only at h
      have hg := ledger_give s t c hk
      split at h
      · injection h with h; subst h; intro t'; exact hg t'
      · injection h with h; subst h; exact sett _ fun t' => hg t'
    · split at h
      · injection h with h; subst h; exact sett _ (keep _ rfl rfl)
      · injection h with h; subst h; exact sett _ (keep _ rfl rfl)
      · injection h with h; subst h; exact hk
      · injection h with h; subst h; exact sett _ (keep _ rfl rfl)
      · injection h with h; subst h; exact sett _ (keep _ rfl rfl)
  | accept i =>
    rw [Listener.step] at h
    split at h
    · next c b hp hkk =>
      injection h with h
      subst h
      refine sett _ ?_
      generalize hs0 : ({ s with sockets := s.sockets.set i ⟨b, false⟩ } : Listener.St) = s0
      have l0 : Ledger s0 := keep _ (by rw [← hs0]) (by rw [← hs0])
      have len0 : ∀ t, s0.tasks.length ≤ t → givenTo t s0.log = [] := by rw [← hs0]; exact hlen
      unfold Listener.St.take
      split
      · exact ledger_give s0 _ c l0
      · split
        · exact other s0 c .noPeer l0 (fun _ => by simp)
        · split
          · exact other s0 c .taken l0 (fun _ => by simp)
          · intro t'
            show connsGot { s0 with owned := _, tasks := s0.tasks ++ [⟨[.start], false⟩], phase := _ } t' = givenTo t' s0.log
            rw [← l0 t']
            unfold connsGot
            simp only
            by_cases e : t' < s0.tasks.length
            · rw [List.getElem?_append_left e]
            · have e' : s0.tasks.length ≤ t' := by omega
              rw [List.getElem?_append_right e', List.getElem?_eq_none e']
              by_cases e2 : t' - s0.tasks.length = 0
              · rw [e2]; rfl
              · rw [List.getElem?_eq_none (by simp; omega)]
    · cases h

/-- tasks that do not exist were given nothing -/
def Bounded (s : Listener.St) : Prop := (∀ t, s.tasks.length ≤ t → givenTo t s.log = []) ∧ (∀ ip t, s.known.look ip = some t → t < s.tasks.length) ∧ (∀ c t, pendingConn s.phase = some (c, t) → t < s.tasks.length)

theorem bounded_step {dyn : Bool} (s s' : Listener.St) (l : Listener.Label) (hb : Bounded s) (h : Listener.step dyn s l = some s') : Bounded s' := by
  obtain ⟨b1, b2, b3⟩ := hb
  have snoc : ∀ (c : Conn) (f : Fate) (n : Nat), s.tasks.length ≤ n → (∀ t, f = .given t → t < s.tasks.length) → ∀ t, n ≤ t → givenTo t (s.log ++ [(c, f)]) = [] := by
    intro c f n hn hf t ht
    have h1 := b1 t (by omega)
    have h2 : f ≠ .given t := fun e => by have := hf t e; omega
    unfold givenTo at h1 ⊢
    rw [List.filterMap_append, h1]
    simp [h2]
  rcases step_cases h with h | ⟨c, t, f, h1, h2, h3, h4, h5, h6, h7, h8⟩ | ⟨c, f, h1, h2, h3, h4, h5, h6, h7, h8⟩ | ⟨c, h0, h1, h2, h2', h3, h4, h5, h6, h7⟩ | ⟨c, t, f, h1, h3, h4, h6, h7, h8⟩ | ⟨c, t, h1, h3, h4, h5, h6, h7⟩ |
    ⟨c, t, h1, h3, h4, h5, h6, h7⟩
  · exact ⟨by rw [h.2.2.2.1, h.2.2.2.2]; exact b1, by rw [h.1, h.2.2.2.2]; exact b2, by rw [h.2.2.1, h.2.2.2.2]; exact b3⟩
  · refine ⟨?_, by rw [h3, h7]; exact b2, by rw [h5]; intro c t e; (cases e)⟩
    rw [h6, h7]
    refine snoc c f _ (Nat.le_refl _) fun t' e => ?_
    rcases h8 with h8 | h8
    · rw [h8] at e; injection e with e; exact e ▸ b2 _ _ h2
    · rw [h8.1] at e; cases e
  · refine ⟨?_, by rw [h3, h7]; exact b2, by rw [h5]; intro c t e; (cases e)⟩
    rw [h6, h7]
    refine snoc c f _ (Nat.le_refl _) fun t' e => ?_
    rcases h8 with h8 | h8 <;> (rw [h8.1] at e; cases e)
  · refine ⟨?_, ?_, ?_⟩
    · rw [h6, h7]; intro t ht; exact b1 t (by omega)
    · rw [h3, h7]; intro ip t e; have := b2 ip t e; omega
    · rw [h5, h7]; intro c' t' e; injection e with e; injection e with e1 e2; omega
  · have ht := b3 c t (by rw [h1]; rfl)
    refine ⟨?_, by rw [h3, h7]; exact b2, ?_⟩
    · rw [h6, h7]
      refine snoc c f _ (Nat.le_refl _) fun t' e => ?_
      rcases h8 with h8 | h8
      · rw [h8.2] at e; injection e with e; exact e ▸ ht
      · rw [h8.2] at e; cases e
    · rw [h7]
      rcases h8 with h8 | h8
      · rw [h8.1]; intro c' t' e; injection e with e; injection e with e1 e2; omega
      · rw [h8.1]; intro c t e; cases e
  · exact ⟨by rw [h6, h7]; exact b1, by rw [h3, h7]; exact b2, by rw [h5]; intro c t e; (cases e)⟩
  · have ht := b3 c t (by rw [h1]; rfl)
    refine ⟨by rw [h6, h7]; exact b1, ?_, by rw [h5]; intro c t e; (cases e)⟩
    rw [h7]
    intro ip t' e
    rw [h3, lookup_put] at e
    split at e
    · injection e with e; omega
    · exact b2 ip t' e

theorem start_kept {s : Listener.St} (h : Start s) : Kept s s := ⟨fun _ _ e => e, by rw [h.phase]; intro c t e; (cases e), by rw [h.log]; intro x hx; (cases hx)⟩

theorem start_bounded {s : Listener.St} (h : Start s) : Bounded s :=
  ⟨by rw [h.log]; intros; rfl, fun ip t e => h.known _ (Collector.mem_of_lookup e), by rw [h.phase]; intro c t e; cases e⟩

theorem start_ledger {s : Listener.St} (h : Start s) : Ledger s := by
  intro t
  rw [h.log]
  unfold connsGot
  split
  · next k hk =>
    have hm : k ∈ s.tasks := List.mem_of_getElem? hk
    show _ = []
    rw [List.filterMap_eq_nil_iff]
    intro m hm'
    cases m with
    | start => rfl
    | accept c => exact absurd hm' (h.fresh k hm c)
  · rfl

/-- C257: a connection from the address of a peer that is registered is given to that peer and to no other, unless its task has ended; and each task gets the connections that are given to it once and in the order in which they are
accepted, and no others. -/
theorem c257_registered {dyn : Bool} {s0 s : Listener.St} (h0 : Start s0) (ls : List Listener.Label) (h : Listener.run dyn s0 ls = some s) :
    (∀ x ∈ s.log, ∀ t, s0.known.look x.1.ip = some t → x.2 = .given t ∨ x.2 = .failed) ∧ (∀ t, connsGot s t = givenTo t s.log) := by
  have := run_invariant (dyn := dyn) (fun s => Kept s0 s ∧ Ledger s ∧ Bounded s)
    (fun s l s' hp hs => ⟨kept_step s0 s s' l hp.1 hs, ledger_step s s' l hp.2.1 hs hp.2.2.1, bounded_step s s' l hp.2.2 hs⟩) ls s0 s ⟨start_kept h0, start_ledger h0, start_bounded h0⟩ h
  exact ⟨this.1.fates, this.2.1⟩

theorem step_accept {dyn : Bool} {s : Listener.St} {i : Nat} {c : Conn} {b : List Conn} (hi : s.sockets[i]? = some ⟨c :: b, true⟩) (hp : s.phase = .listening) :
    Listener.step dyn s (.accept i) = some (Listener.St.settle (Listener.St.take dyn { s with sockets := s.sockets.set i ⟨b, false⟩ } c)) := by
  rw [Listener.step]
  split
  · next c' b' h1 h2 =>
    rw [hi] at h2
    injection h2 with h2
    injection h2 with h2 h3
    injection h2 with h2 h4
    subst h2 h4
    rfl
  · next h => exact absurd hi (h c b hp)

/-- C257: a connection that is accepted of a peer that is registered fails only if the task of the peer has ended -/
theorem c257_given {dyn : Bool} {s : Listener.St} {i : Nat} {c : Conn} {b : List Conn} {t : Nat} {k : Listener.Task} (hi : s.sockets[i]? = some ⟨c :: b, true⟩) (hp : s.phase = .listening) (hk : s.known.look c.ip = some t)
    (ht : s.tasks[t]? = some k) (he : k.ended = false) : ∃ s', Listener.step dyn s (.accept i) = some s' ∧ s'.log = s.log ++ [(c, .given t)] := by
  refine ⟨_, step_accept hi hp, ?_⟩
  have q := settle_fields (Listener.St.take dyn { s with sockets := s.sockets.set i ⟨b, false⟩ } c)
  rw [q.2.2.2.1]
  unfold Listener.St.take
  simp only [hk]
  unfold Listener.St.give Listener.St.send
  simp [ht, he]

/-- two sockets, and a peer with address 7 whose task is 0 -/
def twoSockets : Listener.St := ⟨[⟨[], true⟩, ⟨[], true⟩], [(7, 0)], [(7, 0)], [⟨[.start], false⟩], .listening, []⟩

theorem twoSockets_start : Start twoSockets := ⟨rfl, rfl, by intro k hk c hc; simp_all [twoSockets], by decide⟩

example : (Listener.run false twoSockets [.arrive 0 ⟨7, 1⟩, .arrive 1 ⟨8, 2⟩, .accept 0, .accept 1]).map (·.log) = some [(⟨7, 1⟩, .given 0), (⟨8, 2⟩, .noPeer)] := by decide

/-! ## C258: sockets -/

/-- C258: with one socket, a connection that has come in can be accepted whenever no dynamic peer is waited for -/
theorem c258_one_socket_partial {dyn : Bool} {s0 s : Listener.St} (hone : ∃ b, s0.sockets = [⟨b, true⟩]) (h0 : s0.phase = .listening) (ls : List Listener.Label) (h : Listener.run dyn s0 ls = some s) (hp : s.phase = .listening) :
    ∃ b, s.sockets = [⟨b, true⟩] ∧ (b ≠ [] → ∃ s', Listener.step dyn s (.accept 0) = some s') := by
  have inv := run_invariant (dyn := dyn) (fun s => ∃ k, s.sockets = [k] ∧ (s.phase = .listening → k.armed = true)) (fun s l s' hs hst => by
    obtain ⟨k, hk, ha⟩ := hs
    have sett : ∀ s1 : Listener.St, (∃ k, s1.sockets = [k]) → ∃ k, s1.settle.sockets = [k] ∧ (s1.settle.phase = .listening → k.armed = true) := by
      rintro s1 ⟨k1, h1⟩
      unfold Listener.St.settle Listener.St.rearm
      split
      · exact ⟨{ k1 with armed := true }, by simp [h1], fun _ => rfl⟩
      · next hc =>
        refine ⟨k1, h1, fun hph => ?_⟩
        cases harm : k1.armed with
        | true => rfl
        | false => exact absurd ⟨hph, by simp [h1, harm]⟩ hc
    cases l with
    | arrive i c =>
      rw [Listener.step] at hst
      split at hst
      · next k1 hk1 =>
        injection hst with hst; subst hst
        rw [hk] at hk1
        cases i with
        | zero =>
          injection hk1 with hk1; subst hk1
          exact ⟨{ k with backlog := k.backlog ++ [c] }, by simp [hk], ha⟩
        | succ i => simp at hk1
      · cases hst
    | acceptError i =>
      rw [Listener.step] at hst
      split at hst
      · injection hst with hst; subst hst
        exact ⟨{ k with armed := true }, by simp [Listener.St.rearm, hk], fun _ => rfl⟩
      · cases hst
    | ends t =>
      rw [Listener.step] at hst
      split at hst
      · injection hst with hst; subst hst; exact ⟨k, hk, ha⟩
      · cases hst
    | report r =>
      rw [Listener.step] at hst
      split at hst
      · cases hst
      · next c t hph =>
        have g := give_fields s t c
        simp only at hst
        split at hst
        · injection hst with hst; subst hst
          exact ⟨k, by rw [← hk]; exact g.1, fun e => by cases e⟩
        · injection hst with hst; subst hst
          exact sett _ ⟨k, by rw [← hk]; exact g.1⟩
      · next c t hph =>
        split at hst
        · injection hst with hst; subst hst; exact sett _ ⟨k, hk⟩
        · injection hst with hst; subst hst; exact sett _ ⟨k, hk⟩
        · injection hst with hst; subst hst; exact ⟨k, hk, ha⟩
        · injection hst with hst; subst hst; exact sett _ ⟨k, hk⟩
        · injection hst with hst; subst hst; exact sett _ ⟨k, hk⟩
    | accept i =>
      rw [Listener.step] at hst
      split at hst
      · next c b hph hki =>
        injection hst with hst; subst hst
        refine sett _ ?_
        have hi : i = 0 := by
          cases i with
          | zero => rfl
          | succ i => rw [hk] at hki; simp at hki
        subst hi
        have hset : s.sockets.set 0 ⟨b, false⟩ = [⟨b, false⟩] := by rw [hk]; rfl
        unfold Listener.St.take
        split
        · exact ⟨_, (give_fields _ _ c).1.trans hset⟩
        · split
          · exact ⟨_, hset⟩
          · split
            · exact ⟨_, hset⟩
            · exact ⟨_, hset⟩
      · cases hst) ls s0 s (by obtain ⟨b, hb⟩ := hone; exact ⟨_, hb, fun _ => rfl⟩) h
  obtain ⟨k, hk, ha⟩ := inv
  obtain ⟨b, a⟩ := k
  have : a = true := ha hp
  subst this
  refine ⟨b, hk, fun hb => ?_⟩
  cases b with
  | nil => exact absurd rfl hb
  | cons c b => exact ⟨_, by rw [Listener.step, hp, hk]; rfl⟩

/-- labels that say nothing of connections to a socket, nor of errors -/
def QuietOn (j : Nat) : Listener.Label → Prop
  | .arrive i _ => i ≠ j
  | .acceptError _ => False
  | _ => True

/-- C258: after one connection has been accepted of a socket, no other is until one has come in on each of the other sockets: here the second connection of a peer that is registered waits for ever, if nothing comes in on the other
socket, whatever else happens and however many connections come in -/
theorem c258_other_sockets_disproved : ∃ s, Listener.run false twoSockets [.arrive 0 ⟨7, 1⟩, .accept 0, .arrive 0 ⟨7, 2⟩] = some s ∧ s.phase = .listening ∧
    ∀ ls, (∀ l ∈ ls, QuietOn 1 l) → ∀ s', Listener.run false s ls = some s' → s'.log = s.log ∧ ∃ b, s'.sockets[0]? = some ⟨⟨7, 2⟩ :: b, false⟩ := by
  refine ⟨_, rfl, rfl, fun ls hq s' h => ?_⟩
  have key : ∀ (ls : List Listener.Label) (s1 s' : Listener.St), (∀ l ∈ ls, QuietOn 1 l) → s1.phase = .listening → (∃ b, s1.sockets = [⟨⟨7, 2⟩ :: b, false⟩, ⟨[], true⟩]) → Listener.run false s1 ls = some s' →
      s'.log = s1.log ∧ ∃ b, s'.sockets[0]? = some ⟨⟨7, 2⟩ :: b, false⟩ := by
    intro ls
    induction ls with
    | nil =>
      rintro s1 s' _ _ ⟨b, hb⟩ h
      injection h with h; subst h
      exact ⟨rfl, b, by rw [hb]; rfl⟩
    | cons l ls ih =>
      rintro s1 s' hq hp ⟨b, hb⟩ h
      rw [Listener.run] at h
      split at h
      · next s2 h2 =>
        have hl := hq l (by simp)
        have hq' : ∀ l ∈ ls, QuietOn 1 l := fun l hl => hq l (by simp [hl])
        cases l with
        | arrive i c =>
          rw [Listener.step, hb] at h2
          match i, hl with
          | 0, _ =>
            injection h2 with h2
            subst h2
            exact ih { s1 with sockets := [⟨⟨7, 2⟩ :: (b ++ [c]), false⟩, ⟨[], true⟩] } s' hq' hp ⟨b ++ [c], rfl⟩ h
          | i + 2, _ => cases h2
        | accept i =>
          rw [Listener.step, hp, hb] at h2
          match i with
          | 0 => cases h2
          | 1 => cases h2
          | i + 2 => cases h2
        | acceptError i => exact absurd hl id
        | report r => rw [Listener.step, hp] at h2; cases h2
        | ends t =>
          rw [Listener.step] at h2
          split at h2
          · injection h2 with h2
            have e1 : s2.phase = s1.phase := by rw [← h2]
            have e2 : s2.sockets = s1.sockets := by rw [← h2]
            have e3 : s2.log = s1.log := by rw [← h2]
            rw [← e3]
            exact ih s2 s' hq' (e1.trans hp) ⟨b, e2.trans hb⟩ h
          · cases h2
      · cases h
  exact key ls _ s' hq rfl ⟨[], rfl⟩ h

/-! ## C259: no dynamic peers -/

/-- C259: if dynamic peers are not allowed, then no peer is made, and a connection from an address of which no peer is registered is given to none -/
theorem c259_no_dynamic {s0 s : Listener.St} (h0 : Start s0) (ls : List Listener.Label) (h : Listener.run false s0 ls = some s) :
    s.tasks.length = s0.tasks.length ∧ s.known = s0.known ∧ s.owned = s0.owned ∧ ∀ x ∈ s.log, s0.known.look x.1.ip = none → x.2 = .noPeer := by
  have inv := run_invariant (dyn := false) (fun s => s.phase = .listening ∧ s.tasks.length = s0.tasks.length ∧ s.known = s0.known ∧ s.owned = s0.owned ∧ ∀ x ∈ s.log, s0.known.look x.1.ip = none → x.2 = .noPeer)
    (fun s l s' ⟨p1, p2, p3, p4, p5⟩ hs => by
      rcases step_cases hs with h | ⟨c, t, f, h1, h2, h3, h4, h5, h6, h7, h8⟩ | ⟨c, f, h1, h2, h3, h4, h5, h6, h7, h8⟩ | ⟨c, h0, _⟩ | ⟨c, t, f, h1, _⟩ | ⟨c, t, h1, _⟩ | ⟨c, t, h1, _⟩
      · exact ⟨by rw [h.2.2.1, p1], by rw [h.2.2.2.2, p2], by rw [h.1, p3], by rw [h.2.1, p4], by rw [h.2.2.2.1]; exact p5⟩
      · refine ⟨h5, by rw [h7, p2], by rw [h3, p3], by rw [h4, p4], ?_⟩
        rw [h6]
        intro x hx hn
        rcases List.mem_append.1 hx with hx | hx
        · exact p5 x hx hn
        · simp only [List.mem_singleton] at hx
          subst hx
          rw [← p3] at hn
          have : s.known.look c.ip = none := hn
          rw [h2] at this
          cases this
      · refine ⟨h5, by rw [h7, p2], by rw [h3, p3], by rw [h4, p4], ?_⟩
        rw [h6]
        intro x hx hn
        rcases List.mem_append.1 hx with hx | hx
        · exact p5 x hx hn
        · simp only [List.mem_singleton] at hx
          subst hx
          rcases h8 with h8 | h8
          · exact h8.1
          · cases h8.2.1
      · cases h0
      · rw [p1] at h1; cases h1
      · rw [p1] at h1; cases h1
      · rw [p1] at h1; cases h1) ls s0 s ⟨h0.phase, rfl, rfl, rfl, by rw [h0.log]; intro x hx; cases hx⟩ h
  exact inv.2

/-! ## C260: dynamic peers -/

/-- C260, in part: of the first connection from an address a peer is made, started, and then given the connection; from the time that it reports OpenConfirm on, it is known, and later connections are given to it (`c257_given`). -/
theorem c260_dynamic_partial {s : Listener.St} {i : Nat} {c : Conn} {b : List Conn} (hi : s.sockets[i]? = some ⟨c :: b, true⟩) (hp : s.phase = .listening) (hk : s.known.look c.ip = none) (ho : s.owned.look c.ip = none) (r : FromPeer) :
    ∃ s1 s2 s3, Listener.run true s [.accept i] = some s1 ∧ Listener.run true s [.accept i, .report r] = some s2 ∧ Listener.run true s [.accept i, .report r, .report (.event .openConfirm)] = some s3 ∧
      s1.tasks[s.tasks.length]? = some ⟨[.start], false⟩ ∧ s2.tasks[s.tasks.length]? = some ⟨[.start, .accept c], false⟩ ∧ s2.log = s.log ++ [(c, .given s.tasks.length)] ∧
      s3.known.look c.ip = some s.tasks.length ∧ s3.phase = .listening := by
  have t1 : Listener.St.settle (Listener.St.take true { s with sockets := s.sockets.set i ⟨b, false⟩ } c) = { s with sockets := s.sockets.set i ⟨b, false⟩, owned := put s.owned c.ip s.tasks.length, tasks := s.tasks ++ [⟨[.start], false⟩], phase := .starting c s.tasks.length } := by
    unfold Listener.St.take
    simp only [hk, ho, Bool.not_true, Bool.false_eq_true, if_false]
    unfold Listener.St.settle
    rw [if_neg (by simp)]
  have hset : (s.tasks ++ [(⟨[.start], false⟩ : Listener.Task)])[s.tasks.length]? = some ⟨[.start], false⟩ := by simp
  have h1 : Listener.run true s [.accept i] = some { s with sockets := s.sockets.set i ⟨b, false⟩, owned := put s.owned c.ip s.tasks.length, tasks := s.tasks ++ [⟨[.start], false⟩], phase := .starting c s.tasks.length } := by
    rw [Listener.run, step_accept hi hp, t1]; rfl
  have h2 : Listener.run true s [.accept i, .report r] = some { s with sockets := s.sockets.set i ⟨b, false⟩, owned := put s.owned c.ip s.tasks.length, tasks := s.tasks ++ [⟨[.start, .accept c], false⟩], phase := .negotiating c s.tasks.length, log := s.log ++ [(c, .given s.tasks.length)] } := by
    rw [show [Listener.Label.accept i, .report r] = [.accept i] ++ [.report r] from rfl, run_append, h1]
    show Listener.run true _ [.report r] = _
    rw [Listener.run, Listener.step]
    simp only [Listener.St.give, Listener.St.send, hset, Bool.false_eq_true, if_false, if_true]
    rw [Listener.run]
    simp
  have h3 : Listener.run true s [.accept i, .report r, .report (.event .openConfirm)] = some (Listener.St.settle { s with sockets := s.sockets.set i ⟨b, false⟩, known := put s.known c.ip s.tasks.length, owned := put s.owned c.ip s.tasks.length, tasks := s.tasks ++ [⟨[.start, .accept c], false⟩], phase := .listening, log := s.log ++ [(c, .given s.tasks.length)] }) := by
    rw [show [Listener.Label.accept i, .report r, .report (.event .openConfirm)] = [.accept i, .report r] ++ [.report (.event .openConfirm)] from rfl, run_append, h2]
    rfl
  exact ⟨_, _, _, h1, h2, h3, hset, by simp, rfl, by rw [(settle_fields _).1, lookup_put, if_pos rfl], by rw [(settle_fields _).2.2.1]⟩

/-- a listener with one socket and no peers -/
def noPeers : Listener.St := ⟨[⟨[], true⟩], [], [], [], .listening, []⟩

example : (Listener.run true noPeers [.arrive 0 ⟨9, 1⟩, .accept 0, .report (.event .active), .report (.event .openConfirm), .arrive 0 ⟨9, 2⟩, .accept 0]).map (·.log) = some [(⟨9, 1⟩, .given 0), (⟨9, 2⟩, .given 0)] := by decide

/-- C260: if the first connection from an address ends before OpenConfirm, then the peer stays with the supervisor, and no connection from that address is given to any peer ever again, whatever happens -/
theorem c260_again_disproved : ∃ s, Listener.run true noPeers [.arrive 0 ⟨9, 1⟩, .accept 0, .report (.event .active), .report (.event .idle)] = some s ∧
    ∀ ls s', Listener.run true s ls = some s' → ∃ l, s'.log = s.log ++ l ∧ ∀ x ∈ l, x.1.ip = 9 → x.2 = .taken := by
  refine ⟨_, rfl, fun ls s' h => ?_⟩
  generalize hs : (Listener.St.settle _ : Listener.St) = s at h ⊢
  have inv := run_invariant (dyn := true) (fun s' => s'.known.look 9 = none ∧ s'.owned.look 9 ≠ none ∧ (∀ c t, pendingConn s'.phase = some (c, t) → c.ip ≠ 9) ∧ ∃ l, s'.log = s.log ++ l ∧ ∀ x ∈ l, x.1.ip = 9 → x.2 = .taken)
    (fun s1 l s2 ⟨p1, p2, p3, l0, p4, p5⟩ hst => by
      rcases step_cases hst with h | ⟨c, t, f, h1, h2, h3, h4, h5, h6, h7, h8⟩ | ⟨c, f, h1, h2, h3, h4, h5, h6, h7, h8⟩ | ⟨c, h0, h1, h2, h2', h3, h4, h5, h6, h7⟩ | ⟨c, t, f, h1, h3, h4, h6, h7, h8⟩ | ⟨c, t, h1, h3, h4, h5, h6, h7⟩ |
        ⟨c, t, h1, h3, h4, h5, h6, h7⟩
      · exact ⟨by rw [h.1]; exact p1, by rw [h.2.1]; exact p2, by rw [h.2.2.1]; exact p3, l0, by rw [h.2.2.2.1]; exact p4, p5⟩
      · refine ⟨by rw [h3]; exact p1, by rw [h4]; exact p2, by rw [h5]; intro c t e; (cases e), l0 ++ [(c, f)], by rw [h6, p4, List.append_assoc], ?_⟩
        intro x hx hip
        rcases List.mem_append.1 hx with hx | hx
        · exact p5 x hx hip
        · simp only [List.mem_singleton] at hx
          subst hx
          rw [show c.ip = 9 from hip, p1] at h2
          cases h2
      · refine ⟨by rw [h3]; exact p1, by rw [h4]; exact p2, by rw [h5]; intro c t e; (cases e), l0 ++ [(c, f)], by rw [h6, p4, List.append_assoc], ?_⟩
        intro x hx hip
        rcases List.mem_append.1 hx with hx | hx
        · exact p5 x hx hip
        · simp only [List.mem_singleton] at hx
          subst hx
          rcases h8 with h8 | h8
          · cases h8.2
          · exact h8.1
      · have hne : c.ip ≠ 9 := fun e => p2 (e ▸ h2')
        refine ⟨by rw [h3]; exact p1, by rw [h4, lookup_put, if_neg hne]; exact p2, ?_, l0, by rw [h6]; exact p4, p5⟩
        rw [h5]
        intro c' t' e
        injection e with e; injection e with e1 e2
        exact e1 ▸ hne
      · have hne : c.ip ≠ 9 := p3 c t (by rw [h1]; rfl)
        refine ⟨by rw [h3]; exact p1, by rw [h4]; exact p2, ?_, l0 ++ [(c, f)], by rw [h6, p4, List.append_assoc], ?_⟩
        · rcases h8 with h8 | h8
          · rw [h8.1]
            intro c' t' e
            injection e with e; injection e with e1 e2
            exact e1 ▸ hne
          · rw [h8.1]; intro c t e; cases e
        · intro x hx hip
          rcases List.mem_append.1 hx with hx | hx
          · exact p5 x hx hip
          · simp only [List.mem_singleton] at hx
            subst hx
            exact absurd hip hne
      · exact ⟨by rw [h3]; exact p1, by rw [h4]; exact p2, by rw [h5]; intro c t e; (cases e), l0, by rw [h6]; exact p4, p5⟩
      · have hne : c.ip ≠ 9 := p3 c t (by rw [h1]; rfl)
        exact ⟨by rw [h3, lookup_put, if_neg hne]; exact p1, by rw [h4]; exact p2, by rw [h5]; intro c t e; (cases e), l0, by rw [h6]; exact p4, p5⟩)
    ls s s' (by
      subst hs
      refine ⟨by decide, by decide, fun c t e => ?_, [], by simp, by simp⟩
      have : pendingConn (Listener.Phase.listening) = some (c, t) := e
      cases this) h
  exact inv.2.2.2

/-! ## C261: peers do not hold each other up -/

/-- C261: while a dynamic peer is waited for, no connection of any other peer is accepted: nothing becomes of connections until the dynamic peer reports, and it does not report while its client sends nothing, for up to 65535 seconds -/
theorem c261_held_up_disproved : ∃ s0 s, Start s0 ∧ s0.known.look 7 = some 0 ∧ Listener.run true s0 [.arrive 0 ⟨9, 1⟩, .accept 0, .report (.event .active), .arrive 0 ⟨7, 2⟩] = some s ∧
    ∀ ls, (∀ l ∈ ls, ∀ r, l ≠ .report r) → ∀ s', Listener.run true s ls = some s' → s'.log = s.log := by
  refine ⟨⟨[⟨[], true⟩], [(7, 0)], [(7, 0)], [⟨[.start], false⟩], .listening, []⟩, _, ⟨rfl, rfl, by intro k hk c hc; simp_all [twoSockets], by decide⟩, rfl, rfl, fun ls hq s' h => ?_⟩
  have key : ∀ (ls : List Listener.Label) (s1 s' : Listener.St) (c : Conn) (t : Nat), (∀ l ∈ ls, ∀ r, l ≠ .report r) → s1.phase = .negotiating c t → Listener.run true s1 ls = some s' → s'.log = s1.log := by
    intro ls
    induction ls with
    | nil => intro s1 s' c t _ _ h; injection h with h; rw [h]
    | cons l ls ih =>
      intro s1 s' c t hq hp h
      rw [Listener.run] at h
      split at h
      · next s2 h2 =>
        have hq' : ∀ l ∈ ls, ∀ r, l ≠ .report r := fun l hl => hq l (by simp [hl])
        rcases step_cases h2 with g | ⟨_, _, _, h1, _⟩ | ⟨_, _, h1, _⟩ | ⟨_, _, h1, _⟩ | ⟨_, _, _, h1, _⟩ | ⟨c', t', h1, h3, h4, h5, h6, h7⟩ | ⟨c', t', h1, h3, h4, h5, h6, h7⟩
        · rw [ih s2 s' c t hq' (by rw [g.2.2.1]; exact hp) h, g.2.2.2.1]
        · rw [hp] at h1; cases h1
        · rw [hp] at h1; cases h1
        · rw [hp] at h1; cases h1
        · rw [hp] at h1; cases h1
        all_goals
          exfalso
          cases l with
          | report r => exact hq _ (by simp) r rfl
          | arrive i c =>
            rw [Listener.step] at h2
            split at h2
            · injection h2 with h2; subst h2; rw [show _ = s1.phase from rfl, hp] at h5; cases h5
            · cases h2
          | accept i => rw [Listener.step, hp] at h2; cases h2
          | acceptError i => rw [Listener.step, hp] at h2; cases h2
          | ends t =>
            rw [Listener.step] at h2
            split at h2
            · injection h2 with h2; subst h2; rw [show _ = s1.phase from rfl, hp] at h5; cases h5
            · cases h2
      · cases h
  exact key ls _ s' _ _ hq rfl h

/-! ## C262: the supervisor -/

/-- C262: a peer is made if and only if there is none with its key; then the key has that peer and all others stay. A peer that is removed is the one of the key, and the key can be used again. While the listener runs, of each address
at most one peer is made. -/
theorem c262_keys (peers : List (Nat × Nat)) (k t : Nat) :
    ((createPeer peers k t).isSome ↔ peers.look k = none) ∧ (∀ p, createPeer peers k t = some p → p.look k = some t ∧ ∀ k', k' ≠ k → p.look k' = peers.look k') ∧
    (removePeer peers k).2 = peers.look k ∧ (createPeer (removePeer peers k).1 k t).isSome ∧ (∀ k', k' ≠ k → (removePeer peers k).1.look k' = peers.look k') := by
  refine ⟨?_, fun p hp => ?_, rfl, ?_, fun k' hk => ?_⟩
  · unfold createPeer; cases peers.look k <;> simp
  · unfold createPeer at hp
    split at hp
    · cases hp
    · injection hp with hp
      subst hp
      exact ⟨by rw [lookup_put, if_pos rfl], fun k' hk => by rw [lookup_put, if_neg (Ne.symm hk)]⟩
  · unfold createPeer removePeer
    simp only [Collector.lookup_del, if_true]
    rfl
  · unfold removePeer
    simp only [Collector.lookup_del, if_neg (Ne.symm hk)]

/-- C262: while the listener runs, the peer that the supervisor has for an address is never replaced -/
theorem c262_one_peer {dyn : Bool} {s0 s : Listener.St} (ls : List Listener.Label) (h : Listener.run dyn s0 ls = some s) (ip t : Nat) (hk : s0.owned.look ip = some t) : s.owned.look ip = some t :=
  run_invariant (dyn := dyn) (fun s => s.owned.look ip = some t) (fun s l s' hp hs => by
    rcases step_cases hs with h | ⟨c, t, f, h1, h2, h3, h4, _⟩ | ⟨c, f, h1, h2, h3, h4, _⟩ | ⟨c, h0, h1, h2, h2', h3, h4, _⟩ | ⟨c, t, f, h1, h3, h4, _⟩ | ⟨c, t, h1, h3, h4, _⟩ | ⟨c, t, h1, h3, h4, _⟩
    · rw [h.2.1]; exact hp
    · rw [h4]; exact hp
    · rw [h4]; exact hp
    · rw [h4, lookup_put]
      split
      · next e => rw [e, hp] at h2'; cases h2'
      · exact hp
    · rw [h4]; exact hp
    · rw [h4]; exact hp
    · rw [h4]; exact hp) ls s0 s hk h

/-- steps of a task -/
inductive MailSteps : Mailbox → Mailbox → Prop where
  | refl (m : Mailbox) : MailSteps m m
  | step {m m' m'' : Mailbox} : MailStep m m' → MailSteps m' m'' → MailSteps m m''

/-- C262, in part: a task that is removed and is not aborted takes `ManualStop`, once it has taken all it was sent, and takes what it was sent before first -/
theorem c262_stopped_partial (m m' : Mailbox) (h : MailSteps m.shutdown m') (ha : m'.aborted = false) : m'.taken ++ m'.queue = m.taken ++ m.queue ++ [.manualStop] ∧ (m'.queue = [] → .manualStop ∈ m'.taken) := by
  have key : ∀ a b : Mailbox, MailSteps a b → b.aborted = false → b.taken ++ b.queue = a.taken ++ a.queue := by
    intro a b h
    induction h with
    | refl => intro _; rfl
    | @step a b c hs hr ih =>
      intro hc
      rw [ih hc]
      cases hs with
      | take m q d => simp
      | drop q d b => rfl
  have h1 := key _ _ h ha
  have h2 : m'.taken ++ m'.queue = m.taken ++ m.queue ++ [.manualStop] := by rw [h1]; simp [Mailbox.shutdown]
  refine ⟨h2, fun hq => ?_⟩
  rw [hq, List.append_nil] at h2
  rw [h2]; simp

example : MailSteps (Mailbox.shutdown ⟨[.manualStart], [], false⟩) ⟨[], [.manualStart, .manualStop], false⟩ := .step (.take _ _ _) (.step (.take _ _ _) (.refl _))

/-- C262: a peer that is removed is to be stopped, but if what `remove_peer` returns is dropped, then the task may be aborted before it takes the message, and sends no NOTIFICATION -/
theorem c262_removed_disproved : ¬ ∀ m m' : Mailbox, m.aborted = false → MailStep m.shutdown m' → (∀ m'', ¬ MailStep m' m'' ∨ m''= m') → Admin.manualStop ∈ m'.taken := by
  intro h
  have := h ⟨[], [], false⟩ ⟨[.manualStop], [], true⟩ rfl (.drop _ _ _) (fun m'' => by
    by_cases e : m'' = ⟨[.manualStop], [], true⟩
    · exact .inr e
    · refine .inl fun hs => ?_
      cases hs
      exact e rfl)
  cases this

end Verif.Props
