import Verif.BmpService.Supervisor
/-!
# The supervisor of BMP actors (C294, C295)
-/
namespace Verif.Props
open Verif.BmpSuper

/-! ## C294: replies of all actors -/

variable {R : Type}

theorem bs_perm_erase {l : List R} {i : Nat} {r : R} (h : l[i]? = some r) : l.Perm (r :: l.eraseIdx i) := by
  induction l generalizing i with
  | nil => simp at h
  | cons x l ih =>
    cases i with
    | zero => simp at h; subst h; simp
    | succ i =>
      simp only [List.getElem?_cons_succ] at h
      rw [List.eraseIdx_cons_succ]
      exact ((ih h).cons x).trans (List.Perm.swap r x _)

theorem bs_length_erase {l : List R} {i : Nat} {r : R} (h : l[i]? = some r) : (l.eraseIdx i).length + 1 = l.length := by
  have := (bs_perm_erase h).length_eq
  simp only [List.length_cons] at this
  omega

/-- what an exchange keeps: no reply is lost or doubled -/
def KeptReplies (rs : List R) (c : Collect R) : Prop := (c.got ++ c.queue ++ c.pending).Perm rs

theorem bs_kept_turn {m : Manner} {cap : Nat} {rs : List R} {c c' : Collect R} {t : Turn} (h : KeptReplies rs c) (hm : m = .waits ∨ c.queue.length + c.pending.length ≤ cap) (ht : c.turn m cap t = some c') : KeptReplies rs c' ∧ (c.queue.length + c.pending.length ≤ cap → c'.queue.length + c'.pending.length ≤ cap) := by
  cases t with
  | take =>
    simp only [Collect.turn] at ht
    cases hq : c.queue with
    | nil => rw [hq] at ht; cases ht
    | cons r q =>
      rw [hq] at ht
      injection ht with ht
      subst ht
      refine ⟨?_, fun hc => by simp at hc ⊢; omega⟩
      unfold KeptReplies at h ⊢
      rw [hq] at h
      simpa using h
  | reply i =>
    simp only [Collect.turn] at ht
    cases hp : c.pending[i]? with
    | none => rw [hp] at ht; cases ht
    | some r =>
      rw [hp] at ht
      simp only at ht
      have hl := bs_length_erase hp
      split at ht
      · injection ht with ht
        subst ht
        refine ⟨?_, fun hc => by simp only [List.length_append, List.length_cons, List.length_nil]; omega⟩
        unfold KeptReplies at h ⊢
        refine List.Perm.trans ?_ h
        simp only [List.append_assoc, List.cons_append, List.nil_append]
        exact ((bs_perm_erase hp).symm.append_left _).append_left _
      · rename_i hn
        rcases hm with rfl | hm
        · cases ht
        · omega

theorem bs_kept_turns {m : Manner} {cap : Nat} {rs : List R} {c c' : Collect R} {ts : List Turn} (h : KeptReplies rs c) (hm : m = .waits ∨ c.queue.length + c.pending.length ≤ cap) (ht : c.turns m cap ts = some c') : KeptReplies rs c' := by
  induction ts generalizing c with
  | nil => injection ht with ht; exact ht ▸ h
  | cons t ts ih =>
    simp only [Collect.turns, Option.bind_eq_some_iff] at ht
    obtain ⟨d, h1, h2⟩ := ht
    obtain ⟨h3, h4⟩ := bs_kept_turn h hm h1
    exact ih h3 (hm.imp id h4) h2

/-- C294: replies that are waited for are all got, each once, in whatever order actors and handle run. -/
theorem c294_waits {cap : Nat} {rs : List R} {c : Collect R} {ts : List Turn} (h : Collect.turns .waits cap { pending := rs } ts = some c) (hd : c.Done) : c.got.Perm rs := by
  have := bs_kept_turns (rs := rs) (c := { pending := rs }) (by simp [KeptReplies]) (.inl rfl) h
  unfold KeptReplies at this
  rw [hd.1, hd.2] at this
  simpa using this

/-- C294: actors and handle do not wait for each other for ever: as long as the handle is not done there is a step to make, and there are no more than two steps for each reply. -/
theorem c294_ends (m : Manner) {cap : Nat} (hc : 0 < cap) (c : Collect R) :
    (¬ c.Done → ∃ t c', c.turn m cap t = some c') ∧ ∀ t c', c.turn m cap t = some c' → 2 * c'.pending.length + c'.queue.length < 2 * c.pending.length + c.queue.length := by
  refine ⟨fun hd => ?_, fun t c' ht => ?_⟩
  · cases hq : c.queue with
    | cons r q => exact ⟨.take, { c with queue := q, got := c.got ++ [r] }, by simp only [Collect.turn, hq]⟩
    | nil =>
      cases hp : c.pending with
      | nil => exact absurd ⟨hp, hq⟩ hd
      | cons r p => exact ⟨.reply 0, { c with pending := p, queue := [r] }, by simp [Collect.turn, hp, hq, hc]⟩
  · cases t with
    | take =>
      simp only [Collect.turn] at ht
      cases hq : c.queue with
      | nil => rw [hq] at ht; cases ht
      | cons r q => rw [hq] at ht; injection ht with ht; subst ht; simp
    | reply i =>
      simp only [Collect.turn] at ht
      cases hp : c.pending[i]? with
      | none => rw [hp] at ht; cases ht
      | some r =>
        rw [hp] at ht
        simp only at ht
        have hl := bs_length_erase hp
        split at ht
        · injection ht with ht; subst ht; simp only [List.length_append, List.length_cons, List.length_nil]; omega
        · cases m with
          | waits => cases ht
          | tries => injection ht with ht; subst ht; simp only; omega

/-- C294, in part: lists of addresses and of peers have the replies of all actors if there are no more actors than the channel has room for. -/
theorem c294_lists_partial {cap : Nat} {rs : List R} (hl : rs.length ≤ cap) {c : Collect R} {ts : List Turn} (h : Collect.turns .tries cap { pending := rs } ts = some c) (hd : c.Done) : c.got.Perm rs := by
  have := bs_kept_turns (rs := rs) (c := { pending := rs }) (by simp [KeptReplies]) (.inr (by simpa using hl)) h
  unfold KeptReplies at this
  rw [hd.1, hd.2] at this
  simpa using this

theorem bs_replies_first (cap : Nat) (rs q : List R) (hq : q.length ≤ cap) : Collect.turns .tries cap { pending := rs, queue := q } (List.replicate rs.length (.reply 0)) = some { pending := [], queue := (q ++ rs).take cap } := by
  induction rs generalizing q with
  | nil => simp [Collect.turns, List.take_of_length_le hq]
  | cons r rs ih =>
    rw [List.length_cons, List.replicate_succ, Collect.turns]
    simp only [Collect.turn, List.getElem?_cons_zero, List.eraseIdx_cons_zero]
    by_cases h : q.length < cap
    · rw [if_pos h, Option.bind_some, ih _ (by simp; omega)]
      simp
    · rw [if_neg h, Option.bind_some, ih _ hq]
      have : cap = q.length := by omega
      subst this
      simp

theorem bs_takes_all (cap : Nat) (q g : List R) : Collect.turns .tries cap { pending := [], queue := q, got := g } (List.replicate q.length .take) = some { pending := [], queue := [], got := g ++ q } := by
  induction q generalizing g with
  | nil => simp [Collect.turns]
  | cons r q ih =>
    rw [List.length_cons, List.replicate_succ, Collect.turns]
    simp only [Collect.turn, Option.bind_some]
    rw [ih]
    simp

theorem bs_turns_append (m : Manner) (cap : Nat) (c : Collect R) (a b : List Turn) : c.turns m cap (a ++ b) = (c.turns m cap a).bind fun d => d.turns m cap b := by
  induction a generalizing c with
  | nil => rfl
  | cons t a ih =>
    rw [List.cons_append, Collect.turns, Collect.turns]
    cases c.turn m cap t with
    | none => rfl
    | some d => exact ih d

/-- C294 is false: with more actors than there is room for, lists can lack all that are too many. -/
theorem c294_lists_disproved (cap : Nat) (rs : List R) : ∃ ts c, Collect.turns .tries cap { pending := rs } ts = some c ∧ c.Done ∧ c.got = rs.take cap := by
  refine ⟨List.replicate rs.length (.reply 0) ++ List.replicate (rs.take cap).length .take, { pending := [], queue := [], got := rs.take cap }, ?_, ⟨rfl, rfl⟩, rfl⟩
  rw [bs_turns_append, bs_replies_first cap rs [] (by simp), Option.bind_some, List.nil_append, bs_takes_all]
  simp

example : ∃ ts c, Collect.turns .waits 1 { pending := ["a", "b"] } ts = some c ∧ c.Done ∧ c.got = ["b", "a"] := ⟨[.reply 1, .take, .reply 0, .take], _, rfl, ⟨rfl, rfl⟩, rfl⟩

/-! ## C295: what commands do to all actors -/

/-- actors have different identifiers, and their subscribers are below the next one -/
def SoundSuper (s : Super) : Prop := (s.map Prod.fst).Nodup ∧ ∀ x ∈ s, ∀ k ∈ x.2.subs, k < x.2.next

theorem bs_start_from (n : Nat) (l : List Bool) : (startFrom n l).map Prod.fst = List.range' n (l.count true) ∧ ∀ x ∈ startFrom n l, x.2 = {} := by
  induction l generalizing n with
  | nil => simp [startFrom]
  | cons b l ih =>
    cases b with
    | false => simpa [startFrom] using ih n
    | true =>
      obtain ⟨h1, h2⟩ := ih (n + 1)
      refine ⟨by simp [startFrom, h1, List.range'_succ], fun x hx => ?_⟩
      simp only [startFrom, List.mem_cons] at hx
      rcases hx with rfl | hx
      · rfl
      · exact h2 x hx

/-- C295: a supervisor starts if at least one of its actors does, with those that did, numbered from zero, without subscribers and peers. -/
theorem c295_start (l : List Bool) : (start l = none ↔ true ∉ l) ∧ ∀ s, start l = some s → s.map Prod.fst = List.range (l.count true) ∧ (∀ x ∈ s, x.2.live = true ∧ x.2.subs = [] ∧ x.2.peers = []) ∧ SoundSuper s := by
  obtain ⟨h1, h2⟩ := bs_start_from 0 l
  have h3 : (startFrom 0 l).length = l.count true := by have := congrArg List.length h1; simpa using this
  refine ⟨?_, fun s hs => ?_⟩
  · unfold start
    rw [← List.count_eq_zero, ← h3]
    cases startFrom 0 l <;> simp
  · unfold start at hs
    split at hs
    · cases hs
    · injection hs with hs
      subst hs
      refine ⟨by rw [h1, List.range_eq_range'], fun x hx => by rw [h2 x hx]; exact ⟨rfl, rfl, rfl⟩, by rw [h1]; exact List.nodup_range', fun x hx k hk => ?_⟩
      rw [h2 x hx] at hk
      cases hk

/-- C295: a subscription is made at every actor that runs, and nowhere else; it is none that there was. -/
theorem c295_subscribe {s : Super} (h : SoundSuper s) :
    s.subscribe.2.map Prod.fst = (s.filter (·.2.live)).map Prod.fst ∧
    (∀ p ∈ s.subscribe.2, ∃ x ∈ s, x.1 = p.1 ∧ x.2.live = true ∧ p.2 ∉ x.2.subs ∧ (x.1, { x.2 with next := x.2.next + 1, subs := x.2.subs ++ [p.2] }) ∈ s.subscribe.1) ∧
    (∀ x ∈ s, x.2.live = false → x ∈ s.subscribe.1) ∧ SoundSuper s.subscribe.1 := by
  unfold Super.subscribe
  refine ⟨?_, fun p hp => ?_, fun x hx hl => ?_, ?_⟩
  · simp only [Super.replies]
    clear h
    induction s with
    | nil => rfl
    | cons x s ih =>
      by_cases hx : x.2.live = true
      · simp [hx, ih]
      · simp [hx, ih]
  · simp only [Super.replies, List.mem_filterMap] at hp
    obtain ⟨x, hx, hp⟩ := hp
    split at hp
    · rename_i hl
      injection hp with hp
      subst hp
      refine ⟨x, hx, rfl, hl, fun hm => absurd (h.2 x hx _ hm) (Nat.lt_irrefl _), ?_⟩
      simp only [Super.each, List.mem_map]
      exact ⟨x, hx, by rw [if_pos hl]; rfl⟩
    · cases hp
  · simp only [Super.each, List.mem_map]
    exact ⟨x, hx, by rw [if_neg (by simp [hl])]⟩
  · refine ⟨?_, fun x hx k hk => ?_⟩
    · have : (s.each Worker.subscribe).map Prod.fst = s.map Prod.fst := by
        simp only [Super.each, List.map_map]
        refine List.map_congr_left fun x _ => ?_
        simp only [Function.comp]
        split <;> rfl
      rw [this]
      exact h.1
    · simp only [Super.each, List.mem_map] at hx
      obtain ⟨y, hy, rfl⟩ := hx
      split at hk
      · rename_i hl
        simp only [hl, if_true, Worker.subscribe] at hk ⊢
        rcases List.mem_append.mp hk with hk | hk
        · have := h.2 y hy k hk
          omega
        · simp at hk; omega
      · rename_i hl
        rw [if_neg hl]
        exact h.2 y hy k hk

/-- C295: unsubscribing removes the subscribers that are given, at their actors, and no others. -/
theorem c295_unsubscribe (l : List (Nat × Nat)) (s : Super) :
    (s.unsubscribe l).1.length = s.length ∧ ∀ (i : Nat) (x : Nat × Worker), s[i]? = some x → x.2.live = true → ∃ y : Nat × Worker, (s.unsubscribe l).1[i]? = some y ∧ y.1 = x.1 ∧ y.2.peers = x.2.peers ∧ y.2.live = true ∧ ∀ k, k ∈ y.2.subs ↔ k ∈ x.2.subs ∧ (x.1, k) ∉ l := by
  refine ⟨by simp [Super.unsubscribe], fun i x hx hl => ⟨(x.1, { x.2 with subs := x.2.subs.filter fun k => k ∉ atActor l x.1 }), ?_, rfl, rfl, hl, fun k => ?_⟩⟩
  · simp [Super.unsubscribe, hx, hl]
  · simp [atActor, List.mem_filter]

/-- C295 is false: an actor is reported to have unsubscribed whenever it was asked to, also if it had no such subscriber. -/
theorem c295_reported_disproved {s : Super} {i : Nat} {w : Worker} (h : (i, w) ∈ s) (hl : w.live = true) (k : Nat) (hk : k ∉ w.subs) :
    some i ∈ (s.unsubscribe [(i, k)]).2 ∧ (i, w) ∈ (s.unsubscribe [(i, k)]).1 := by
  unfold Super.unsubscribe
  refine ⟨List.mem_map.mpr ⟨(i, w), h, ?_⟩, List.mem_map.mpr ⟨(i, w), h, ?_⟩⟩
  · simp [hl, atActor]
  · have : (w.subs.filter fun x => x ∉ atActor [(i, k)] i) = w.subs := by
      refine List.filter_eq_self.mpr fun x hx => ?_
      have : x ≠ k := fun e => hk (e ▸ hx)
      simp [atActor, this]
    simp only [hl, if_true, this]
    rw [← hl]

/-- C295: a peer that is disconnected is connected to no actor that runs, others are as before, and the reply tells which actors had it. -/
theorem c295_disconnect (a : Nat) (s : Super) :
    (∀ p ∈ (s.disconnect a).1.peers, a ∉ p.2) ∧ (∀ (i : Nat) (x : Nat × Worker), s[i]? = some x → x.2.live = true → ∃ y : Nat × Worker, (s.disconnect a).1[i]? = some y ∧ y.1 = x.1 ∧ y.2.subs = x.2.subs ∧ ∀ b, b ≠ a → (b ∈ y.2.peers ↔ b ∈ x.2.peers)) ∧
    ∀ i b, (i, b) ∈ (s.disconnect a).2 ↔ ∃ x ∈ s, x.1 = i ∧ x.2.live = true ∧ (b = true ↔ a ∈ x.2.peers) := by
  refine ⟨fun p hp => ?_, fun i x hx hl => ?_, fun i b => ?_⟩
  · simp only [Super.disconnect, Super.peers, Super.replies, Super.each, List.mem_filterMap, List.mem_map] at hp
    obtain ⟨y, ⟨x, hx, rfl⟩, hp⟩ := hp
    by_cases hl : x.2.live = true
    · simp only [hl, if_true, Option.some.injEq] at hp
      subst hp
      simp
    · rw [if_neg hl, if_neg hl] at hp
      cases hp
  · refine ⟨(x.1, { x.2 with peers := x.2.peers.filter (· ≠ a) }), by simp [Super.disconnect, Super.each, hx, hl], rfl, rfl, fun b hb => by simp [hb]⟩
  · simp only [Super.disconnect, Super.replies, List.mem_filterMap]
    constructor
    · rintro ⟨x, hx, h⟩
      split at h
      · rename_i hl
        simp only [Option.some.injEq, Prod.mk.injEq] at h
        obtain ⟨rfl, rfl⟩ := h
        exact ⟨x, hx, rfl, hl, by simp⟩
      · cases h
    · rintro ⟨x, hx, rfl, hl, hb⟩
      refine ⟨x, hx, ?_⟩
      rw [if_pos hl]
      cases b <;> simp_all

/-- C295: after a shutdown no actor runs, and no peer of an actor that ran is connected. -/
theorem c295_shutdown (s : Super) : s.shutdown.length = s.length ∧ (∀ x ∈ s.shutdown, x.2.live = false) ∧ ∀ (i : Nat) (x : Nat × Worker), s[i]? = some x → x.2.live = true → ∃ y : Nat × Worker, s.shutdown[i]? = some y ∧ y.2.peers = [] := by
  unfold Super.shutdown Super.each
  refine ⟨by simp, fun x hx => ?_, fun i x hx hl => ⟨(x.1, { x.2 with live := false, peers := [] }), by simp only [List.getElem?_map, hx, Option.map_some, hl, if_true], rfl⟩⟩
  obtain ⟨y, -, rfl⟩ := List.mem_map.mp hx
  by_cases hl : y.2.live = true
  · simp [hl]
  · simpa [hl] using hl

/-- two actors of three -/
def twoBmpActors : Super := [(0, { next := 2, subs := [1], peers := [7, 8] }), (1, { peers := [7] })]

example : start [true, false, true] = some [(0, {}), (1, {})] ∧ SoundSuper twoBmpActors ∧ twoBmpActors.subscribe.2 = [(0, 2), (1, 0)] ∧ (twoBmpActors.disconnect 7).2 = [(0, true), (1, true)] ∧ (twoBmpActors.unsubscribe [(1, 5)]).2 = [none, some 1] := by
  refine ⟨by decide, ⟨by decide, by decide⟩, by decide, by decide, by decide⟩

end Verif.Props
