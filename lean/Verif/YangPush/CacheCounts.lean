import Verif.YangPush.CacheSpec
import Verif.YangPush.ValidationCounts
/-! # How many answers the actor of the cache gives -/
namespace Verif.YangPush.Cache
open Collector Notif

variable {A X S : Type} [DecidableEq A] [DecidableEq X] [DecidableEq S]

/-- the number of lookups that wait -/
def waits (s : S) (p : List (Ident A X × List S)) : Nat := weigh (fun l : List S => l.count s) p

theorem getD_count (s : S) (o : Option (List S)) : (o.map fun l => l.count s).getD 0 = (o.getD []).count s := by cases o <;> simp

theorem waits_put (s : S) (p : List (Ident A X × List S)) (k : Ident A X) (v : List S) : waits s (put p k v) + ((p.look k).getD []).count s = waits s p + v.count s := by
  have := weigh_put (fun l : List S => l.count s) p k v
  rwa [getD_count] at this

theorem waits_del (s : S) {p : List (Ident A X × List S)} (hu : Uniq p) (k : Ident A X) : waits s (del p k) + ((p.look k).getD []).count s = waits s p := by
  have := weigh_del_uniq (fun l : List S => l.count s) hu k
  rwa [getD_count] at this

omit [DecidableEq A] [DecidableEq X] in
theorem told_answers (s : S) (l : List S) (f : S → Response A X Ref) : told s (l.map fun t => .answer t (f t)) = l.count s := by
  unfold told
  induction l with
  | nil => rfl
  | cons t l ih =>
    simp only [List.map_cons, List.sum_cons, ih, tells, List.count_cons, beq_iff_eq]
    split <;> omega

omit [DecidableEq A] [DecidableEq X] in
theorem cache_told_append (s : S) (a b : List (Out A X S)) : told s (a ++ b) = told s a + told s b := by simp [told]

theorem waits_cleanup (s : S) (closed : List S) (p : List (Ident A X × List S)) :
    waits s ((p.map fun x => (x.1, x.2.filter fun t => t ∉ closed)).filter fun x => !x.2.isEmpty) = if s ∈ closed then 0 else waits s p := by
  unfold waits weigh
  induction p with
  | nil => simp
  | cons x p ih =>
    simp only [List.map_cons, List.filter_cons, List.sum_cons]
    have hx : (x.2.filter fun t => t ∉ closed).count s = if s ∈ closed then 0 else x.2.count s := by
      split
      · rename_i h
        rw [List.count_eq_zero]
        intro hm
        have := (List.mem_filter.mp hm).2
        simp [h] at this
      · rename_i h
        rw [List.count_filter]
        simpa using h
    split
    · simp only [List.map_cons, List.sum_cons, ih, hx]
      split <;> omega
    · rename_i he
      rw [ih]
      have hnil : (x.2.filter fun t => t ∉ closed) = [] := by simpa using he
      rw [hnil] at hx
      simp only [List.count_nil] at hx
      split
      · rfl
      · rename_i h
        rw [if_neg h] at hx
        simp only [← hx, Nat.zero_add]

theorem uniq_cleanup (closed : List S) {p : List (Ident A X × List S)} (h : Uniq p) :
    Uniq ((p.map fun x => (x.1, x.2.filter fun t => t ∉ closed)).filter fun x => !x.2.isEmpty) := by
  refine Uniq.filter ?_ _
  unfold Uniq at h ⊢
  rw [List.pairwise_map]
  exact h

theorem finish_uniq {c : State A X S} (h : Uniq c.pending) (r : FetchResult A X) : Uniq (finish c r).1.pending := by
  cases r with
  | failed info => exact h.del _
  | fetched info l schemas => exact (h.del _).del _

/-- all that are no more waiting after the end of a worker are answered -/
theorem finish_balance (s : S) {c : State A X S} (h : Uniq c.pending) (r : FetchResult A X) : told s (finish c r).2 + waits s (finish c r).1.pending = waits s c.pending := by
  cases r with
  | failed info =>
    simp only [finish]
    rw [told_answers, ← waits_del s h info.ident]
    omega
  | fetched info l schemas =>
    simp only [finish]
    rw [told_answers, List.count_append, ← waits_del s h info.ident,
      ← waits_del s (h.del info.ident) (SubInfo.empty info.collector info.interface info.peer info.id : SubInfo A X).ident]
    omega

theorem enqueue_uniq {c : State A X S} (h : Uniq c.pending) (job : Job A X) (s : S) (b : Bool) : Uniq (enqueue c job s b).1.pending := by
  unfold enqueue
  simp only
  split
  · split <;> exact h.put _ _
  · exact h.put _ _

theorem enqueue_balance (s : S) (c : State A X S) (job : Job A X) (t : S) (b : Bool) :
    told s (enqueue c job t b).2 = 0 ∧ waits s (enqueue c job t b).1.pending ≤ waits s c.pending + (if t = s then 1 else 0) ∧
    ((t = s → b = true) → waits s (enqueue c job t b).1.pending = waits s c.pending + (if t = s then 1 else 0)) := by
  unfold enqueue
  simp only
  split
  · rename_i he
    have hnil : (c.pending.look job.key).getD [] = [] := by simpa using he
    split
    · have := waits_put s c.pending job.key [t]
      rw [hnil] at this
      simp only [List.count_nil, List.count_singleton, beq_iff_eq] at this
      refine ⟨rfl, ?_, fun _ => ?_⟩ <;> simp only [Nat.add_zero] at this ⊢ <;> omega
    · rename_i hb
      have := waits_put s c.pending job.key []
      rw [hnil] at this
      simp only [List.count_nil] at this
      refine ⟨rfl, ?_, fun h => ?_⟩
      · simp only; split <;> omega
      · rw [if_neg fun e => hb (h e)]; simp only; omega
  · have := waits_put s c.pending job.key ((c.pending.look job.key).getD [] ++ [t])
    simp only [List.count_append, List.count_singleton, beq_iff_eq] at this
    refine ⟨rfl, ?_, fun _ => ?_⟩ <;> simp only <;> omega

theorem step_uniq {c : State A X S} (h : Uniq c.pending) (e : Event A X S) : Uniq (step c e).1.pending := by
  cases e with
  | lookupInfo i s b =>
    simp only [step]
    split
    · exact h
    · exact enqueue_uniq h _ _ _
  | lookupInfoOnce i s r =>
    simp only [step]
    split
    · exact h
    · exact finish_uniq h _
  | lookupId co f p n s b =>
    simp only [step]
    split
    · exact h
    · exact enqueue_uniq h _ _ _
  | lookupIdOnce co f p n s r =>
    simp only [step]
    split
    · exact h
    · exact finish_uniq h _
  | lookupContent cid s => exact h
  | ended job r =>
    simp only [step]
    split
    · cases r with
      | none => exact h
      | some r => exact finish_uniq (c := { c with workers := c.workers.erase job }) h r
    · exact h
  | cleanup closed => exact uniq_cleanup closed h

theorem told_one (s t : S) (resp : Response A X Ref) : told s [(.answer t resp : Out A X S)] = if t = s then 1 else 0 := by simp [told, tells]

theorem step_balance (s : S) {c : State A X S} (h : Uniq c.pending) (e : Event A X S) :
    told s (step c e).2 + waits s (step c e).1.pending ≤ asks s e + waits s c.pending ∧
    (Lossless s e → told s (step c e).2 + waits s (step c e).1.pending = asks s e + waits s c.pending) := by
  cases e with
  | lookupInfo i t b =>
    simp only [step, asks, Lossless]
    split
    · rw [told_one]; exact ⟨Nat.le_refl _, fun _ => rfl⟩
    · obtain ⟨h1, h2, h3⟩ := enqueue_balance s c (.info i) t b
      exact ⟨by omega, fun hb => by have := h3 hb; omega⟩
  | lookupInfoOnce i t r =>
    simp only [step, asks]
    split
    · rw [told_one]; exact ⟨Nat.le_refl _, fun _ => rfl⟩
    · have := finish_balance s h r
      simp only [List.cons_append]
      rw [show ∀ (l : List (Out A X S)), (.fetch (.info i) :: l : List (Out A X S)) = [.fetch (.info i)] ++ l from fun _ => rfl, cache_told_append, cache_told_append, told_one,
        show told s [(.fetch (.info i) : Out A X S)] = 0 from rfl]
      exact ⟨by omega, fun _ => by omega⟩
  | lookupId co f p n t b =>
    simp only [step, asks, Lossless]
    split
    · rw [told_one]; exact ⟨Nat.le_refl _, fun _ => rfl⟩
    · obtain ⟨h1, h2, h3⟩ := enqueue_balance s c (.id co f p n) t b
      exact ⟨by omega, fun hb => by have := h3 hb; omega⟩
  | lookupIdOnce co f p n t r =>
    simp only [step, asks, Lossless]
    split
    · rw [told_one]; exact ⟨Nat.le_refl _, fun _ => rfl⟩
    · have := finish_balance s h r
      rw [show ∀ (l : List (Out A X S)), (.fetch (.id co f p n) :: l : List (Out A X S)) = [.fetch (.id co f p n)] ++ l from fun _ => rfl, cache_told_append,
        show told s [(.fetch (.id co f p n) : Out A X S)] = 0 from rfl]
      refine ⟨by simp only; split <;> omega, fun hn => ?_⟩
      rw [if_neg hn]; simp only; omega
  | lookupContent cid t =>
    simp only [step, asks]
    have : told s [(.content t cid (c.store.getContent cid) : Out A X S)] = if t = s then 1 else 0 := by simp [told, tells]
    rw [this]; exact ⟨Nat.le_refl _, fun _ => rfl⟩
  | ended job r =>
    simp only [step, asks]
    split
    · cases r with
      | none => exact ⟨by simp [told], fun _ => by simp [told]⟩
      | some r =>
        have := finish_balance s (c := { c with workers := c.workers.erase job }) h r
        simp only at this ⊢
        exact ⟨by omega, fun _ => by omega⟩
    · exact ⟨by simp [told], fun _ => by simp [told]⟩
  | cleanup closed =>
    simp only [step, asks, Lossless]
    rw [waits_cleanup, show told s ([] : List (Out A X S)) = 0 from rfl]
    refine ⟨by split <;> omega, fun hn => ?_⟩
    rw [if_neg hn]

theorem run_uniq {c : State A X S} (h : Uniq c.pending) (es : List (Event A X S)) : Uniq (run c es).1.pending := by
  induction es generalizing c with
  | nil => exact h
  | cons e es ih => exact ih (step_uniq h e)

theorem run_balance (s : S) {c : State A X S} (h : Uniq c.pending) (es : List (Event A X S)) :
    told s (run c es).2 + waits s (run c es).1.pending ≤ asked s es + waits s c.pending ∧
    ((∀ e ∈ es, Lossless s e) → told s (run c es).2 + waits s (run c es).1.pending = asked s es + waits s c.pending) := by
  induction es generalizing c with
  | nil => exact ⟨by simp [run, told, asked], fun _ => by simp [run, told, asked]⟩
  | cons e es ih =>
    obtain ⟨h1, h2⟩ := step_balance s h e
    obtain ⟨h3, h4⟩ := ih (step_uniq h e)
    have ha : asked s (e :: es) = asks s e + asked s es := by simp [asked]
    simp only [run, cache_told_append, ha]
    refine ⟨by omega, fun hl => ?_⟩
    have := h2 (hl e (by simp))
    have := h4 fun e' he' => hl e' (by simp [he'])
    omega

/-! ## Those who wait have a worker -/

/-- somebody at work for all that wait -/
def Served (c : State A X S) : Prop := ∀ k, (c.pending.look k).getD [] ≠ [] → ∃ job ∈ c.workers, job.key = k

theorem honest_key {job : Job A X} {r : FetchResult A X} (h : Honest job r) :
    (∀ i, r = .failed i → i.ident = job.key) ∧
    ∀ i l sch, r = .fetched i l sch → i.ident = job.key ∨ (SubInfo.empty i.collector i.interface i.peer i.id : SubInfo A X).ident = job.key := by
  cases job with
  | info j =>
    refine ⟨?_, ?_⟩
    · rintro i rfl; simp only [Honest] at h; subst h; rfl
    · rintro i l sch rfl; simp only [Honest] at h; subst h; exact .inl rfl
  | id c f p n =>
    refine ⟨?_, ?_⟩
    · rintro i rfl; simp only [Honest] at h; subst h; rfl
    · rintro i l sch rfl
      simp only [Honest] at h
      obtain ⟨rfl, rfl, rfl, rfl⟩ := h
      exact .inr rfl

theorem finish_pending (c : State A X S) (r : FetchResult A X) (k : Ident A X) :
    ((finish c r).1.pending.look k).getD [] = (c.pending.look k).getD [] ∨ ((finish c r).1.pending.look k).getD [] = [] := by
  cases r with
  | failed i =>
    simp only [finish, lookup_del]
    split
    · exact .inr rfl
    · exact .inl rfl
  | fetched i l sch =>
    simp only [finish, lookup_del]
    split
    · exact .inr rfl
    · split
      · exact .inr rfl
      · exact .inl rfl

theorem finish_clears {c : State A X S} {job : Job A X} {r : FetchResult A X} (h : Honest job r) : ((finish c r).1.pending.look job.key).getD [] = [] := by
  obtain ⟨h1, h2⟩ := honest_key h
  cases r with
  | failed i => simp only [finish, lookup_del, if_pos (h1 i rfl)]; rfl
  | fetched i l sch =>
    simp only [finish, lookup_del]
    rcases h2 i l sch rfl with e | e
    · rw [if_pos e]
      split <;> rfl
    · rw [if_pos e]; rfl

theorem finish_workers (c : State A X S) (r : FetchResult A X) : (finish c r).1.workers = c.workers := by cases r <;> rfl

theorem enqueue_served {c : State A X S} (h : Served c) (job : Job A X) (s : S) (b : Bool) : Served (enqueue c job s b).1 := by
  unfold enqueue
  simp only
  split
  · split
    · intro k hk
      simp only [lookup_put] at hk
      split at hk
      · rename_i e; exact ⟨job, by simp, e⟩
      · obtain ⟨j, hj, e⟩ := h k hk
        exact ⟨j, by simp [hj], e⟩
    · intro k hk
      simp only [lookup_put] at hk
      split at hk
      · simp at hk
      · exact h k hk
  · rename_i hne
    intro k hk
    simp only [lookup_put] at hk
    split at hk
    · rename_i e
      subst e
      exact h _ (by simpa using hne)
    · exact h k hk

theorem step_served {c : State A X S} (h : Served c) {e : Event A X S} (hh : HonestEvent e) (hn : NoPanic e) (hu : Uniq c.pending) : Served (step c e).1 := by
  have hfin : ∀ r, Served (finish c r).1 := by
    intro r k hk
    rcases finish_pending c r k with e | e
    · rw [e] at hk; rw [finish_workers]; exact h k hk
    · exact absurd e hk
  cases e with
  | lookupInfo i s b =>
    simp only [step]
    split
    · exact h
    · exact enqueue_served h _ _ _
  | lookupInfoOnce i s r =>
    simp only [step]
    split
    · exact h
    · exact hfin r
  | lookupId co f p n s b =>
    simp only [step]
    split
    · exact h
    · exact enqueue_served h _ _ _
  | lookupIdOnce co f p n s r =>
    simp only [step]
    split
    · exact h
    · exact hfin r
  | lookupContent cid s => exact h
  | ended job r =>
    simp only [step]
    split
    · cases r with
      | none => exact absurd hn (by simp [NoPanic])
      | some r =>
        intro k hk
        rw [finish_workers]
        by_cases e : job.key = k
        · subst e
          exact absurd (finish_clears (c := { c with workers := c.workers.erase job }) hh) hk
        · rcases finish_pending { c with workers := c.workers.erase job } r k with e2 | e2
          · rw [e2] at hk
            obtain ⟨j, hj, ej⟩ := h k hk
            exact ⟨j, (List.mem_erase_of_ne (by rintro rfl; exact e ej)).mpr hj, ej⟩
          · exact absurd e2 hk
    · exact h
  | cleanup closed =>
    intro k hk
    apply h k
    intro hnil
    apply hk
    simp only [step]
    rw [lookup_filter (by
      unfold Uniq at hu ⊢
      rw [List.pairwise_map]
      exact hu)]
    have hl : ∀ p : List (Ident A X × List S), (p.map fun x => (x.1, x.2.filter fun t => t ∉ closed)).look k = (p.look k).map fun l => l.filter fun t => t ∉ closed := by
      intro p
      induction p with
      | nil => rfl
      | cons x p ih =>
        rw [List.map_cons, lookup_cons', ih, show x = (x.1, x.2) from rfl, lookup_cons']
        split <;> rfl
    rw [hl]
    cases hp : c.pending.look k with
    | none => rfl
    | some l =>
      rw [hp] at hnil
      simp only [Option.getD_some] at hnil
      subst hnil
      rfl

theorem run_served {c : State A X S} (h : Served c) (hu : Uniq c.pending) {es : List (Event A X S)} (hh : ∀ e ∈ es, HonestEvent e) (hn : ∀ e ∈ es, NoPanic e) :
    Served (run c es).1 := by
  induction es generalizing c with
  | nil => exact h
  | cons e es ih => exact ih (step_served h (hh e (by simp)) (hn e (by simp)) hu) (step_uniq hu e) (fun e' he' => hh e' (by simp [he'])) (fun e' he' => hn e' (by simp [he']))

theorem waits_pos {s : S} {p : List (Ident A X × List S)} (hu : Uniq p) (h : waits s p ≠ 0) : ∃ k, (p.look k).getD [] ≠ [] := by
  apply Classical.byContradiction
  intro hc
  apply h
  unfold waits weigh
  have : ∀ x ∈ p, x.2.count s = 0 := by
    intro x hx
    have hl := lookup_of_mem hu (k := x.1) (v := x.2) hx
    have : (p.look x.1).getD [] = [] := Classical.byContradiction fun h' => hc ⟨_, h'⟩
    rw [hl] at this
    simp only [Option.getD_some] at this
    rw [this]
    rfl
  clear h hc hu
  induction p with
  | nil => rfl
  | cons x p ih =>
    simp only [List.map_cons, List.sum_cons, this x (by simp), ih fun y hy => this y (by simp [hy])]

end Verif.YangPush.Cache
