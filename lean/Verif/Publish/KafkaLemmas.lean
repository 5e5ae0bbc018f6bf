import Verif.Publish.KafkaSpec
import Verif.Collector.Lemmas
/-!
# Lemmas on publishers to Kafka
-/
namespace Verif.Publish
open Collector

theorem run_eq (handle : S → T → S) (flush : S → S) : ∀ (es : List (Event T)) (s : S),
    run handle flush s es = ((if ending es = some .shutdown then flush else id) ((messages es).foldl handle s), ending es)
  | [], _ => rfl
  | .message m :: es, s => run_eq handle flush es (handle s m)
  | .shutdown :: _, _ => rfl
  | .commandsClosed :: _, _ => rfl
  | .messagesClosed :: _, _ => rfl

theorem waits_sleeps (r : Record) : ∀ k, sleeps (waits (X := X) r k) = k
  | 0 => rfl
  | k + 1 => by
    have := waits_sleeps (X := X) r k
    unfold sleeps at this ⊢
    simp [waits, List.countP_append, this, List.countP_cons]

theorem waits_slept (r : Record) : ∀ k, slept (waits (X := X) r k) + 10 = 10 * 2 ^ k
  | 0 => rfl
  | k + 1 => by
    have := waits_slept (X := X) r k
    unfold slept at this ⊢
    simp only [waits, List.map_append, List.sum_append, List.map_cons, List.map_nil, List.sum_cons, List.sum_nil]
    rw [Nat.pow_succ]
    omega

theorem waits_attempts (r : Record) : ∀ k, attempts (waits (X := X) r k) = k
  | 0 => rfl
  | k + 1 => by
    have := waits_attempts (X := X) r k
    unfold attempts at this ⊢
    simp [waits, List.countP_append, this, List.countP_cons]

theorem waits_queued (r : Record) : ∀ k, queued (waits (X := X) r k) = []
  | 0 => rfl
  | k + 1 => by
    have := waits_queued (X := X) r k
    unfold queued at this ⊢
    simp [waits, this]

theorem Answered.snoc {kafka : Kafka X} {h : List (Call X)} (hh : Answered kafka h) {c : Call X} (hc : ∀ r a, c = .produce r a → kafka h r = a) : Answered kafka (h ++ [c]) := by
  intro before r a after e
  rcases List.eq_nil_or_concat after with rfl | ⟨after', x, rfl⟩
  · obtain ⟨h1, h2⟩ := List.append_inj' e rfl
    subst h1
    exact hc r a (by simpa using h2)
  · have e' : h ++ [c] = (before ++ .produce r a :: after') ++ [x] := by simpa using e
    obtain ⟨h1, -⟩ := List.append_inj' e' rfl
    exact hh _ _ _ _ h1

/-- the loop of `send` does as said, and counts it -/
theorem offer_tries {kafka : Kafka X} {k : Nat} {h h' : List (Call X)} {s s' : Sends} {r : Record} {ok : Bool} (hk : k ≤ 19) (hh : Answered kafka h)
    (he : offer kafka k h s r = (h', s', ok)) :
    Answered kafka h' ∧ ∃ b, h' = h ++ b ∧ Tries r (waits r k ++ b) ok ∧ s'.sent = s.sent + (queued b).length ∧ (queued b).length = (if ok then 1 else 0) ∧
      s'.errors = s.errors + (if ok then 0 else 1) ∧ s'.retries = s.retries + sleeps b := by
  rw [offer] at he
  split at he
  · rename_i ha
    cases he
    exact ⟨hh.snoc (by rintro _ _ ⟨⟩; exact ha), _, rfl, .sent hk, rfl, rfl, rfl, rfl⟩
  · rename_i ha
    have h1 : Answered kafka (h ++ [.produce r .full]) := hh.snoc (by rintro _ _ ⟨⟩; exact ha)
    split at he
    · rename_i hm
      cases he
      have : k = 19 := by
        rcases Nat.lt_or_ge k 19 with h | h
        · have := Nat.pow_le_pow_right (n := 2) (by omega) (Nat.le_of_lt_succ h)
          unfold maxPolling at hm
          omega
        · omega
      subst this
      exact ⟨h1, _, rfl, .full, rfl, rfl, rfl, rfl⟩
    · rename_i hm
      have hk' : k + 1 ≤ 19 := by
        rcases Nat.lt_or_ge k 19 with h | h
        · exact h
        · have := Nat.pow_le_pow_right (n := 2) (by omega) h
          unfold maxPolling at hm
          omega
      have h2 : Answered kafka (h ++ [.produce r .full, .sleep (10 * 2 ^ k)]) := by
        rw [show h ++ [Call.produce r .full, .sleep (10 * 2 ^ k)] = (h ++ [.produce r .full]) ++ [.sleep (10 * 2 ^ k)] by simp]
        exact h1.snoc nofun
      obtain ⟨ha', b, rfl, hb, hs, ho, hes, hrs⟩ := offer_tries hk' h2 he
      refine ⟨ha', .produce r .full :: .sleep (10 * 2 ^ k) :: b, by simp, by simpa [waits] using hb, ?_, ?_, ?_, ?_⟩
      · simpa [queued] using hs
      · simpa [queued] using ho
      · exact hes
      · rw [hrs]
        simp [sleeps, List.countP_cons]
        omega
  · rename_i ha
    cases he
    exact ⟨hh.snoc (by rintro _ _ ⟨⟩; exact ha), _, rfl, .refused hk, rfl, rfl, rfl, rfl⟩
termination_by 20 - k

theorem queued_append (a b : List (Call X)) : queued (a ++ b) = queued a ++ queued b := List.filterMap_append

theorem Tries.queued {r : Record} {b : List (Call X)} {ok : Bool} (h : Tries r b ok) : queued b = if ok then [r] else [] := by
  cases h with
  | sent _ => rw [queued_append, waits_queued]; rfl
  | refused _ => rw [queued_append, waits_queued]; rfl
  | full => rw [queued_append, waits_queued]; rfl

theorem sleeps_append (a b : List (Call X)) : sleeps (a ++ b) = sleeps a + sleeps b := List.countP_append

end Verif.Publish
