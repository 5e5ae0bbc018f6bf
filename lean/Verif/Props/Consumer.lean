import Verif.Collector.Consumer
/-!
# Operations that are read from Kafka (C292, C293)
-/
namespace Verif.Props
open Verif.Consumer

/-! ## The specification -/

/-- whether an event is the last one -/
def Event.isLast {P : Type} : Event P → Bool
  | .shutdown | .closed | .unknownTopic => true
  | _ => false

/-- the payloads that come before the actor ends -/
def payloads {P : Type} (es : List (Event P)) : List P := (es.takeWhile (fun e => !Event.isLast e)).filterMap fun | .message p => p | _ => none

/-- the operations of payloads, as they are read one after the other -/
def operationsOf {H P Op : Type} (read : H → P → H × Option (List Op)) : H → List P → List Op
  | _, [] => []
  | h, p :: ps => ((read h p).2.getD []) ++ operationsOf read (read h p).1 ps

/-- what an actor was sent -/
def sentTo {H W Op : Type} (j : Nat) (s : State H W Op) : List Op := s.sent.filterMap fun x => if x.1 = j then some x.2 else none

/-- the world after a number of failed sends, with the waits between them -/
def worldAfter {W Op : Type} (env : Channels W Op) (j : Nat) (op : Op) (w : W) : Nat → W
  | 0 => w
  | n + 1 => env.wait (env.send (worldAfter env j op w n) j op).2 (10 * 2 ^ n)

/-- an actor that takes operations within twenty-one attempts, which is some ten seconds -/
def Takes {W Op : Type} (env : Channels W Op) (j : Nat) : Prop := ∀ w op, ∃ i ≤ 20, (env.send (worldAfter env j op w i) j op).1 = true

/-! ## One send -/

variable {H W P Op : Type}

theorem sendLoop_eq (env : Channels W Op) (j : Nat) (op : Op) (b : Nat) (hb : 0 < b) (w : W) : sendLoop env j op b hb w =
    if (env.send w j op).1 then ⟨true, 1, 0, (env.send w j op).2⟩ else if maxBackoff ≤ b then ⟨false, 1, 0, (env.send w j op).2⟩ else
      let r := sendLoop env j op (b * 2) (by omega) (env.wait (env.send w j op).2 b); ⟨r.ok, r.tries + 1, r.slept + b, r.world⟩ := by
  rw [sendLoop]
  cases h : env.send w j op with
  | mk a w' =>
    cases a with
    | true => simp
    | false => simp

theorem backoff_small {i : Nat} (h : i < 20) : ¬ maxBackoff ≤ 10 * 2 ^ i := by
  have : 2 ^ i ≤ 2 ^ 19 := Nat.pow_le_pow_right (by decide) (by omega)
  unfold maxBackoff
  omega

theorem backoff_great : maxBackoff ≤ 10 * 2 ^ 20 := by decide

theorem loop_bounds (env : Channels W Op) (j : Nat) (op : Op) (k : Nat) : ∀ i b hb w, i + k = 20 → b = 10 * 2 ^ i →
    (sendLoop env j op b hb w).tries ≤ k + 1 ∧ (sendLoop env j op b hb w).slept + b ≤ 10 * 2 ^ 20 ∧ 0 < (sendLoop env j op b hb w).tries := by
  induction k with
  | zero =>
    intro i b hb w hi e
    have : i = 20 := by omega
    subst this
    subst e
    rw [sendLoop_eq]
    split
    · simp
    · rw [if_pos backoff_great]; simp
  | succ k ih =>
    intro i b hb w hi e
    subst e
    rw [sendLoop_eq]
    split
    · have : 2 ^ i ≤ 2 ^ 20 := Nat.pow_le_pow_right (by decide) (by omega)
      simp only
      omega
    · rw [if_neg (backoff_small (by omega))]
      obtain ⟨h1, h2, h3⟩ := ih (i + 1) (10 * 2 ^ i * 2) (by omega) (env.wait (env.send w j op).2 (10 * 2 ^ i)) (by omega) (by rw [Nat.pow_succ]; omega)
      simp only
      omega

/-- C293: an operation is tried with an actor once at least, and twenty-one times at most, with waits of less than ten and a half seconds together. -/
theorem c293_bounded (env : Channels W Op) (j : Nat) (op : Op) (w : W) : 0 < (sendOne env j op w).tries ∧ (sendOne env j op w).tries ≤ 21 ∧ (sendOne env j op w).slept ≤ 10485750 := by
  obtain ⟨h1, h2, h3⟩ := loop_bounds env j op 20 0 10 (by decide) w (by decide) (by decide)
  unfold sendOne
  omega

theorem loop_ok (env : Channels W Op) (j : Nat) (op : Op) (w₀ : W) (k : Nat) : ∀ i b hb, i + k = 20 → b = 10 * 2 ^ i → ((sendLoop env j op b hb (worldAfter env j op w₀ i)).ok = true ↔ ∃ n, i ≤ n ∧ n ≤ 20 ∧ (env.send (worldAfter env j op w₀ n) j op).1 = true) := by
  induction k with
  | zero =>
    intro i b hb hi e
    have : i = 20 := by omega
    subst this
    subst e
    rw [sendLoop_eq]
    split
    · rename_i h; exact ⟨fun _ => ⟨20, by omega, by omega, h⟩, fun _ => rfl⟩
    · rename_i h
      rw [if_pos backoff_great]
      refine ⟨fun h => by (cases h), fun ⟨n, h1, h2, h3⟩ => ?_⟩
      have : n = 20 := by omega
      subst this
      exact absurd h3 h
  | succ k ih =>
    intro i b hb hi e
    subst e
    rw [sendLoop_eq]
    split
    · rename_i h; exact ⟨fun _ => ⟨i, by omega, by omega, h⟩, fun _ => rfl⟩
    · rename_i h
      rw [if_neg (backoff_small (by omega))]
      have := ih (i + 1) (10 * 2 ^ i * 2) (by omega) (by omega) (by rw [Nat.pow_succ]; omega)
      simp only [worldAfter] at this
      simp only [this]
      refine ⟨fun ⟨n, h1, h2, h3⟩ => ⟨n, by omega, h2, h3⟩, fun ⟨n, h1, h2, h3⟩ => ⟨n, ?_, h2, h3⟩⟩
      rcases Nat.lt_or_ge i n with hn | hn
      · exact hn
      · have : n = i := by omega
        subst this
        exact absurd h3 h

/-- C293: an operation is sent if one of the twenty-one attempts succeeds, and only then. -/
theorem c293_attempts (env : Channels W Op) (j : Nat) (op : Op) (w : W) : (sendOne env j op w).ok = true ↔ ∃ i ≤ 20, (env.send (worldAfter env j op w i) j op).1 = true := by
  have := loop_ok env j op w 20 0 10 (by decide) (by decide) (by decide)
  unfold sendOne
  simpa [worldAfter] using this

/-! ## All sends -/

theorem sendTo_sent (env : Channels W Op) (op : Op) (s : State H W Op) (j : Nat) : (sendTo env op s j).sent = s.sent ++ (if (sendOne env j op s.world).ok then [(j, op)] else []) ∧ (sendTo env op s j).failed = s.failed + (if (sendOne env j op s.world).ok then 0 else 1) ∧ (sendTo env op s j).handler = s.handler := by
  unfold sendTo
  split <;> simp [*]

theorem row_sent (env : Channels W Op) (op : Op) (l : List Nat) (s : State H W Op) (j : Nat) (hj : Takes env j) (hl : l.Nodup) :
    sentTo j (l.foldl (sendTo env op) s) = sentTo j s ++ (if j ∈ l then [op] else []) := by
  induction l generalizing s with
  | nil => simp
  | cons k l ih =>
    obtain ⟨h1, h2⟩ := List.nodup_cons.mp hl
    rw [List.foldl_cons, ih _ h2]
    by_cases h : k = j
    · subst h
      have hok := (c293_attempts env k op s.world).mpr (hj _ _)
      simp [sentTo, (sendTo_sent env op s k).1, hok, h1]
    · have : sentTo j (sendTo env op s k) = sentTo j s := by
        unfold sentTo
        rw [(sendTo_sent env op s k).1]
        split <;> simp [h]
      rw [this]
      simp [show ¬ j = k from fun e => h e.symm]

theorem all_sent (env : Channels W Op) (handles : Nat) (ops : List Op) (s : State H W Op) (j : Nat) (hj : Takes env j) (h : j < handles) :
    sentTo j (sendAll env handles s ops) = sentTo j s ++ ops := by
  unfold sendAll
  induction ops generalizing s with
  | nil => simp
  | cons op ops ih => rw [List.foldl_cons, ih, row_sent env op _ _ j hj List.nodup_range, if_pos (List.mem_range.mpr h), List.append_assoc]; rfl

theorem row_part (env : Channels W Op) (op : Op) (l : List Nat) (s : State H W Op) (j : Nat) (hl : l.Nodup) :
    ∃ t, sentTo j (l.foldl (sendTo env op) s) = sentTo j s ++ t ∧ t.Sublist [op] ∧ (j ∉ l → t = []) := by
  induction l generalizing s with
  | nil => exact ⟨[], by simp, by simp, fun _ => rfl⟩
  | cons k l ih =>
    obtain ⟨h1, h2⟩ := List.nodup_cons.mp hl
    rw [List.foldl_cons]
    obtain ⟨t, e, ht, hn⟩ := ih (sendTo env op s k) h2
    by_cases h : k = j
    · subst h
      rw [hn h1, List.append_nil] at e
      refine ⟨if (sendOne env k op s.world).ok then [op] else [], ?_, ?_, fun hc => absurd List.mem_cons_self hc⟩
      · rw [e]
        unfold sentTo
        rw [(sendTo_sent env op s k).1]
        split <;> simp
      · split <;> simp
    · refine ⟨t, ?_, ht, fun hc => hn (fun hm => hc (List.mem_cons_of_mem _ hm))⟩
      rw [e]
      congr 1
      unfold sentTo
      rw [(sendTo_sent env op s k).1]
      split <;> simp [h]

theorem all_part (env : Channels W Op) (handles : Nat) (ops : List Op) (s : State H W Op) (j : Nat) : ∃ t, sentTo j (sendAll env handles s ops) = sentTo j s ++ t ∧ t.Sublist ops := by
  unfold sendAll
  induction ops generalizing s with
  | nil => exact ⟨[], by simp, by simp⟩
  | cons op ops ih =>
    rw [List.foldl_cons]
    obtain ⟨t, e, ht, -⟩ := row_part env op (List.range handles) s j List.nodup_range
    obtain ⟨u, e', hu⟩ := ih ((List.range handles).foldl (sendTo env op) s)
    exact ⟨t ++ u, by rw [e', e, List.append_assoc], by simpa using ht.append hu⟩

theorem fold_handler (env : Channels W Op) (handles : Nat) (ops : List Op) (s : State H W Op) : (sendAll env handles s ops).handler = s.handler := by
  have h : ∀ (l : List Nat) (op : Op) (s : State H W Op), (l.foldl (sendTo env op) s).handler = s.handler := by
    intro l op
    induction l with
    | nil => intro s; rfl
    | cons k l ih => intro s; rw [List.foldl_cons, ih]; exact (sendTo_sent env op s k).2.2
  unfold sendAll
  induction ops generalizing s with
  | nil => rfl
  | cons op ops ih => rw [List.foldl_cons, ih, h]

theorem run_cons (env : Channels W Op) (read : H → P → H × Option (List Op)) (handles : Nat) (s : State H W Op) (e : Event P) (es : List (Event P)) :
    run env read handles s (e :: es) = match step env read handles s e with | (s, some d) => (s, some d) | (s, none) => run env read handles s es := rfl

/-- C292: an actor that takes operations within the time gets all operations of all messages that come before the end, each once, in their order, whatever other actors do and whatever errors are between. -/
theorem c292_all (env : Channels W Op) (read : H → P → H × Option (List Op)) (handles : Nat) {j : Nat} (h : j < handles) (hj : Takes env j) (es : List (Event P)) (s : State H W Op) :
    sentTo j (run env read handles s es).1 = sentTo j s ++ operationsOf read s.handler (payloads es) := by
  induction es generalizing s with
  | nil => simp [run, payloads, operationsOf]
  | cons e es ih =>
    rw [run_cons]
    cases e with
    | shutdown => simp [step, payloads, Event.isLast, operationsOf]
    | closed => simp [step, payloads, Event.isLast, operationsOf]
    | unknownTopic => simp [step, payloads, Event.isLast, operationsOf, sentTo]
    | brokersDown n => simp only [step]; rw [ih]; simp [payloads, Event.isLast, sentTo]
    | fatal n => simp only [step]; rw [ih]; simp [payloads, Event.isLast, sentTo]
    | error => simp only [step]; rw [ih]; simp [payloads, Event.isLast, sentTo]
    | message p =>
      cases p with
      | none => simp only [step]; rw [ih]; simp [payloads, Event.isLast, sentTo]
      | some p =>
        have hp : payloads (.message (some p) :: es) = p :: payloads es := by simp [payloads, Event.isLast]
        rw [hp]
        simp only [step, operationsOf]
        cases hr : read s.handler p with
        | mk g o =>
          cases o with
          | none => simp only; rw [ih]; simp [sentTo]
          | some ops => simp only; rw [ih, all_sent env handles ops _ j hj h, fold_handler]; simp [sentTo]

/-- C292: an actor that does not take them in time misses those operations, but gets no others, none twice, and none in another order. -/
theorem c292_part (env : Channels W Op) (read : H → P → H × Option (List Op)) (handles j : Nat) (es : List (Event P)) (s : State H W Op) :
    ∃ t, sentTo j (run env read handles s es).1 = sentTo j s ++ t ∧ t.Sublist (operationsOf read s.handler (payloads es)) := by
  induction es generalizing s with
  | nil => exact ⟨[], by simp [run], by simp⟩
  | cons e es ih =>
    rw [run_cons]
    cases e with
    | shutdown => exact ⟨[], by simp [step], by simp⟩
    | closed => exact ⟨[], by simp [step], by simp⟩
    | unknownTopic => exact ⟨[], by simp [step, sentTo], by simp⟩
    | brokersDown n => exact ih _
    | fatal n => exact ih _
    | error => exact ih _
    | message p =>
      cases p with
      | none => exact ih _
      | some p =>
        have hp : payloads (.message (some p) :: es) = p :: payloads es := by simp [payloads, Event.isLast]
        rw [hp]
        simp only [step, operationsOf]
        cases hr : read s.handler p with
        | mk g o =>
          cases o with
          | none => simp only [Option.getD_none, List.nil_append]; exact ih _
          | some ops =>
            simp only [Option.getD_some]
            obtain ⟨t, e1, h1⟩ := all_part env handles ops { s with received := s.received + 1, handler := g, generated := s.generated + ops.length } j
            obtain ⟨u, e2, h2⟩ := ih (sendAll env handles { s with received := s.received + 1, handler := g, generated := s.generated + ops.length } ops)
            rw [fold_handler] at h2
            exact ⟨t ++ u, by rw [e2, e1, List.append_assoc]; rfl, h1.append h2⟩

/-- C292: the actor ends with the first command, and with an error if the topic does not exist; it does not end otherwise, and nothing behind matters. -/
theorem c292_end (env : Channels W Op) (read : H → P → H × Option (List Op)) (handles : Nat) (es : List (Event P)) (s : State H W Op) :
    (run env read handles s es).2 = (es.find? Event.isLast).map (fun | .unknownTopic => .error | _ => .command) ∧
    ∀ a e b, es = a ++ e :: b → Event.isLast e → run env read handles s es = run env read handles s (a ++ [e]) := by
  refine ⟨?_, ?_⟩
  · induction es generalizing s with
    | nil => rfl
    | cons e es ih =>
      rw [run_cons]
      cases e with
      | shutdown => rfl
      | closed => rfl
      | unknownTopic => rfl
      | brokersDown n => exact ih _
      | fatal n => exact ih _
      | error => exact ih _
      | message p =>
        cases p with
        | none => exact ih _
        | some p =>
          simp only [step]
          cases read s.handler p with
          | mk g o => cases o <;> exact ih _
  · intro a e b h he
    subst h
    induction a generalizing s with
    | nil =>
      rw [List.nil_append, List.nil_append, run_cons, run_cons]
      cases e <;> first | rfl | cases he
    | cons x a ih =>
      rw [List.cons_append, List.cons_append, run_cons, run_cons]
      cases step env read handles s x with
      | mk s' o => cases o with
        | none => exact ih s'
        | some d => rfl

theorem row_counted (env : Channels W Op) (op : Op) (l : List Nat) (s : State H W Op) : (l.foldl (sendTo env op) s).sent.length + (l.foldl (sendTo env op) s).failed = s.sent.length + s.failed + l.length ∧ (l.foldl (sendTo env op) s).generated = s.generated := by
  induction l generalizing s with
  | nil => simp
  | cons k l ih =>
    rw [List.foldl_cons]
    obtain ⟨h1, h2⟩ := ih (sendTo env op s k)
    obtain ⟨h3, h4, -⟩ := sendTo_sent env op s k
    rw [h1, h2, h3, h4]
    refine ⟨?_, rfl⟩
    split <;> simp <;> omega

theorem all_counted (env : Channels W Op) (handles : Nat) (ops : List Op) (s : State H W Op) : (sendAll env handles s ops).sent.length + (sendAll env handles s ops).failed = s.sent.length + s.failed + ops.length * handles ∧ (sendAll env handles s ops).generated = s.generated := by
  unfold sendAll
  induction ops generalizing s with
  | nil => simp
  | cons op ops ih =>
    rw [List.foldl_cons]
    obtain ⟨h1, h2⟩ := ih ((List.range handles).foldl (sendTo env op) s)
    obtain ⟨h3, h4⟩ := row_counted env op (List.range handles) s
    rw [h1, h2, h3, h4, List.length_range, List.length_cons, Nat.succ_mul]
    exact ⟨by omega, rfl⟩

/-- C293: every operation is counted as generated, and for every actor it is either sent or counted as failed. -/
theorem c293_counted (env : Channels W Op) (read : H → P → H × Option (List Op)) (handles : Nat) (es : List (Event P)) (s : State H W Op) (h : s.sent.length + s.failed = s.generated * handles) :
    (run env read handles s es).1.sent.length + (run env read handles s es).1.failed = (run env read handles s es).1.generated * handles ∧
    (run env read handles s es).1.generated = s.generated + (operationsOf read s.handler (payloads es)).length := by
  induction es generalizing s with
  | nil => exact ⟨h, by simp [run, payloads, operationsOf]⟩
  | cons e es ih =>
    rw [run_cons]
    cases e with
    | shutdown => exact ⟨h, by simp [step, payloads, Event.isLast, operationsOf]⟩
    | closed => exact ⟨h, by simp [step, payloads, Event.isLast, operationsOf]⟩
    | unknownTopic => exact ⟨h, by simp [step, payloads, Event.isLast, operationsOf]⟩
    | brokersDown n => exact ih _ h
    | fatal n => exact ih _ h
    | error => exact ih _ h
    | message p =>
      cases p with
      | none => exact ih _ h
      | some p =>
        have hp : payloads (.message (some p) :: es) = p :: payloads es := by simp [payloads, Event.isLast]
        rw [hp]
        simp only [step, operationsOf]
        cases hr : read s.handler p with
        | mk g o =>
          cases o with
          | none => simp only [Option.getD_none, List.nil_append]; exact ih _ h
          | some ops =>
            simp only [Option.getD_some]
            obtain ⟨h1, h2⟩ := all_counted env handles ops { s with received := s.received + 1, handler := g, generated := s.generated + ops.length }
            simp only at h1 h2
            obtain ⟨h3, h4⟩ := ih (sendAll env handles { s with received := s.received + 1, handler := g, generated := s.generated + ops.length } ops) (by rw [h1, h2, Nat.add_mul, h])
            rw [fold_handler] at h4
            refine ⟨h3, ?_⟩
            rw [h4, h2, List.length_append]
            simp only
            omega

/-- C293 is false of commands: while the brokers are down, the actor waits a minute and more for each attempt, and a command to stop that comes meanwhile is not seen before an attempt succeeds; there is no bound on that. -/
theorem c293_command_disproved (env : Channels W Op) (read : H → P → H × Option (List Op)) (handles : Nat) (s : State H W Op) (limit : Nat) :
    ∃ n, (run env read handles s [.brokersDown n, .shutdown]).2 = some .command ∧ s.slept + limit < (run env read handles s [.brokersDown n, .shutdown]).1.slept := by
  refine ⟨limit, rfl, ?_⟩
  simp only [run, step]
  omega

/-! ## A case -/

/-- two actors, of which the first fails at first, and the second always -/
def flaky : Channels Nat String := ⟨fun w j _ => (j = 0 ∧ 30 ≤ w, w), fun w t => w + t⟩

example : Takes flaky 0 := by
  intro w op
  refine ⟨2, by decide, ?_⟩
  simp [worldAfter, flaky]

example : ¬ Takes flaky 1 := by
  intro h
  obtain ⟨i, -, h⟩ := h 0 "x"
  simp [flaky] at h

/-- messages are lists of operations, or not to be read -/
def readList (h : Nat) (p : Option (List String)) : Nat × Option (List String) := (h + 1, p)

example : operationsOf readList 0 (payloads [.message (some (some ["a", "b"])), .message none, .brokersDown 2, .message (some none), .message (some (some ["c"])), .shutdown, .message (some (some ["d"]))]) = ["a", "b", "c"] := by decide

end Verif.Props
