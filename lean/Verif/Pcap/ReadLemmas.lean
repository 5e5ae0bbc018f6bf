import Verif.Pcap.Spec
/-!
# Reading a capture
-/
namespace Verif.Pcap
open Verif

theorem isVlan_iff (t : UInt16) : isVlan t = true ↔ IsTag t := by
  simp [isVlan, IsTag, or_assoc]

theorem stripFrom_succ (n : Nat) {t : UInt16} {b : Bytes} (hv : isVlan t = true) (h : 4 ≤ b.length) :
    stripFrom (n + 1) t b = stripFrom n (u16of ((b.drop 2).take 2)) (b.drop 4) := by
  rw [stripFrom, if_neg (by simp [hv]), if_neg (by omega)]

/-- tags are taken off, up to one less than the rounds -/
theorem stripFrom_tagged (n : Nat) (ts : List (UInt16 × UInt16)) (t : UInt16) (b : Bytes) (hts : ∀ x ∈ ts, IsTag x.1) (ht : ¬ IsTag t) :
    stripFrom n (tagged ts t b).1 (tagged ts t b).2 = if ts.length < n then some (t, b) else none := by
  induction ts generalizing n with
  | nil =>
    cases n with
    | zero => rfl
    | succ n =>
      have : isVlan t = false := by rw [Bool.eq_false_iff, ne_eq, isVlan_iff]; exact ht
      simp [stripFrom, tagged, this]
  | cons x ts ih =>
    obtain ⟨tpid, tci⟩ := x
    cases n with
    | zero => rfl
    | succ n =>
      have hv : isVlan tpid = true := by rw [isVlan_iff]; exact hts _ List.mem_cons_self
      simp only [tagged]
      rw [stripFrom_succ n hv (by simp only [List.length_append, u16be, length_beBytes]; omega)]
      have h1 : ((u16be tci ++ (u16be (tagged ts t b).1 ++ (tagged ts t b).2)).drop 2).take 2 = u16be (tagged ts t b).1 := rfl
      have h2 : (u16be tci ++ (u16be (tagged ts t b).1 ++ (tagged ts t b).2)).drop 4 = (tagged ts t b).2 := rfl
      rw [h1, h2, u16of_u16be, ih n (fun x hx => hts x (List.mem_cons_of_mem _ hx))]
      simp only [List.length_cons, Nat.add_lt_add_iff_right]

/-! ## The iterator goes through the events -/

theorem next_eq (lib : Lib) (it : Iter) : it.next lib = nextFrom lib it.events it.links it.frames := rfl

theorem readAll_none {lib : Lib} {it it' : Iter} (h : it.next lib = (.ok none, it')) : readAll lib it = ([], true) := by
  rw [readAll]; split <;> simp_all

theorem readAll_some {lib : Lib} {it it' : Iter} {i : Item} (h : it.next lib = (.ok (some i), it')) :
    readAll lib it = ((it'.frames, i) :: (readAll lib it').1, (readAll lib it').2) := by
  rw [readAll]; split <;> simp_all

theorem readAll_fault {lib : Lib} {it it' : Iter} {f : Fault} (h : it.next lib = (.fault f, it')) : readAll lib it = ([], false) := by
  rw [readAll]; split <;> simp_all

/-- reading depends on what the first call returns -/
theorem readAll_congr {lib : Lib} {it it2 : Iter} (h : it.next lib = it2.next lib) : readAll lib it = readAll lib it2 := by
  rcases hn : it.next lib with ⟨x | e | f, it'⟩
  · cases x with
    | none => rw [readAll_none hn, readAll_none (h ▸ hn)]
    | some i => rw [readAll_some hn, readAll_some (it := it2) (h ▸ hn)]
  · exact e.elim
  · rw [readAll_fault hn, readAll_fault (h ▸ hn)]

/-- one event: what it does -/
theorem next_event (lib : Lib) (pre : List Event) (e : Event) (post : List Event) :
    nextFrom lib (e :: post) (linksIn pre) (framesIn pre) =
      match outcomeAt lib (pre ++ e :: post) pre.length with
      | .ok none => nextFrom lib post (linksIn (pre ++ [e])) (framesIn (pre ++ [e]))
      | .ok (some i) => (.ok (some i), ⟨post, linksIn (pre ++ [e]), framesIn (pre ++ [e])⟩)
      | .err x => (.err x, ⟨post, linksIn (pre ++ [e]), framesIn (pre ++ [e])⟩)
      | .fault f => (.fault f, ⟨post, linksIn (pre ++ [e]), framesIn (pre ++ [e])⟩) := by
  have h0 : (pre ++ e :: post)[pre.length]? = some e := by simp
  have ht : (pre ++ e :: post).take pre.length = pre := by simp
  have hl : linksIn (pre ++ [e]) = linksIn pre ++ (match e.link? with | some l => [l] | none => []) := by
    simp only [linksIn, List.filterMap_append]
    congr 1
    cases h : e.link? <;> simp [h]
  have hf : framesIn (pre ++ [e]) = framesIn pre + (if e.frame?.isSome then 1 else 0) := by
    simp only [framesIn, List.countP_append]
    congr 1
    cases h : e.frame? <;> simp [h]
  unfold outcomeAt
  rw [h0, ht, hl, hf]
  cases e
  case legacy d c =>
    simp only [nextFrom, Event.link?, Event.frame?, List.append_nil, Option.isSome_some, if_true]
    cases hx : (linksIn pre)[0]? with
    | none => simp
    | some l =>
      simp only
      rcases hp : parsePacket lib (lib.link l d c) with (_ | i) | x | f <;> simp
  case enhanced k d c =>
    simp only [nextFrom, Event.link?, Event.frame?, List.append_nil, Option.isSome_some, if_true]
    cases hx : (linksIn pre)[k]? with
    | none => simp
    | some l =>
      simp only
      rcases hp : parsePacket lib (lib.link l d c) with (_ | i) | x | f <;> simp
  all_goals simp [nextFrom, Event.link?, Event.frame?]

theorem readAll_event (lib : Lib) (pre : List Event) (e : Event) (post : List Event) :
    readAll lib ⟨e :: post, linksIn pre, framesIn pre⟩ =
      match outcomeAt lib (pre ++ e :: post) pre.length with
      | .ok none => readAll lib ⟨post, linksIn (pre ++ [e]), framesIn (pre ++ [e])⟩
      | .ok (some i) => ((framesIn (pre ++ [e]), i) :: (readAll lib ⟨post, linksIn (pre ++ [e]), framesIn (pre ++ [e])⟩).1,
          (readAll lib ⟨post, linksIn (pre ++ [e]), framesIn (pre ++ [e])⟩).2)
      | _ => ([], false) := by
  have h := next_event lib pre e post
  cases ho : outcomeAt lib (pre ++ e :: post) pre.length with
  | ok x =>
    rw [ho] at h
    cases x with
    | none =>
      simp only at h ⊢
      exact readAll_congr h
    | some i => simp only at h ⊢; exact readAll_some (it := ⟨e :: post, linksIn pre, framesIn pre⟩) h
  | err x => exact x.elim
  | fault f => rw [ho] at h; simp only at h ⊢; exact readAll_fault (it := ⟨e :: post, linksIn pre, framesIn pre⟩) h

/-- all events, as long as none of them makes reading panic -/
theorem readAll_range (lib : Lib) (post pre : List Event) (m : Nat) (hm : m ≤ post.length)
    (hok : ∀ k, pre.length ≤ k → k < pre.length + m → (outcomeAt lib (pre ++ post) k).isFault = false) :
    readAll lib ⟨post, linksIn pre, framesIn pre⟩ =
      let rest := readAll lib ⟨post.drop m, linksIn (pre ++ post.take m), framesIn (pre ++ post.take m)⟩
      (((List.range' pre.length m).filterMap (foundAt lib (pre ++ post))) ++ rest.1, rest.2) := by
  induction m generalizing pre post with
  | zero => simp
  | succ m ih =>
    cases post with
    | nil => simp at hm
    | cons e post =>
      have h1 := ih post (pre ++ [e]) (by simpa using hm) (by
        intro k hk hk'
        simp only [List.length_append, List.length_cons, List.length_nil] at hk hk'
        have := hok k (by omega) (by omega)
        simpa using this)
      have h0 := hok pre.length (by omega) (by omega)
      rw [readAll_event]
      simp only [List.length_append, List.length_cons, List.length_nil, Nat.zero_add, List.append_assoc, List.cons_append, List.nil_append] at h1
      have hf : foundAt lib (pre ++ e :: post) pre.length = match outcomeAt lib (pre ++ e :: post) pre.length with
          | .ok (some i) => some (framesIn (pre ++ [e]), i)
          | _ => none := by
        unfold foundAt
        have : (pre ++ e :: post).take (pre.length + 1) = pre ++ [e] := by rw [List.take_length_add_append]; rfl
        rw [this]
        rcases outcomeAt lib (pre ++ e :: post) pre.length with (_ | i) | x | f <;> rfl
      rw [List.range'_succ, List.filterMap_cons, hf]
      cases ho : outcomeAt lib (pre ++ e :: post) pre.length with
      | ok x =>
        cases x with
        | none => simp only [h1]; simp
        | some i => simp only [h1]; simp
      | err x => exact x.elim
      | fault f => rw [ho] at h0; simp at h0

end Verif.Pcap
