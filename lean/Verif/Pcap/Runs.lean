import Verif.Pcap.Wire
import Verif.Collector.Lemmas
/-!
# Decoding the packets of a capture
-/
namespace Verif.Pcap
open Verif Collector

variable {σ ε α J : Type}

/-! ## What is said about runs -/

/-- the results of packets with the numbers of their frames and their flows, until the decoding of one of them does not end well -/
def Handler.decodeAll (h : Handler σ ε α J) : List (Nat × Item) → Peers σ → List (Nat × Flow × Res ε α) × Stop
  | [], _ => ([], .done)
  | (n, i) :: is, t =>
    match h.decode i t with
    | (rs, .done, t') => (rs.map (fun x => (n, i.flow, x)) ++ (decodeAll h is t').1, (decodeAll h is t').2)
    | (_, st, _) => ([], st)

/-- the lines of results, until one of them panics -/
def Handler.linesOf (h : Handler σ ε α J) (c : Config) : List (Nat × Flow × Res ε α) → List (Option Nat × J) × Bool
  | [] => ([], true)
  | (n, f, x) :: rs =>
    match h.line f x with
    | .ok j => ((if c.showFrame then some n else none, j) :: (linesOf h c rs).1, (linesOf h c rs).2)
    | _ => ([], false)

/-- the packets that are decoded: those of the frames up to the limit -/
def Config.within (c : Config) (x : Nat × Item) : Bool :=
  match c.inputSize with
  | none => true
  | some m => decide (x.1 ≤ m)

/-- a packet that a handler decodes -/
def Handler.takes (h : Handler σ ε α J) (i : Item) : Bool := decide (i.proto = h.proto ∧ i.flow.dport ∈ h.ports)

/-! ## Runs are the reader and the handler one after the other -/

theorem linesOf_ok {h : Handler σ ε α J} {c : Config} {n : Nat} {f : Flow} {x : Res ε α} {rs : List (Nat × Flow × Res ε α)} {j : J} (hj : h.line f x = .ok j) :
    h.linesOf c ((n, f, x) :: rs) = ((if c.showFrame then some n else none, j) :: (h.linesOf c rs).1, (h.linesOf c rs).2) := by
  simp only [Handler.linesOf, hj]

theorem linesOf_fault {h : Handler σ ε α J} {c : Config} {n : Nat} {f : Flow} {x : Res ε α} {rs : List (Nat × Flow × Res ε α)} {e : Fault}
    (hj : h.line f x = .fault e) : h.linesOf c ((n, f, x) :: rs) = ([], false) := by
  simp only [Handler.linesOf, hj]

theorem linesOf_append (h : Handler σ ε α J) (c : Config) (a b : List (Nat × Flow × Res ε α)) :
    h.linesOf c (a ++ b) = if (h.linesOf c a).2 then ((h.linesOf c a).1 ++ (h.linesOf c b).1, (h.linesOf c b).2) else h.linesOf c a := by
  induction a with
  | nil => simp [Handler.linesOf]
  | cons x a ih =>
    obtain ⟨n, f, x⟩ := x
    rw [List.cons_append]
    rcases hj : h.line f x with j | e | f'
    · rw [linesOf_ok hj, linesOf_ok hj, ih]
      cases hb : (h.linesOf c a).2 <;> simp [hb]
    · exact e.elim
    · rw [linesOf_fault hj, linesOf_fault hj]; simp

theorem writeLines_eq (h : Handler σ ε α J) (c : Config) (n : Nat) (f : Flow) (rs : List (Res ε α)) :
    writeLines (h.line f) (if c.showFrame then some n else none) rs = h.linesOf c (rs.map fun x => (n, f, x)) := by
  induction rs with
  | nil => rfl
  | cons x rs ih =>
    rw [List.map_cons]
    rcases hj : h.line f x with j | e | f'
    · rw [linesOf_ok hj, ← ih]; simp only [writeLines, hj]
    · exact e.elim
    · rw [linesOf_fault hj]; simp only [writeLines, hj]

theorem over_within (c : Config) (x : Nat × Item) : c.over x.1 = !c.within x := by
  unfold Config.over Config.within
  cases c.inputSize with
  | none => rfl
  | some m =>
    simp only
    by_cases h : x.1 ≤ m
    · have h2 : ¬ x.1 > m := by omega
      simp [h, h2]
    · have h2 : x.1 > m := by omega
      simp [h, h2]

theorem process_none {lib : Lib} {c : Config} {h : Handler σ ε α J} {it it' : Iter} {t : Peers σ} (hn : it.next lib = (.ok none, it')) :
    process lib c h it t = ([], .finished) := by
  rw [process]; split <;> simp_all

theorem process_fault {lib : Lib} {c : Config} {h : Handler σ ε α J} {it it' : Iter} {t : Peers σ} {f : Fault} (hn : it.next lib = (.fault f, it')) :
    process lib c h it t = ([], .panicked) := by
  rw [process]; split <;> simp_all

theorem process_some {lib : Lib} {c : Config} {h : Handler σ ε α J} {it it' : Iter} {t : Peers σ} {i : Item} (hn : it.next lib = (.ok (some i), it')) :
    process lib c h it t =
      if c.over it'.frames then ([], .finished)
      else
        match h.decode i t with
        | (rs, .done, t') =>
          match writeLines (h.line i.flow) (if c.showFrame then some it'.frames else none) rs with
          | (ls, true) => (ls ++ (process lib c h it' t').1, (process lib c h it' t').2)
          | (ls, false) => (ls, .panicked)
        | (_, .panic, _) => ([], .panicked)
        | (_, .stuck, _) => ([], .stuck) := by
  rw [process]; split
  · simp_all
  · rename_i i' it2 hn'
    rw [hn] at hn'
    simp only [Prod.mk.injEq, Res.ok.injEq, Option.some.injEq] at hn'
    obtain ⟨rfl, rfl⟩ := hn'
    rfl
  · simp_all

/-- how a run ends: by a line that panics, by the decoding of a packet, or by the reader unless the limit came first -/
def endOf (lines : Bool) (st : Stop) (rest : Bool) : End :=
  if !lines then .panicked
  else match st with
    | .panic => .panicked
    | .stuck => .stuck
    | .done => if rest then .finished else .panicked

theorem process_eq (lib : Lib) (c : Config) (h : Handler σ ε α J) (n : Nat) (it : Iter) (hit : it.events.length ≤ n) (t : Peers σ) :
    process lib c h it t =
      let items := (readAll lib it).1
      let r := h.decodeAll (items.takeWhile c.within) t
      ((h.linesOf c r.1).1, endOf (h.linesOf c r.1).2 r.2 ((readAll lib it).2 || decide ((items.takeWhile c.within).length < items.length))) := by
  induction n generalizing it t with
  | zero =>
    have : it.next lib = (.ok none, ⟨[], it.links, it.frames⟩) := by
      rw [next_eq]
      have : it.events = [] := List.length_eq_zero_iff.1 (by omega)
      rw [this]; rfl
    rw [process_none this, readAll_none this]
    rfl
  | succ n ih =>
    rcases hn : it.next lib with ⟨x | e | f, it'⟩
    · cases x with
      | none => rw [process_none hn, readAll_none hn]; rfl
      | some i =>
        have hlt := nextFrom_lt hn
        have hi := ih it' (by omega)
        rw [process_some hn, readAll_some hn]
        simp only [List.takeWhile_cons, over_within c (it'.frames, i)]
        cases hw : c.within (it'.frames, i) with
        | false => simp [Handler.decodeAll, Handler.linesOf, endOf]
        | true =>
          simp only [Bool.not_true, Bool.false_eq_true, if_false, if_true]
          simp only [Handler.decodeAll]
          rcases hd : h.decode i t with ⟨rs, st, t'⟩
          cases st with
          | panic => simp [Handler.linesOf, endOf]
          | stuck => simp [Handler.linesOf, endOf]
          | done =>
            simp only
            rw [writeLines_eq, linesOf_append]
            rcases hl : h.linesOf c (rs.map fun x => (it'.frames, i.flow, x)) with ⟨ls, _ | _⟩
            · simp [endOf]
            · simp only [if_true, hi]
              simp
    · exact e.elim
    · rw [process_fault hn, readAll_fault hn]; rfl

theorem load_eq (lib : Lib) (c : Config) (h : Handler σ ε α J) (es : List Event) :
    load lib c h es =
      let items := (readAll lib (.new es)).1
      let r := h.decodeAll (items.takeWhile c.within) []
      ((h.linesOf c r.1).1, endOf (h.linesOf c r.1).2 r.2 ((readAll lib (.new es)).2 || decide ((items.takeWhile c.within).length < items.length))) :=
  process_eq lib c h _ _ (Nat.le_refl _) []

/-! ## The flows -/

theorem decode_skip {h : Handler σ ε α J} {i : Item} (hi : h.takes i = false) (t : Peers σ) : h.decode i t = ([], .done, t) := by
  unfold Handler.decode
  rw [if_neg (by simpa [Handler.takes] using hi)]

theorem decode_take {h : Handler σ ε α J} {i : Item} (hi : h.takes i = true) (t : Peers σ) :
    h.decode i t = ((decodeBuffer h.dec (h.entry t i.flow).1 ((h.entry t i.flow).2 ++ i.payload)).1,
      (decodeBuffer h.dec (h.entry t i.flow).1 ((h.entry t i.flow).2 ++ i.payload)).2.1,
      put t i.flow (decodeBuffer h.dec (h.entry t i.flow).1 ((h.entry t i.flow).2 ++ i.payload)).2.2) := by
  unfold Handler.decode
  rw [if_pos (by simpa [Handler.takes] using hi)]

theorem entry_put (h : Handler σ ε α J) (t : Peers σ) (k k' : Flow) (x : σ × Bytes) :
    h.entry (put t k x) k' = if k' = k then x else h.entry t k' := by
  unfold Handler.entry
  rw [lookup_put]
  by_cases hk : k = k'
  · rw [if_pos hk, if_pos hk.symm]; rfl
  · rw [if_neg hk, if_neg (Ne.symm hk)]

/-- what a run makes of the packets of a flow depends only on them -/
theorem decodeAll_flow (h : Handler σ ε α J) (k : Flow) (is : List (Nat × Item)) (t t' : Peers σ) (ht : h.entry t k = h.entry t' k)
    (hd : (h.decodeAll is t).2 = .done) :
    (h.decodeAll (is.filter fun x => decide (x.2.flow = k)) t').2 = .done ∧
    (h.decodeAll is t).1.filter (fun x => decide (x.2.1 = k)) = (h.decodeAll (is.filter fun x => decide (x.2.flow = k)) t').1 := by
  induction is generalizing t t' with
  | nil => exact ⟨rfl, rfl⟩
  | cons x is ih =>
    obtain ⟨n, i⟩ := x
    simp only [Handler.decodeAll] at hd ⊢
    rcases hx : h.decode i t with ⟨rs, st, t1⟩
    rw [hx] at hd
    cases st with
    | panic => simp at hd
    | stuck => simp at hd
    | done =>
      simp only at hd ⊢
      by_cases hk : i.flow = k
      · have hf : ((n, i) :: is).filter (fun x => decide (x.2.flow = k)) = (n, i) :: is.filter (fun x => decide (x.2.flow = k)) := by simp [hk]
        rw [hf]
        simp only [Handler.decodeAll]
        cases hi : h.takes i with
        | false =>
          rw [decode_skip hi] at hx ⊢
          simp only [Prod.mk.injEq, true_and] at hx
          obtain ⟨rfl, rfl⟩ := hx
          simpa using ih t t' ht hd
        | true =>
          rw [decode_take hi] at hx ⊢
          rw [hk] at hx ⊢
          rw [← ht]
          simp only [Prod.mk.injEq] at hx
          obtain ⟨h1, h2, h3⟩ := hx
          rw [h1, h2]
          simp only
          have := ih t1 (put t' k (decodeBuffer h.dec (h.entry t k).1 ((h.entry t k).2 ++ i.payload)).2.2) (by rw [← h3, entry_put, entry_put, if_pos rfl, if_pos rfl]) hd
          refine ⟨this.1, ?_⟩
          rw [List.filter_append, this.2]
          congr 1
          rw [List.filter_eq_self]
          intro x hx
          obtain ⟨y, _, rfl⟩ := List.mem_map.1 hx
          simp
      · have hf : ((n, i) :: is).filter (fun x => decide (x.2.flow = k)) = is.filter (fun x => decide (x.2.flow = k)) := by simp [hk]
        rw [hf]
        have he : h.entry t1 k = h.entry t' k := by
          cases hi : h.takes i with
          | false =>
            rw [decode_skip hi] at hx
            simp only [Prod.mk.injEq, true_and] at hx
            rw [← hx.2]; exact ht
          | true =>
            rw [decode_take hi] at hx
            simp only [Prod.mk.injEq] at hx
            rw [← hx.2.2, entry_put, if_neg (Ne.symm hk)]; exact ht
        have := ih t1 t' he hd
        refine ⟨this.1, ?_⟩
        rw [List.filter_append, this.2]
        have : (rs.map fun x => (n, i.flow, x)).filter (fun x => decide (x.2.1 = k)) = [] := by
          rw [List.filter_eq_nil_iff]
          intro x hx
          obtain ⟨y, _, rfl⟩ := List.mem_map.1 hx
          simpa using hk
        rw [this, List.nil_append]

/-- packets that the handler does not decode make no difference -/
theorem decodeAll_takes (h : Handler σ ε α J) (is : List (Nat × Item)) (t : Peers σ) :
    h.decodeAll is t = h.decodeAll (is.filter fun x => h.takes x.2) t := by
  induction is generalizing t with
  | nil => rfl
  | cons x is ih =>
    obtain ⟨n, i⟩ := x
    cases hi : h.takes i with
    | false =>
      have hf : ((n, i) :: is).filter (fun x => h.takes x.2) = is.filter (fun x => h.takes x.2) := by simp [hi]
      rw [hf, Handler.decodeAll, decode_skip hi]
      simpa using ih t
    | true =>
      have hf : ((n, i) :: is).filter (fun x => h.takes x.2) = (n, i) :: is.filter (fun x => h.takes x.2) := by simp [hi]
      rw [hf, Handler.decodeAll, Handler.decodeAll]
      rcases h.decode i t with ⟨rs, _ | _ | _, t'⟩
      · simp only [ih t']
      · rfl
      · rfl

end Verif.Pcap
