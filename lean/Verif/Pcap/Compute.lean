import Verif.Pcap.Ends
/-!
# Runs of given packets, by computation

`decodeBuffer` is defined by recursion on the length of the buffer; for examples the same is defined with a bound on the rounds.
-/
namespace Verif.Pcap
open Verif Collector

variable {σ ε α J : Type}

/-- `decodeBuffer` with the number of rounds that are left -/
def decodeRounds (d : Decode σ ε α) : Nat → σ → Bytes → List (Res ε α) × Stop × σ × Bytes
  | 0, s, b => ([], .done, s, b)
  | n + 1, s, b =>
    if b.isEmpty then ([], .done, s, b)
    else match d s b with
      | (.wait, s', b') => ([], .done, s', b')
      | (.out (.ok x), s', b') =>
        if b'.length < b.length then
          match decodeRounds d n s' b' with
          | (rs, st) => (.ok x :: rs, st)
        else ([.ok x], .stuck, s', b')
      | (.out (.err e), s', _) => ([.err e], .done, s', [])
      | (.out (.fault _), s', b') => ([], .panic, s', b')

theorem decodeRounds_eq (d : Decode σ ε α) (n : Nat) (s : σ) (b : Bytes) (hn : b.length ≤ n) : decodeBuffer d s b = decodeRounds d n s b := by
  induction n generalizing s b with
  | zero =>
    have : b = [] := List.length_eq_zero_iff.1 (by omega)
    subst this; rw [decodeBuffer_nil]; rfl
  | succ n ih =>
    by_cases hb : b = []
    · subst hb; rw [decodeBuffer_nil]; rfl
    · rw [decodeBuffer_step d s hb, decodeRounds]
      have : b.isEmpty = false := by cases b with | nil => exact absurd rfl hb | cons _ _ => rfl
      rw [this]
      simp only [Bool.false_eq_true, if_false]
      rcases d s b with ⟨_ | x | e | f, s', b'⟩
      · rfl
      · simp only
        split
        · rw [ih s' b' (by omega)]
        · rfl
      · rfl
      · rfl

/-- `decodeAll` by computation -/
def Handler.compute (h : Handler σ ε α J) : List (Nat × Item) → Peers σ → List (Nat × Flow × Res ε α) × Stop
  | [], _ => ([], .done)
  | (n, i) :: is, t =>
    if i.proto = h.proto ∧ i.flow.dport ∈ h.ports then
      match decodeRounds h.dec ((h.entry t i.flow).2 ++ i.payload).length (h.entry t i.flow).1 ((h.entry t i.flow).2 ++ i.payload) with
      | (rs, .done, c) =>
        match compute h is (put t i.flow c) with
        | (xs, st) => (rs.map (fun x => (n, i.flow, x)) ++ xs, st)
      | (_, st, _) => ([], st)
    else compute h is t

theorem compute_eq (h : Handler σ ε α J) (is : List (Nat × Item)) (t : Peers σ) : h.decodeAll is t = h.compute is t := by
  induction is generalizing t with
  | nil => rfl
  | cons x is ih =>
    obtain ⟨n, i⟩ := x
    rw [Handler.decodeAll, Handler.compute]
    cases hi : h.takes i with
    | false =>
      rw [decode_skip hi, if_neg (by simpa [Handler.takes] using hi)]
      simp [ih]
    | true =>
      rw [decode_take hi, if_pos (by simpa [Handler.takes] using hi), ← decodeRounds_eq h.dec _ _ _ (Nat.le_refl _)]
      rcases decodeBuffer h.dec (h.entry t i.flow).1 ((h.entry t i.flow).2 ++ i.payload) with ⟨rs, _ | _ | _, c⟩
      · simp only [ih]
      · rfl
      · rfl

/-! ## Captures of given packets -/

/-- the addresses of Ethernet -/
def addresses : Bytes := [2, 0, 0, 0, 0, 1, 2, 0, 0, 0, 0, 2]

/-- a legacy capture of Ethernet frames with these packets -/
def captureOf (ps : List Packet) : List Event :=
  .legacyHeader 1 :: ps.map fun p => .legacy (etherFrame addresses [] p.etherType (p.octets [])) (etherFrame addresses [] p.etherType (p.octets [])).length

/-- the packets with their numbers, from the one after `n` on -/
def numbered : Nat → List Packet → List (Nat × Item)
  | _, [] => []
  | n, p :: ps => (n + 1, p.item) :: numbered (n + 1) ps

theorem read_packets {lib : Lib} (hlib : lib.Faithful) (ps : List Packet) (hp : ∀ p ∈ ps, p.Fits) (n : Nat) :
    readAll lib ⟨ps.map fun p => .legacy (etherFrame addresses [] p.etherType (p.octets [])) (etherFrame addresses [] p.etherType (p.octets [])).length, [1], n⟩ =
      (numbered n ps, true) := by
  induction ps generalizing n with
  | nil => exact readAll_none (it' := ⟨[], [1], n⟩) rfl
  | cons p ps ih =>
    have h1 : parsePacket lib (lib.link 1 (etherFrame addresses [] p.etherType (p.octets [])) (etherFrame addresses [] p.etherType (p.octets [])).length) = .ok (some p.item) := by
      rw [parse_captured hlib (ts := []) (by simp) (by simp) (etherType_cases p) (.ethernet addresses rfl), parseL3_packet hlib (hp p List.mem_cons_self)]
      simp
    have h2 := ih (fun q hq => hp q (List.mem_cons_of_mem _ hq)) (n + 1)
    rw [List.map_cons, readAll_some (i := p.item) (it' := ⟨ps.map fun p => .legacy (etherFrame addresses [] p.etherType (p.octets [])) (etherFrame addresses [] p.etherType (p.octets [])).length, [1], n + 1⟩), h2]
    · rfl
    · rw [next_eq]
      simp only [nextFrom, List.getElem?_cons_zero, h1]

/-- a capture of packets is read as these packets -/
theorem read_capture {lib : Lib} (hlib : lib.Faithful) (ps : List Packet) (hp : ∀ p ∈ ps, p.Fits) : readAll lib (.new (captureOf ps)) = (numbered 0 ps, true) := by
  rw [readAll_congr (it2 := ⟨ps.map fun p => .legacy (etherFrame addresses [] p.etherType (p.octets [])) (etherFrame addresses [] p.etherType (p.octets [])).length, [1], 0⟩)]
  · exact read_packets hlib ps hp 0
  · rfl

theorem within_all {c : Config} (hc : c.inputSize = none) (l : List (Nat × Item)) : l.takeWhile c.within = l := by
  induction l with
  | nil => rfl
  | cons x l ih =>
    have : c.within x = true := by unfold Config.within; rw [hc]
    rw [List.takeWhile_cons, this]; simp [ih]

/-- a run on a capture of packets -/
theorem load_capture {lib : Lib} (hlib : lib.Faithful) {c : Config} (hc : c.inputSize = none) (h : Handler σ ε α J) (ps : List Packet) (hp : ∀ p ∈ ps, p.Fits) :
    load lib c h (captureOf ps) = ((h.linesOf c (h.compute (numbered 0 ps) []).1).1,
      endOf (h.linesOf c (h.compute (numbered 0 ps) []).1).2 (h.compute (numbered 0 ps) []).2 true) := by
  rw [load_eq, read_capture hlib ps hp]
  simp only [within_all hc, compute_eq, Bool.true_or]

end Verif.Pcap
