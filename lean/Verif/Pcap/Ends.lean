import Verif.Pcap.Tame
/-!
# How runs end
-/
namespace Verif.Pcap
open Verif Collector

variable {σ ε α J : Type}

theorem decodeBuffer_noFault (d : Decode σ ε α) (s : σ) (b : Bytes) : ∀ x ∈ (decodeBuffer d s b).1, x.isFault = false := by
  generalize hn : b.length = n
  induction n using Nat.strongRecOn generalizing s b with
  | _ n ih =>
    by_cases hb : b = []
    · subst hb; rw [decodeBuffer_nil]; simp
    · rw [decodeBuffer_step d s hb]
      rcases hd : d s b with ⟨_ | x | e | f, s', b'⟩
      · simp
      · simp only
        split
        · intro y hy
          rcases List.mem_cons.1 hy with rfl | hy
          · rfl
          · exact ih b'.length (by omega) s' b' rfl y hy
        · simp
      · simp
      · simp

theorem decodeAll_noFault (h : Handler σ ε α J) (is : List (Nat × Item)) (t : Peers σ) : ∀ x ∈ (h.decodeAll is t).1, x.2.2.isFault = false := by
  induction is generalizing t with
  | nil => simp [Handler.decodeAll]
  | cons x is ih =>
    obtain ⟨n, i⟩ := x
    rw [Handler.decodeAll]
    cases hi : h.takes i with
    | false => rw [decode_skip hi]; simpa using ih t
    | true =>
      rw [decode_take hi]
      generalize hr : decodeBuffer h.dec (h.entry t i.flow).1 ((h.entry t i.flow).2 ++ i.payload) = r
      have hnf := decodeBuffer_noFault h.dec (h.entry t i.flow).1 ((h.entry t i.flow).2 ++ i.payload)
      rw [hr] at hnf
      obtain ⟨rs, st, c⟩ := r
      cases st with
      | panic => simp
      | stuck => simp
      | done =>
        simp only
        intro x hx
        rcases List.mem_append.1 hx with hx | hx
        · obtain ⟨y, hy, rfl⟩ := List.mem_map.1 hx
          exact hnf y hy
        · exact ih _ x hx

/-- results that all have lines -/
theorem linesOf_all {h : Handler σ ε α J} {c : Config} {rs : List (Nat × Flow × Res ε α)} {g : Flow → Res ε α → J}
    (hg : ∀ x ∈ rs, h.line x.2.1 x.2.2 = .ok (g x.2.1 x.2.2)) :
    h.linesOf c rs = (rs.map fun x => (if c.showFrame then some x.1 else none, g x.2.1 x.2.2), true) := by
  induction rs with
  | nil => rfl
  | cons x rs ih =>
    obtain ⟨n, f, x⟩ := x
    rw [linesOf_ok (hg _ List.mem_cons_self), ih fun x hx => hg x (List.mem_cons_of_mem _ hx)]
    rfl

/-- a run whose packets are decoded and whose results have lines ends as the reader does, or at the limit -/
theorem load_done {lib : Lib} {c : Config} {h : Handler σ ε α J} {es : List Event} {g : Flow → Res ε α → J}
    (hd : (h.decodeAll ((readAll lib (.new es)).1.takeWhile c.within) []).2 = .done)
    (hg : ∀ f x, x.isFault = false → h.line f x = .ok (g f x)) :
    load lib c h es = (((h.decodeAll ((readAll lib (.new es)).1.takeWhile c.within) []).1.map fun x => (if c.showFrame then some x.1 else none, g x.2.1 x.2.2)),
      if (readAll lib (.new es)).2 = true ∨ ((readAll lib (.new es)).1.takeWhile c.within).length < (readAll lib (.new es)).1.length then .finished else .panicked) := by
  rw [load_eq]
  simp only
  rw [linesOf_all (g := g) fun x hx => hg _ _ (decodeAll_noFault h _ _ x hx), hd]
  simp [endOf]

theorem entry_nil (h : Handler σ ε α J) (k : Flow) : h.entry [] k = (h.init, []) := rfl

/-- the line of a result of BGP -/
def bgpLineOf (k : Flow) : Res Bgp.MsgErr (Bgp.Msg × Bgp.Ignored) → BgpLine
  | .ok (m, g) => if g = .none then .message k m else .unexpected
  | .err e => .error e
  | .fault _ => .unexpected

theorem bgpLine_eq (k : Flow) (x : Res Bgp.MsgErr (Bgp.Msg × Bgp.Ignored)) (h : x.isFault = false) : bgpLine k x = .ok (bgpLineOf k x) := by
  rcases x with ⟨m, g⟩ | e | f
  · simp only [bgpLine, bgpLineOf]; split <;> rfl
  · rfl
  · simp at h

/-- the line of a result -/
def plainLineOf (k : Flow) : Res ε α → Option (Line ε α)
  | .ok m => some (.message k m)
  | .err e => some (.error e)
  | .fault _ => none

theorem plainLine_eq (k : Flow) (x : Res ε α) (h : x.isFault = false) : ∃ j, plainLine k x = .ok j ∧ plainLineOf k x = some j := by
  rcases x with m | e | f
  · exact ⟨_, rfl, rfl⟩
  · exact ⟨_, rfl, rfl⟩
  · simp at h

/-- results that all have lines, if only some of them are asked for -/
theorem linesOf_true {h : Handler σ ε α J} {c : Config} {rs : List (Nat × Flow × Res ε α)} (hg : ∀ x ∈ rs, ∃ j, h.line x.2.1 x.2.2 = .ok j) :
    (h.linesOf c rs).2 = true := by
  induction rs with
  | nil => rfl
  | cons x rs ih =>
    obtain ⟨n, f, x⟩ := x
    obtain ⟨j, hj⟩ := hg _ List.mem_cons_self
    rw [linesOf_ok hj]
    exact ih fun x hx => hg x (List.mem_cons_of_mem _ hx)

theorem load_end {lib : Lib} {c : Config} {h : Handler σ ε α J} {es : List Event}
    (hg : ∀ x ∈ (h.decodeAll ((readAll lib (.new es)).1.takeWhile c.within) []).1, ∃ j, h.line x.2.1 x.2.2 = .ok j) (hr : (readAll lib (.new es)).2 = true) :
    (load lib c h es).2 = match (h.decodeAll ((readAll lib (.new es)).1.takeWhile c.within) []).2 with
      | .done => .finished
      | .panic => .panicked
      | .stuck => .stuck := by
  rw [load_eq]
  simp only
  rw [linesOf_true hg, hr]
  simp only [endOf, Bool.not_true, Bool.false_eq_true, if_false, Bool.true_or, if_true]
  cases (h.decodeAll ((readAll lib (.new es)).1.takeWhile c.within) []).2 <;> rfl

/-- the lines are not stuck when the decoding is not -/
theorem load_not_stuck {lib : Lib} {c : Config} {h : Handler σ ε α J} {es : List Event}
    (hd : (h.decodeAll ((readAll lib (.new es)).1.takeWhile c.within) []).2 ≠ .stuck) : (load lib c h es).2 ≠ .stuck := by
  rw [load_eq]
  simp only [endOf]
  split
  · simp
  · revert hd
    cases (h.decodeAll ((readAll lib (.new es)).1.takeWhile c.within) []).2 with
    | done => intro _; simp only; split <;> simp
    | panic => simp
    | stuck => intro h; exact absurd rfl h

theorem bgp_fine_init : BgpFine (.newFromCtx true ⟨⟨true, fun _ => none, fun _ => none⟩, true, true, true, true⟩) :=
  ⟨by decide, by decide, by decide, by decide⟩

theorem bgp_done (ports : List UInt16) (is : List (Nat × Item)) : ((bgpHandler ports).decodeAll is []).2 = .done := by
  rcases tame_run (h := bgpHandler ports) tame_bgp is [] (fun k => bgp_fine_init) (fun _ _ _ => trivial) with h | ⟨_, s1, b1, f, s2, b2, hc, hd⟩
  · exact h
  · exact absurd hd (bgp_noFault s1 hc b1 b2 f s2)

theorem flow_done (reg : Verif.Flow.Registry) (ports : List UInt16) (is : List (Nat × Item)) : ((flowHandler reg ports).decodeAll is []).2 = .done := by
  rcases tame_run (h := flowHandler reg ports) (tame_flow reg) is [] (fun k => trivial) (fun _ _ _ => trivial) with h | ⟨_, s1, b1, f, s2, b2, hc, hd⟩
  · exact h
  · have := Props.c28_noFault reg _ _ _ _ _ hd
    simp at this

theorem bmp_not_stuck (ord : Nat → Bmp.Order) (ports : List UInt16) (is : List (Nat × Item)) : ((bmpHandler ord ports).decodeAll is []).2 ≠ .stuck := by
  rcases tame_run (h := bmpHandler ord ports) (tame_bmp ord) is [] (fun k => (fun h => by cases h)) (fun _ _ _ => trivial) with h | ⟨h, _⟩ <;> rw [h] <;> simp

theorem notif_done (clock : Nat → Nat) (x : Payloads J) (ports : List UInt16) (is : List (Nat × Item))
    (hp : ∀ y ∈ is, (udpNotifHandler clock x ports).takes y.2 = true → 2 ≤ y.2.payload.length) :
    ((udpNotifHandler clock x ports).decodeAll is []).2 = .done := by
  rcases tame_run (h := udpNotifHandler clock x ports) (tame_notif clock) is [] (fun k => (fun h => by cases h)) hp with h | ⟨_, s1, b1, f, s2, b2, hc, hd⟩
  · exact h
  · exact absurd hd (notif_noFault clock s1 s2 b1 b2 hc f)

end Verif.Pcap
