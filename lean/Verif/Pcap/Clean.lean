import Verif.Pcap.Compute
import Verif.Bgp.Strict
/-!
# What the BGP handler has on record, and datagrams decoded on their own
-/
namespace Verif.Pcap
open Verif Collector

variable {σ ε α J : Type}

/-- the results of a flow, in order -/
def Handler.resultsFor (h : Handler σ ε α J) (k : Flow) (is : List (Nat × Item)) : List (Res ε α) :=
  ((h.decodeAll is []).1.filter fun x => decide (x.2.1 = k)).map fun x => x.2.2

/-- the payloads of the packets of a flow that the handler decodes, in order -/
def Handler.payloadsOf (h : Handler σ ε α J) (k : Flow) (is : List (Nat × Item)) : List Bytes :=
  (is.filter fun x => decide (x.2.flow = k) && h.takes x.2).map fun x => x.2.payload

theorem resultsFor_eq {h : Handler σ ε α J} {is : List (Nat × Item)} (hd : (h.decodeAll is []).2 = .done) (k : Flow) :
    h.resultsFor k is = (h.decodeAll (is.filter fun x => decide (x.2.flow = k) && h.takes x.2) []).1.map (fun x => x.2.2) ∧
    (h.decodeAll (is.filter fun x => decide (x.2.flow = k) && h.takes x.2) []).2 = .done := by
  have h1 := decodeAll_flow h k is [] [] rfl hd
  have h2 : is.filter (fun x => decide (x.2.flow = k) && h.takes x.2) = (is.filter fun x => decide (x.2.flow = k)).filter fun x => h.takes x.2 := by
    rw [List.filter_filter]; congr 1; funext x; rw [Bool.and_comm]
  unfold Handler.resultsFor
  rw [h1.2, h2, ← decodeAll_takes]
  exact ⟨rfl, h1.1⟩

/-- a stream in segments: its messages are the results -/
theorem results_stream {h : Handler σ ε α J} (he : EmptyWaits h.dec) (hprog : ∀ s b x s' b', h.dec s b = (.out (.ok x), s', b') → b'.length < b.length)
    {is : List (Nat × Item)} (hd : (h.decodeAll is []).2 = .done) {k : Flow} {os : List (Res ε α)} {s' : σ} {b' : Bytes}
    (hf : Feeds h.dec h.init [] (h.payloadsOf k is) os s' b') (hos : AllOk os) : h.resultsFor k is = os := by
  rw [(resultsFor_eq hd k).1]
  refine (decodeAll_feeds he hprog (k := k) _ [] ?_ (entry_nil h k) hf hos).2
  intro x hx
  have := (List.mem_filter.1 hx).2
  simpa using this

theorem bgp_progress (s : Bgp.Codec) (b : Bytes) (x : Bgp.Msg × Bgp.Ignored) (s' : Bgp.Codec) (b' : Bytes)
    (h : s.decode b = (.out (.ok x), s', b')) : b'.length < b.length := by
  obtain ⟨h1, h2, h3, h4, h5, h6⟩ := Bgp.decode_out h
  by_cases h0 : Bgp.declared b = 0
  · rw [h0] at h6
    have : Bgp.parseMsg (s.ctx.setAsn4 s.asn4) (⟨b.take 0, 0⟩, .none) = (.err (.parse (.eof 0 16 0)), (⟨[], 0⟩, .none)) := rfl
    rw [this] at h6
    simp at h6
  · rw [h3, List.length_drop]; omega

/-! ## What is on record -/

/-- results of which a message that comes first, or directly behind a message, comes with nothing on record -/
def Clean : Bool → List (Res Bgp.MsgErr (Bgp.Msg × Bgp.Ignored)) → Prop
  | _, [] => True
  | c, .ok x :: rs => (c = true → x.2 = .none) ∧ Clean true rs
  | _, .err _ :: rs => Clean false rs
  | _, .fault _ :: _ => False

/-- whether the last of results is a message; the flag is for when there is none -/
def lastOk : Bool → List (Res ε α) → Bool
  | c, [] => c
  | _, x :: rs => lastOk x.isOk rs

theorem clean_append {c : Bool} {a b : List (Res Bgp.MsgErr (Bgp.Msg × Bgp.Ignored))} (ha : Clean c a) (hb : Clean (lastOk c a) b) : Clean c (a ++ b) := by
  induction a generalizing c with
  | nil => exact hb
  | cons x a ih =>
    cases x with
    | ok x => exact ⟨ha.1, ih ha.2 hb⟩
    | err e => exact ih (c := false) ha hb
    | fault f => exact ha

theorem clean_at {c : Bool} {pre post : List (Res Bgp.MsgErr (Bgp.Msg × Bgp.Ignored))} {x : Bgp.Msg × Bgp.Ignored} (h : Clean c (pre ++ .ok x :: post))
    (hl : lastOk c pre = true) : x.2 = .none := by
  induction pre generalizing c with
  | nil => exact h.1 hl
  | cons y pre ih =>
    cases y with
    | ok y => exact ih h.2 hl
    | err e => exact ih (c := false) h hl
    | fault f => exact absurd h (by simp [Clean])

theorem clean_buffer (s : Bgp.Codec) (b : Bytes) (hs : s.ctx.Strict) (c : Bool) (hc : c = true → s.ignored = .none) :
    Clean c (decodeBuffer Bgp.Codec.decode s b).1 ∧ (decodeBuffer Bgp.Codec.decode s b).2.2.1.ctx.Strict ∧
    ((decodeBuffer Bgp.Codec.decode s b).2.1 = .done → lastOk c (decodeBuffer Bgp.Codec.decode s b).1 = true → (decodeBuffer Bgp.Codec.decode s b).2.2.1.ignored = .none) := by
  generalize hn : b.length = n
  induction n using Nat.strongRecOn generalizing s b c with
  | _ n ih =>
    by_cases hb : b = []
    · subst hb; rw [decodeBuffer_nil]; exact ⟨trivial, hs, fun _ h => hc h⟩
    · rw [decodeBuffer_step _ s hb]
      rcases hd : s.decode b with ⟨_ | x | e | f, s', b'⟩
      · obtain ⟨rfl, rfl, _⟩ := Bgp.decode_wait hd
        exact ⟨trivial, hs, fun _ h => hc h⟩
      · have hp := bgp_progress s b x s' b' hd
        obtain ⟨m, g⟩ := x
        obtain ⟨h1, h2, h3⟩ := Bgp.decode_strict hs hd
        simp only
        rw [if_pos hp]
        obtain ⟨i1, i2, i3⟩ := ih b'.length (by omega) s' b' h3 true (fun _ => h2) rfl
        exact ⟨⟨fun h => h1.trans (hc h), i1⟩, i2, i3⟩
      · obtain ⟨_, _, _, h4, _⟩ := Bgp.decode_out hd
        refine ⟨trivial, ?_, fun _ h => by cases h⟩
        simp only; rw [h4]; exact hs
      · obtain ⟨_, _, _, h4, _⟩ := Bgp.decode_out hd
        refine ⟨trivial, ?_, fun h => by cases h⟩
        simp only; rw [h4]; exact hs

theorem clean_run (ports : List UInt16) (k : Flow) (is : List (Nat × Item)) (t : Peers Bgp.Codec) (hk : ∀ x ∈ is, x.2.flow = k)
    (hs : ((bgpHandler ports).entry t k).1.ctx.Strict) (c : Bool) (hc : c = true → ((bgpHandler ports).entry t k).1.ignored = .none) :
    Clean c (((bgpHandler ports).decodeAll is t).1.map fun x => x.2.2) := by
  induction is generalizing t c with
  | nil => trivial
  | cons x is ih =>
    obtain ⟨n, i⟩ := x
    have hk' : ∀ x ∈ is, x.2.flow = k := fun x hx => hk x (List.mem_cons_of_mem _ hx)
    have hi' : i.flow = k := hk (n, i) List.mem_cons_self
    rw [Handler.decodeAll]
    cases hi : (bgpHandler ports).takes i with
    | false => rw [decode_skip hi]; simpa using ih t hk' hs c hc
    | true =>
      rw [decode_take hi, hi']
      obtain ⟨h1, h2, h3⟩ := clean_buffer ((bgpHandler ports).entry t k).1 (((bgpHandler ports).entry t k).2 ++ i.payload) hs c hc
      have hdec : (bgpHandler ports).dec = Bgp.Codec.decode := rfl
      rw [hdec]
      generalize hr : decodeBuffer Bgp.Codec.decode ((bgpHandler ports).entry t k).1 (((bgpHandler ports).entry t k).2 ++ i.payload) = r at h1 h2 h3
      obtain ⟨rs, st, s', b'⟩ := r
      cases st with
      | panic => trivial
      | stuck => trivial
      | done =>
        simp only at h1 h2 h3 ⊢
        rw [List.map_append, List.map_map]
        have hm : rs.map ((fun x : Nat × Flow × Res Bgp.MsgErr (Bgp.Msg × Bgp.Ignored) => x.2.2) ∘ fun x => (n, k, x)) = rs := List.map_id _
        rw [hm]
        refine clean_append h1 (ih _ hk' ?_ _ ?_)
        · rw [entry_put, if_pos rfl]; exact h2
        · rw [entry_put, if_pos rfl]; exact h3 trivial

/-! ## Datagrams on their own -/

/-- each datagram decoded with the codec of its flow and an empty buffer; `left` says whether any of them left octets behind -/
structure AloneRun (ε α : Type) where
  results : List (Nat × Flow × Res ε α)
  stop : Stop
  left : Bool

/-- datagrams decoded on their own, each to its end -/
def Handler.alone (h : Handler σ ε α J) : List (Nat × Item) → List (Flow × σ) → AloneRun ε α
  | [], _ => ⟨[], .done, false⟩
  | (n, i) :: is, t =>
    if h.takes i then
      match decodeBuffer h.dec ((t.look i.flow).getD h.init) i.payload with
      | (rs, .done, s, b) =>
        let r := alone h is (put t i.flow s)
        ⟨rs.map (fun x => (n, i.flow, x)) ++ r.results, r.stop, !b.isEmpty || r.left⟩
      | (_, st, _) => ⟨[], st, false⟩
    else alone h is t

theorem alone_eq (h : Handler σ ε α J) (is : List (Nat × Item)) (t : Peers σ) (u : List (Flow × σ))
    (ht : ∀ k, h.entry t k = ((u.look k).getD h.init, [])) (hl : (h.alone is u).left = false) :
    h.decodeAll is t = ((h.alone is u).results, (h.alone is u).stop) := by
  induction is generalizing t u with
  | nil => rfl
  | cons x is ih =>
    obtain ⟨n, i⟩ := x
    rw [Handler.decodeAll]
    rw [Handler.alone] at hl ⊢
    cases hi : h.takes i with
    | false =>
      rw [hi] at hl
      simp only [Bool.false_eq_true, if_false] at hl ⊢
      rw [decode_skip hi]
      simp only [List.map_nil, List.nil_append]
      rw [ih t u ht hl]
    | true =>
      rw [hi] at hl
      simp only [if_true] at hl ⊢
      rw [decode_take hi, ht, List.nil_append]
      generalize decodeBuffer h.dec ((u.look i.flow).getD h.init) i.payload = r at hl ⊢
      obtain ⟨rs, st, s, b⟩ := r
      cases st with
      | panic => rfl
      | stuck => rfl
      | done =>
        simp only [Bool.or_eq_false_iff, Bool.not_eq_false'] at hl ⊢
        have hb : b = [] := by simpa using hl.1
        subst hb
        rw [ih (put t i.flow (s, [])) (put u i.flow s) ?_ hl.2]
        intro k
        rw [entry_put, lookup_put]
        by_cases hk : k = i.flow
        · rw [if_pos hk, if_pos hk.symm]; rfl
        · rw [if_neg hk, if_neg (Ne.symm hk), ht]

end Verif.Pcap
