import Verif.Props.Analytics
import Verif.Collector.AggStopLemmas
/-!
# Aggregation of flow records by the collector

C96–C100.
-/
namespace Verif.Props
open Verif.Flow (Kind Value Field Ie Time)
open Verif.Collector Verif.Collector.FlowSpec

namespace Ag
/-- a registry without names -/
def sem : Sem := ⟨fun _ _ => false, fun _ _ => false, fun _ _ a b => a ≤ b, fun a _ => a⟩

theorem sem_ok : sem.Ok := ⟨fun _ _ a b => by simp [sem]; omega, fun _ _ a b c => by simp [sem]; omega, fun _ _ a b => by simp [sem]; omega⟩

/-- `sourceIPv4Address` and `octetDeltaCount` -/
def src : Ie := .known 0 8 .ipv4
def bytes : Ie := .known 0 1 .unsigned64

/-- octets are summed by source address, for windows of a minute and five seconds of lateness -/
def config : Config := ⟨60000000000, 5000000000, [(src, .single .key), (bytes, .single (.agg .add))]⟩
def unified : Unified := ⟨60000000000, 5000000000, [⟨src, 0⟩], [⟨⟨bytes, 0⟩, .add⟩]⟩

theorem config_ok : config.unify sem = .ok unified := rfl

def router : Peer := ⟨.v4 0x0A000001, 2055⟩

/-- a packet at a second of the time of the exporter, with a record for each pair of an address and octets -/
def packet (t : Int) (l : List (UInt32 × UInt64)) : Input :=
  ⟨router, .ipfix ⟨⟨t, 0⟩, 0, 7, [.data 256 (l.map fun x => ⟨[], [.known 0 8 (.ipv4 x.1), .known 0 1 (.unsigned64 x.2)]⟩)]⟩, ⟨t + 1, 0⟩⟩

/-- after the packet at 180 that at 100 is late and that at 178 is not -/
def input : List Input := [packet 120 [(1, 10), (2, 5)], packet 125 [(1, 20)], packet 180 [(1, 1)], packet 100 [(1, 2), (2, 3)], packet 178 [(2, 7)]]
end Ag

/-! ## C96 -/

/-- C96: an actor with a configuration it accepts, having received any packets, has sent one packet for each group of records: those of one exporter and protocol,
exported in the same minute, that agree on the key fields and are not too late. Each packet reports its group (`Reports`), every record that is not too late is
in exactly one group, and the packets are numbered from 0 on. -/
theorem c96_reports {S : Sem} {c : Config} {u : Unified} (h : c.unify S = .ok u) {shard : Nat} {ins : List Input} (hc : ∀ i ∈ ins, Chrono (exportOf i))
    {pkts : List (IpAddr × Info)} (hr : AggRuns S u shard ins pkts) :
    ∃ reports : List (Flat × (IpAddr × Info)), reports.map (·.2) = pkts ∧
      (∀ x ∈ reports, x.1 ∈ kept u.lateness [] (flats ins) ∧
        Reports S u shard x.1 ((kept u.lateness [] (flats ins)).filter fun q => Together u.keys x.1 q) x.2) ∧
      reports.Pairwise (fun x y => ¬ Together u.keys x.1 y.1) ∧
      (∀ r ∈ kept u.lateness [] (flats ins), ∃ x ∈ reports, Together u.keys x.1 r) ∧
      (reports.map fun x => ((kept u.lateness [] (flats ins)).filter fun q => Together u.keys x.1 q).length).sum = (kept u.lateness [] (flats ins)).length ∧
      (pkts.map fun p => seqOf p.2).Perm ((List.range pkts.length).map UInt32.ofNat) := by
  obtain ⟨ordOf, polls, outs, ho, hp, hs, hsend⟩ := hr
  obtain ⟨reports, h1, h2, h3, h4⟩ := run_reports ho (unify_spec h).1 hc hp hs hsend
  exact ⟨reports, h1, h2, h3, h4, sum_groups (R := Together u.keys) Together.symm Together.trans (fun x : Flat × (IpAddr × Info) => x.1) h3 h4, sends_seq hsend⟩

/-- C96: such an execution exists, that is, the actor does not panic, if the times in the headers are those that packets can have (IPFIX and NetFlow count
seconds in 32 bits) and the durations are less than 3000 years. -/
theorem c96_runs {S : Sem} {u : Unified} (shard : Nat) {ins : List Input} (hw : u.window + u.lateness ≤ 10 ^ 20)
    (ht : ∀ i ∈ ins, 0 ≤ (exportOf i).secs ∧ (exportOf i).secs < 2 ^ 32 ∧ (exportOf i).nanos < 1000000000) :
    ∃ pkts, AggRuns S u shard ins pkts := by
  obtain ⟨ordOf, ho⟩ := exists_order (κ := IpAddr) (σ := FlowCache)
  have hid : ∀ l : List Item, (l.map some).filterMap id = l := fun l => by simp
  obtain ⟨outs, hs⟩ := Analytics.streamCollects_exists (A := flowAgg S u.aggs) ho u.window u.lateness ((itemsOf u.keys u.aggs ins).map some) (by
    rw [hid]
    exact items_times hw ht)
  obtain ⟨pkts, hsend⟩ := sends_exists shard outs ⟨0, 0⟩
  exact ⟨pkts, ordOf, _, outs, ho, hid _, hs, hsend⟩

/-- seven records, two of which are too late -/
example : (flats Ag.input).length = 7 ∧ (kept Ag.unified.lateness [] (flats Ag.input)).length = 5 ∧ Ag.config.unify Ag.sem = .ok Ag.unified ∧
    ∃ pkts, AggRuns Ag.sem Ag.unified 3 Ag.input pkts := by
  exact ⟨by decide, by decide, Ag.config_ok, c96_runs 3 (by decide) (by decide)⟩

example : (kept Ag.unified.lateness [] (flats Ag.input)).map (fun r => (minute r, keysOf Ag.unified.keys r, valuesOf ⟨Ag.bytes, 0⟩ [r])) =
    [(2, [some (.known 0 8 (.ipv4 1))], [.known 0 1 (.unsigned64 10)]), (2, [some (.known 0 8 (.ipv4 2))], [.known 0 1 (.unsigned64 5)]),
      (2, [some (.known 0 8 (.ipv4 1))], [.known 0 1 (.unsigned64 20)]), (3, [some (.known 0 8 (.ipv4 1))], [.known 0 1 (.unsigned64 1)]),
      (2, [some (.known 0 8 (.ipv4 2))], [.known 0 1 (.unsigned64 7)])] := by decide

/-! ## C97 -/

section
variable {S : Sem} {c : Config} {u : Unified} {a : AggRef} {p : UInt32} {i : UInt16} {k : Kind}

/-- what a group has of an element are values of its type -/
theorem c97_values (hie : a.ref.ie = .known p i k) (g : List Flat) : ∃ vs : List Value, valuesOf a.ref g = vs.map (.known p i) ∧ ∀ v ∈ vs, v.kind = k :=
  valuesOf_known hie g

/-- C97: the combination of `add` is the sum of the values modulo the numbers of their type, and the sum if that is one of them. -/
theorem c97_sum_partial (h : c.unify S = .ok u) (ha : a ∈ u.aggs) (hop : a.op = .add) (hie : a.ref.ie = .known p i k) (hk : k ≠ .float64) {g : List Flat}
    {vs : List Value} (hg : valuesOf a.ref g = vs.map (.known p i)) (hv : ∀ v ∈ vs, v.kind = k) (hne : vs ≠ []) :
    ∃ r n, combined S a.op (valuesOf a.ref g) = some (.known p i r) ∧ r.kind = k ∧ number r = some n ∧ Fits k n ∧ (2 ^ width k : Int) ∣ n - total vs ∧
      (Fits k (total vs) → n = total vs) := by
  have hc := (unify_spec h).2.2.2.2 a ha
  rw [hop, hie] at hc
  cases vs with
  | nil => exact absurd rfl hne
  | cons v vs =>
    rw [hg, hop, combined_known]
    obtain ⟨h1, n, h2, h3, h4⟩ := fold_add (op_applicable.1 hc) hk vs v (hv v (List.mem_cons_self ..)) fun x hx => hv x (List.mem_cons_of_mem _ hx)
    refine ⟨_, n, rfl, h1, h2, h3, h4, fun hf => ?_⟩
    have : n - total (v :: vs) = 0 := by
      apply Int.eq_zero_of_dvd_of_natAbs_lt_natAbs h4
      have hpos : (0 : Int) < 2 ^ width k := Int.pow_pos (by omega)
      unfold Fits at h3 hf
      split at h3
      · simp only [width]; omega
      · rename_i hs
        have hf : 0 ≤ total (v :: vs) ∧ total (v :: vs) < 2 ^ width k := by
          revert hf
          cases k <;> simp at hs ⊢
        generalize (2 ^ width k : Int) = M at *
        omega
    omega

/-- C97: the combination of `min` is one of the values, and none is below it, if the values have no names. -/
theorem c97_min_partial (hS : S.Ok) (h : c.unify S = .ok u) (ha : a ∈ u.aggs) (hop : a.op = .min) (hie : a.ref.ie = .known p i k)
    (hk : k ∉ [Kind.float64, .tcpControlBits, .basicList, .subTemplateList, .subTemplateMultiList]) (hr : S.registry p i = false) {g : List Flat}
    {vs : List Value} (hg : valuesOf a.ref g = vs.map (.known p i)) (hv : ∀ v ∈ vs, v.kind = k) (hne : vs ≠ []) :
    ∃ r ∈ vs, combined S a.op (valuesOf a.ref g) = some (.known p i r) ∧ ∀ v ∈ vs, NotAbove r v := by
  have hc := (unify_spec h).2.2.2.2 a ha
  rw [hop, hie] at hc
  simp only [List.mem_cons, List.not_mem_nil, or_false, not_or] at hk
  have hco := op_applicable.2.1 hc (by simp only [List.mem_cons, List.not_mem_nil, or_false, not_or]; exact hk.2.2)
  cases vs with
  | nil => exact absurd rfl hne
  | cons v vs =>
    rw [hg, hop, combined_known]
    obtain ⟨h1, h2⟩ := fold_min (lin S hS p i hco hk.1) hco vs v (hv v (List.mem_cons_self ..)) fun x hx => hv x (List.mem_cons_of_mem _ hx)
    exact ⟨_, h1, rfl, fun w hw => notAbove hr hco hk.1 hk.2.1 (hv _ h1) (hv w hw) (h2 w hw)⟩

/-- C97: the combination of `max` is one of the values, and none is above it, if the values have no names. -/
theorem c97_max_partial (hS : S.Ok) (h : c.unify S = .ok u) (ha : a ∈ u.aggs) (hop : a.op = .max) (hie : a.ref.ie = .known p i k)
    (hk : k ∉ [Kind.float64, .tcpControlBits, .basicList, .subTemplateList, .subTemplateMultiList]) (hr : S.registry p i = false) {g : List Flat}
    {vs : List Value} (hg : valuesOf a.ref g = vs.map (.known p i)) (hv : ∀ v ∈ vs, v.kind = k) (hne : vs ≠ []) :
    ∃ r ∈ vs, combined S a.op (valuesOf a.ref g) = some (.known p i r) ∧ ∀ v ∈ vs, NotAbove v r := by
  have hc := (unify_spec h).2.2.2.2 a ha
  rw [hop, hie] at hc
  simp only [List.mem_cons, List.not_mem_nil, or_false, not_or] at hk
  have hco := op_applicable.2.2.1 hc (by simp only [List.mem_cons, List.not_mem_nil, or_false, not_or]; exact hk.2.2)
  cases vs with
  | nil => exact absurd rfl hne
  | cons v vs =>
    rw [hg, hop, combined_known]
    obtain ⟨h1, h2⟩ := fold_max (lin S hS p i hco hk.1) hco vs v (hv v (List.mem_cons_self ..)) fun x hx => hv x (List.mem_cons_of_mem _ hx)
    exact ⟨_, h1, rfl, fun w hw => notAbove hr hco hk.1 hk.2.1 (hv w hw) (hv _ h1) (h2 w hw)⟩

/-- C97: a bit is set in the combination of `BoolMapOr` if and only if it is set in one of the values, if octet arrays are of the same length. -/
theorem c97_or_partial (h : c.unify S = .ok u) (ha : a ∈ u.aggs) (hop : a.op = .boolMapOr) (hie : a.ref.ie = .known p i k) {g : List Flat} {vs : List Value}
    (hg : valuesOf a.ref g = vs.map (.known p i)) (hv : ∀ v ∈ vs, v.kind = k) (hl : ∀ v ∈ vs, ∀ w ∈ vs, octets v = octets w) (hne : vs ≠ []) :
    ∃ r, combined S a.op (valuesOf a.ref g) = some (.known p i r) ∧ r.kind = k ∧ (∀ v ∈ vs, octets r = octets v) ∧
      ∀ n, bit r n = true ↔ ∃ v ∈ vs, bit v n = true := by
  have hc := (unify_spec h).2.2.2.2 a ha
  rw [hop, hie] at hc
  cases vs with
  | nil => exact absurd rfl hne
  | cons v vs =>
    rw [hg, hop, combined_known]
    obtain ⟨h1, h2, h3⟩ := fold_or (S := S) (p := p) (i := i) (op_applicable.2.2.2 hc) vs v (hv v (List.mem_cons_self ..))
      (fun x hx => hv x (List.mem_cons_of_mem _ hx)) fun x hx => hl _ (List.mem_cons_of_mem _ hx) _ (List.mem_cons_self ..)
    refine ⟨_, rfl, h1, fun w hw => h2.trans (hl _ (List.mem_cons_self ..) w hw), fun n => ?_⟩
    rw [h3 n, List.any_eq_true]

/-- C97: what the values are combined to does not depend on the order of arrival. -/
theorem c97_order_partial (hS : S.Ok) (h : c.unify S = .ok u) (ha : a ∈ u.aggs) (hie : a.ref.ie = .known p i k)
    (hk : k ∉ [Kind.float64, .basicList, .subTemplateList, .subTemplateMultiList]) {g g' : List Flat} (hp : g.Perm g')
    (hl : a.op = .boolMapOr → ∀ v w, .known p i v ∈ valuesOf a.ref g → .known p i w ∈ valuesOf a.ref g → octets v = octets w) :
    combined S a.op (valuesOf a.ref g) = combined S a.op (valuesOf a.ref g') := by
  have hc := (unify_spec h).2.2.2.2 a ha
  rw [hie] at hc
  obtain ⟨vs, hvs, hkv⟩ := valuesOf_known hie g
  have hperm : (valuesOf a.ref g).Perm (valuesOf a.ref g') := hp.filterMap _
  obtain ⟨ws, hws, hvw⟩ := perm_lift hperm.symm hvs
  rw [← hvw, hvs]
  refine combined_perm hS hc hk hws.symm hkv fun he v hv w hw => ?_
  exact hl he v w (by rw [hvs]; exact List.mem_map_of_mem hv) (by rw [hvs]; exact List.mem_map_of_mem hw)

end

/-- the octets of three records -/
example : combined Ag.sem .add (valuesOf ⟨Ag.bytes, 0⟩ (flats [Ag.packet 0 [(1, 10), (2, 5), (3, 7)]])) = some (.known 0 1 (.unsigned64 22)) := by decide
example : Fits .unsigned64 (total [.unsigned64 10, .unsigned64 5]) := by unfold Fits; decide
/-- the least of three signed numbers, the greatest of three addresses, and all bits of three masks -/
example : combined Ag.sem .min [.known 0 434 (.signed32 3), .known 0 434 (.signed32 (-5)), .known 0 434 (.signed32 4)] = some (.known 0 434 (.signed32 (-5))) := by decide
example : combined Ag.sem .max [.known 0 8 (.ipv4 3), .known 0 8 (.ipv4 9), .known 0 8 (.ipv4 4)] = some (.known 0 8 (.ipv4 9)) := by decide
example : combined Ag.sem .boolMapOr [.known 0 6 (.tcpControlBits 2), .known 0 6 (.tcpControlBits 16), .known 0 6 (.tcpControlBits 1)] =
    some (.known 0 6 (.tcpControlBits 19)) := by decide

namespace Ag
def one (ie : Ie) (op : AggOp) : Config := ⟨60000000000, 0, [(ie, .single (.agg op))]⟩
def record (fs : List Field) : Flat := ⟨router, .ipfix, 0, 256, ⟨0, 0⟩, ⟨0, 0⟩, 0, fs⟩
/-- a group of records with a field each -/
def group (fs : List Field) : List Flat := fs.map fun f => record [f]
end Ag

/-- C97, as said, does not hold: with configurations that are accepted a sum is less than its summands, a least value of control bits is not the least number, a bit of
the second of two octet arrays is lost, and of two lists, or of two values of an unknown element, the first is reported. -/
theorem c97_disproved : ∃ S : Sem, S.Ok ∧
    (∃ u, (Ag.one (.known 0 4 .unsigned8) .add).unify S = .ok u ∧ u.aggs = [⟨⟨.known 0 4 .unsigned8, 0⟩, .add⟩] ∧
      combined S .add (valuesOf ⟨.known 0 4 .unsigned8, 0⟩ (Ag.group [.known 0 4 (.unsigned8 200), .known 0 4 (.unsigned8 100)])) =
        some (.known 0 4 (.unsigned8 44))) ∧
    (∃ u, (Ag.one (.known 0 6 .tcpControlBits) .min).unify S = .ok u ∧
      combined S .min (valuesOf ⟨.known 0 6 .tcpControlBits, 0⟩ (Ag.group [.known 0 6 (.tcpControlBits 1), .known 0 6 (.tcpControlBits 2)])) =
        some (.known 0 6 (.tcpControlBits 2))) ∧
    (∃ u, (Ag.one (.known 0 90 .octetArray) .boolMapOr).unify S = .ok u ∧
      combined S .boolMapOr (valuesOf ⟨.known 0 90 .octetArray, 0⟩ (Ag.group [.known 0 90 (.octetArray [1]), .known 0 90 (.octetArray [2, 4])])) =
        some (.known 0 90 (.octetArray [3]))) ∧
    (∃ u, (Ag.one (.known 0 291 .basicList) .max).unify S = .ok u ∧
      combined S .max (valuesOf ⟨.known 0 291 .basicList, 0⟩ (Ag.group [.known 0 291 (.basicList [1]), .known 0 291 (.basicList [2])])) =
        some (.known 0 291 (.basicList [1]))) ∧
    ∃ u, (Ag.one (.unknown 0 9999) .boolMapOr).unify S = .ok u ∧
      combined S .boolMapOr (valuesOf ⟨.unknown 0 9999, 0⟩ (Ag.group [.unknown 0 9999 [1], .unknown 0 9999 [2]])) = some (.unknown 0 9999 [1]) := by
  refine ⟨Ag.sem, Ag.sem_ok, ⟨_, rfl, rfl, ?_⟩, ⟨_, rfl, ?_⟩, ⟨_, rfl, ?_⟩, ⟨_, rfl, ?_⟩, ⟨_, rfl, ?_⟩⟩ <;> decide

/-! ## C98 -/

/-- C98: a configuration is accepted exactly if the window is not empty, the lateness not greater than the window, and each of its operations one that the
element supports; key fields and aggregated fields are then those it lists, in its order. -/
theorem c98_accepted (S : Sem) (c : Config) (u : Unified) :
    c.unify S = .ok u ↔ 0 < c.window ∧ c.lateness ≤ c.window ∧ (∀ x ∈ selected c, Allowed S x.1 x.2.2) ∧ u.window = c.window ∧
      u.lateness = c.lateness ∧ u.keys = (selected c).filterMap (fun x => if x.2.2 = .key then some ⟨x.1, x.2.1⟩ else none) ∧
      u.aggs = (selected c).filterMap (fun x => match x.2.2 with | .key => none | .agg o => some ⟨⟨x.1, x.2.1⟩, o⟩) := by
  simp only [← compatible_iff]
  have hsel : selected ⟨c.window, c.lateness, c.transform⟩ = selected c := rfl
  have e : c.unify S = if c.window = 0 then .error .invalidWindow else if c.window < c.lateness then .error .latenessExceedsWindow else
      addAll S (selected c) ⟨c.window, c.lateness, [], []⟩ := by
    unfold Config.unify
    rw [addTransforms_all S c.window c.lateness, hsel]
  rw [e]
  obtain ⟨s1, s2⟩ := addAll_spec S (selected c) ⟨c.window, c.lateness, [], []⟩
  obtain ⟨uw, ul, uk, ua⟩ := u
  constructor
  · intro h
    split at h
    · cases h
    · split at h
      · cases h
      · by_cases hall : ∀ x ∈ selected c, S.compatible x.1 x.2.2 = true
        · rw [s1 hall] at h
          simp only [Except.ok.injEq, Unified.mk.injEq, List.nil_append] at h
          obtain ⟨rfl, rfl, rfl, rfl⟩ := h
          exact ⟨by omega, by omega, hall, rfl, rfl, rfl, rfl⟩
        · exfalso
          obtain ⟨pre, x, post, he, hpre, hx⟩ : ∃ pre x post, selected c = pre ++ x :: post ∧ (∀ y ∈ pre, S.compatible y.1 y.2.2 = true) ∧
              S.compatible x.1 x.2.2 = false := by
            clear h s1 s2 e hsel
            generalize selected c = l at hall
            induction l with
            | nil => exact absurd (by simp) hall
            | cons y l ih =>
              by_cases hy : S.compatible y.1 y.2.2 = true
              · obtain ⟨pre, x, post, h1, h2, h3⟩ := ih fun hl => hall (List.forall_mem_cons.mpr ⟨hy, hl⟩)
                exact ⟨y :: pre, x, post, by rw [h1]; rfl, List.forall_mem_cons.mpr ⟨hy, h2⟩, h3⟩
              · exact ⟨[], y, l, rfl, by simp, by simpa using hy⟩
          rw [s2 pre x.1 x.2.1 x.2.2 post he hpre hx] at h
          cases h
  · rintro ⟨h1, h2, h3, h4, h5, h6, h7⟩
    simp only at h4 h5 h6 h7
    subst h4 h5 h6 h7
    rw [if_neg (by omega), if_neg (by omega), s1 h3]
    rfl

/-- C98: with an accepted configuration, two values of an aggregated element can be combined, if it is an element of the registries whose values are not lists. -/
theorem c98_applicable_partial {S : Sem} {c : Config} {u : Unified} (h : c.unify S = .ok u) {a : AggRef} (ha : a ∈ u.aggs) {p : UInt32} {i : UInt16} {k : Kind}
    (hie : a.ref.ie = .known p i k) (hk : k ∉ [Kind.basicList, .subTemplateList, .subTemplateMultiList]) {x y : Field} (hx : x.ie = a.ref.ie)
    (hy : y.ie = a.ref.ie) : ∃ z, S.apply a.op x y = some z ∧ z.ie = a.ref.ie := by
  have hc := (unify_spec h).2.2.2.2 a ha
  rw [hie] at hc hx hy ⊢
  obtain ⟨a1, a2, a3, a4⟩ := op_applicable (S := S) (p := p) (i := i) (k := k)
  cases x with
  | vendorUnknown _ _ _ => cases hx
  | unknown _ _ _ => cases hx
  | known p1 i1 v =>
    cases y with
    | vendorUnknown _ _ _ => cases hy
    | unknown _ _ _ => cases hy
    | known p2 i2 w =>
      simp only [Field.ie, Ie.known.injEq] at hx hy
      obtain ⟨rfl, rfl, hv⟩ := hx
      obtain ⟨rfl, rfl, hw⟩ := hy
      simp only [Sem.apply, and_self, if_true]
      suffices hs : ∃ r, S.applyValue p2 i2 a.op v w = some r ∧ r.kind = k by
        obtain ⟨r, hr, hrk⟩ := hs
        exact ⟨.known p2 i2 r, by rw [hr]; rfl, by simp [Field.ie, hrk]⟩
      unfold Sem.applyValue
      rw [hv]
      generalize a.op = op at hc
      cases op with
      | add =>
        have hn := a1 hc
        simp only [hn, if_true]
        unfold Sem.isNumeric at hn
        subst hv
        cases v <;> simp [Value.kind] at hn <;> cases w <;> simp only [Value.kind, reduceCtorEq] at hw <;> exact ⟨_, rfl, rfl⟩
      | min =>
        have hn := a2 hc hk
        simp only [hn, if_true]
        obtain ⟨b, hb⟩ : ∃ b, S.leValue p2 i2 v w = some b := by
          subst hv
          cases v <;> simp only [Value.kind, isComparable, Bool.false_eq_true] at hn <;> cases w <;> simp only [Value.kind, reduceCtorEq] at hw <;> exact ⟨_, rfl⟩
        rw [hb]
        exact ⟨_, rfl, by cases b <;> simp [hv, hw]⟩
      | max =>
        have hn := a3 hc hk
        simp only [hn, if_true]
        obtain ⟨b, hb⟩ : ∃ b, S.leValue p2 i2 v w = some b := by
          subst hv
          cases v <;> simp only [Value.kind, isComparable, Bool.false_eq_true] at hn <;> cases w <;> simp only [Value.kind, reduceCtorEq] at hw <;> exact ⟨_, rfl⟩
        rw [hb]
        exact ⟨_, rfl, by cases b <;> simp [hv, hw]⟩
      | boolMapOr =>
        have hn := a4 hc
        simp only [hn, if_true]
        subst hv
        cases v <;> simp only [Value.kind, isBitwise, Bool.false_eq_true] at hn <;> cases w <;> simp only [Value.kind, reduceCtorEq] at hw <;>
          exact ⟨_, rfl, rfl⟩

example : ∃ u, Ag.config.unify Ag.sem = .ok u ∧ u.keys = [⟨Ag.src, 0⟩] ∧ u.aggs = [⟨⟨Ag.bytes, 0⟩, .add⟩] := ⟨_, rfl, by decide, by decide⟩
example : ∃ ie op, (Ag.one ie op).unify Ag.sem = .error (.invalidOperation ie (.agg op)) := ⟨.known 0 8 .ipv4, .add, rfl⟩

/-- C98 does not hold of all elements: operations on lists and on unknown elements are accepted though none of their values can be combined, and on the other hand
the least of booleans or MAC addresses is refused though there is one. -/
theorem c98_disproved : ∃ S : Sem, S.Ok ∧
    (∃ u, (Ag.one (.known 0 292 .subTemplateList) .min).unify S = .ok u ∧
      ∀ x y, S.apply .min (.known 0 292 (.subTemplateList x)) (.known 0 292 (.subTemplateList y)) = none) ∧
    (∃ u, (Ag.one (.unknown 0 9999) .boolMapOr).unify S = .ok u ∧ ∀ x y, S.apply .boolMapOr (.unknown 0 9999 x) (.unknown 0 9999 y) = none) ∧
    (∃ u, (Ag.one (.vendorUnknown 9 77) .boolMapOr).unify S = .ok u ∧ ∀ x y, S.apply .boolMapOr (.vendorUnknown 9 77 x) (.vendorUnknown 9 77 y) = none) ∧
    (∃ e, (Ag.one (.known 0 56 .macAddress) .min).unify S = .error e ∧
      ∀ x y, (S.apply .min (.known 0 56 (.macAddress x)) (.known 0 56 (.macAddress y))).isSome = true) ∧
    ∃ e, (Ag.one (.known 0 276 .boolean) .max).unify S = .error e ∧
      ∀ x y, (S.apply .max (.known 0 276 (.boolean x)) (.known 0 276 (.boolean y))).isSome = true :=
  ⟨Ag.sem, Ag.sem_ok, ⟨_, rfl, fun _ _ => rfl⟩, ⟨_, rfl, fun _ _ => rfl⟩, ⟨_, rfl, fun _ _ => rfl⟩, ⟨_, rfl, fun _ _ => rfl⟩, ⟨_, rfl, fun _ _ => rfl⟩⟩

/-! ## C99 -/

/-- C99: whether records are too late is decided by packet: those of a packet are reported, all of them, unless an earlier packet with records from the same
address has a time in its header that is ahead by more than the lateness. -/
theorem c99_packets (lat : Nat) (ins : List Input) : kept lat [] (flats ins) = flats (onTime lat [] ins) := kept_flats lat ins []

/-- C99: the numbers of records that the packets report and the number of those in packets that are behind add up to what was received. -/
theorem c99_all {S : Sem} {c : Config} {u : Unified} (h : c.unify S = .ok u) {shard : Nat} {ins : List Input} (hc : ∀ i ∈ ins, Chrono (exportOf i))
    {pkts : List (IpAddr × Info)} (hr : AggRuns S u shard ins pkts) :
    ∃ counts : List Nat, counts.length = pkts.length ∧
      (∀ x ∈ counts.zip pkts, ∃ fs, Carries x.2.2 fs ∧ .known 0 375 (.unsigned64 (UInt64.ofNat x.1)) ∈ fs) ∧
      counts.sum + (flats (behind u.lateness [] ins)).length = (flats ins).length := by
  obtain ⟨reports, rfl, h2, -, -, h5, -⟩ := c96_reports h hc hr
  refine ⟨reports.map fun x => ((kept u.lateness [] (flats ins)).filter fun q => Together u.keys x.1 q).length, by simp, ?_, ?_⟩
  · intro x hx
    rw [List.zip_map', List.mem_map] at hx
    obtain ⟨y, hy, rfl⟩ := hx
    obtain ⟨-, hrep⟩ := h2 y hy
    obtain ⟨_, _, _, _, _, _, _, _, -, -, -, -, -, -, -, -, hcar⟩ := hrep.body
    exact ⟨_, hcar, by simp⟩
  · rw [h5, c99_packets]
    exact onTime_length u.lateness ins []

/-- the packets at 100 and its two records are behind -/
example : (onTime Ag.unified.lateness [] Ag.input).map exportOf = [⟨120, 0⟩, ⟨125, 0⟩, ⟨180, 0⟩, ⟨178, 0⟩] ∧
    (behind Ag.unified.lateness [] Ag.input).map exportOf = [⟨100, 0⟩] ∧ (flats (behind Ag.unified.lateness [] Ag.input)).length = 2 := by decide

/-! ## C100 -/

/-- C100: also if the actor is stopped, by a command at any time, each packet sent reports its group completely: what it says is what would be said had the actor
gone on, though packets that were to come are taken into account. -/
theorem c100_stopped_partial {S : Sem} {c : Config} {u : Unified} (h : c.unify S = .ok u) {shard : Nat} {ins : List Input}
    (hw : u.window + u.lateness ≤ 10 ^ 20) (ht : ∀ i ∈ ins, 0 ≤ (exportOf i).secs ∧ (exportOf i).secs < 2 ^ 32 ∧ (exportOf i).nanos < 1000000000)
    {pkts : List (IpAddr × Info)} (hr : AggStops S u shard ins pkts) :
    ∃ reports : List (Flat × (IpAddr × Info)), reports.map (·.2) = pkts ∧
      (∀ x ∈ reports, x.1 ∈ kept u.lateness [] (flats ins) ∧
        Reports S u shard x.1 ((kept u.lateness [] (flats ins)).filter fun q => Together u.keys x.1 q) x.2) ∧
      reports.Pairwise (fun x y => ¬ Together u.keys x.1 y.1) ∧
      (pkts.map fun p => seqOf p.2).Perm ((List.range pkts.length).map UInt32.ofNat) := by
  obtain ⟨ordOf, polls, outs, ho, hp, ha, hsend⟩ := hr
  obtain ⟨full, hs⟩ := Analytics.streamCollects_exists (A := flowAgg S u.aggs) ho u.window u.lateness polls (by
    rw [hp]
    exact items_times hw ht)
  obtain ⟨more, hm⟩ := sends_prefix hsend (acts_prefix ho ha hs)
  obtain ⟨reports, h1, h2, h3, -⟩ := run_reports ho (unify_spec h).1 (fun i hi => ⟨by have := ht i hi; omega, (ht i hi).2.2⟩) hp hs hm
  refine ⟨reports.take pkts.length, ?_, ?_, ?_, sends_seq hsend⟩
  · rw [List.map_take, h1, List.take_left']
    rfl
  · exact fun x hx => h2 x (List.mem_of_mem_take hx)
  · exact h3.sublist (List.take_sublist ..)

/-- C100: if it is not stopped, all is sent that is sent at the end of the channel. -/
theorem c100_end {S : Sem} {u : Unified} {shard : Nat} {ins : List Input} {pkts : List (IpAddr × Info)} (hr : AggRuns S u shard ins pkts) :
    AggStops S u shard ins pkts := by
  obtain ⟨ordOf, polls, outs, ho, hp, hs, hsend⟩ := hr
  exact ⟨ordOf, polls, outs, ho, hp, acts_all hs, hsend⟩

example : ∃ pkts, AggStops Ag.sem Ag.unified 3 Ag.input pkts := (c96_runs 3 (by decide) (by decide)).imp fun _ => c100_end

/-- C100 does not hold of all records: a record that is received and not late is not reported if the actor is stopped before its window is closed. -/
theorem c100_disproved : ∃ (S : Sem) (c : Config) (u : Unified) (ins : List Input), c.unify S = .ok u ∧ (kept u.lateness [] (flats ins)).length = 1 ∧
    AggStops S u 0 ins [] := by
  obtain ⟨ordOf, ho⟩ := exists_order (κ := IpAddr) (σ := FlowCache)
  refine ⟨Ag.sem, Ag.config, Ag.unified, [Ag.packet 120 [(1, 10)]], rfl, by decide, ordOf, (itemsOf Ag.unified.keys Ag.unified.aggs [Ag.packet 120 [(1, 10)]]).map some ++ [none], [], ho,
    by simp, .pend rfl .stop, ?_⟩
  exact ⟨[], [], fun _ => ⟨0, 0⟩, .nil, .refl _, .refl _⟩

end Verif.Props
