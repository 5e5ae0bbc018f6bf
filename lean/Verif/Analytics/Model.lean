import Verif.Core.HMap
/-!
# Model of `crates/analytics`

* `aggregation.rs`: `WindowAggregator`, the iterator adaptor and the stream adaptor around it.
* `flow.rs`: the reduction helpers.

Time is a number of nanoseconds since `DateTime::<Utc>::MIN_UTC` (chrono, 1 January of year -262143,
00:00:00 UTC, hence minute-aligned), so every `DateTime<Utc>` is one of the numbers up to `maxTime`.
chrono's operators `+`/`-` panic when the result is not a `DateTime<Utc>`; `none` stands for that panic.
chrono's leap-second values are left out.
-/
namespace Verif.Analytics

/-- one minute in nanoseconds -/
def minuteNs : Nat := 60000000000

/-- `DateTime::<Utc>::MAX_UTC` (chrono): 31 December of year 262142, 23:59:59.999999999 -/
def maxTime : Nat := 191491529 * 86400000000000 - 1

/-- `DateTime<Utc> - Duration`: panics when out of range -/
def tsub (t d : Nat) : Option Nat := if d ≤ t then some (t - d) else none
/-- `DateTime<Utc> + Duration`: panics when out of range -/
def tadd (t d : Nat) : Option Nat := if t + d ≤ maxTime then some (t + d) else none

/-- `crates/analytics/src/aggregation.rs:78-88` `get_window_start`: the calendar fields down to the minute,
seconds set to 0. UTC days have 1440 minutes, so this is rounding down to a whole minute. -/
def windowStart (t : Nat) : Nat := t / minuteNs * minuteNs

/-- `crates/analytics/src/aggregation.rs:64-74`: an input type with its `TimeSeriesData` and an `Aggregator`
implementation (`init` already applied to the configured `agg_init`). -/
structure Agg (κ ι σ ο : Type) where
  key : ι → κ
  ts : ι → Nat
  init : σ
  push : σ → ι → σ
  flush : σ → ο

/-- `crates/analytics/src/aggregation.rs:96-108` `WindowAggregator` (`agg_init` is in `Agg.init`) -/
structure WinAgg (κ σ : Type) where
  active : HMap κ (BMap σ)
  current : HMap κ Nat
  dur : Nat
  lat : Nat

variable {κ ι σ ο : Type} [DecidableEq κ]

/-- `crates/analytics/src/aggregation.rs:115-123` `new` -/
def WinAgg.new (dur lat : Nat) : WinAgg κ σ := ⟨HMap.empty, HMap.empty, dur, lat⟩

/-- `aggregation.rs:150-153`: `entry(window_start).or_insert_with(init).push(item)` -/
def pushInto (A : Agg κ ι σ ο) (m : BMap σ) (s : Nat) (x : ι) : BMap σ :=
  m.insert s (A.push ((m.get? s).getD A.init) x)

/-- `aggregation.rs:158-162`: `split_off(&cutoff)`, the swap, then moving the entry at `cutoff` itself:
(windows handed out, windows kept). -/
def splitWindows (m : BMap σ) (cutoff : Nat) : BMap σ × BMap σ :=
  let below := m.filter (fun p => p.1 < cutoff)
  let atOrAbove := m.filter (fun p => ¬ p.1 < cutoff)
  match BMap.get? atOrAbove cutoff with
  | some e => (BMap.insert cutoff e below, atOrAbove.filter (fun p => p.1 ≠ cutoff))
  | none => (below, atOrAbove)

/-- `aggregation.rs:165-170` and `187`: `((start, start + window_duration), agg.flush())` -/
def closeWindow (A : Agg κ ι σ ο) (dur : Nat) (p : Nat × σ) : Option ((Nat × Nat) × ο) := do
  let e ← tadd p.1 dur
  return ((p.1, e), A.flush p.2)

/-- `crates/analytics/src/aggregation.rs:124-173` `process_item`: the finished windows, the late items and
the new state. -/
def processItem (A : Agg κ ι σ ο) (st : WinAgg κ σ) (x : ι) :
    Option (List ((Nat × Nat) × ο) × List ι × WinAgg κ σ) := do
  let ts := A.ts x
  let key := A.key x
  let cur := (st.current key).getD ts
  let st := { st with current := st.current.insert key cur }
  let bound ← tsub cur st.lat
  if ts < bound then
    return ([], [x], st)
  else
    let cur := max cur ts
    let ws := windowStart ts
    let m := pushInto A ((st.active key).getD []) ws x
    let c ← tsub cur st.lat
    let cutoff ← tsub (windowStart c) st.dur
    let (out, keep) := splitWindows m cutoff
    let res ← out.mapM (closeWindow A st.dur)
    return (res, [], { st with current := st.current.insert key cur, active := st.active.insert key keep })

/-- `crates/analytics/src/aggregation.rs:177-188` `flush`; `ord` is the order in which the hash map
yields its values. -/
def flushAll (A : Agg κ ι σ ο) (ord : List (κ × BMap σ)) (st : WinAgg κ σ) :
    Option (List ((Nat × Nat) × ο) × WinAgg κ σ) := do
  let res ← (ord.flatMap Prod.snd).mapM (closeWindow A st.dur)
  return (res, { st with active := HMap.empty, current := HMap.empty })

/-- `either::Either<(Window, AggValue), Input>` -/
inductive Out (ι ο : Type) where
  | win (w : Nat × Nat) (v : ο)
  | late (x : ι)
  deriving DecidableEq, Repr

/-- `crates/analytics/src/aggregation.rs:196-213` `WindowedAggregationAdaptor`; `source` is what the wrapped
iterator still has to yield. -/
structure Adaptor (κ ι σ ο : Type) where
  source : List ι
  agg : WinAgg κ σ
  buffer : List ((Nat × Nat) × ο)
  lateBuffer : List ι

/-- `crates/analytics/src/aggregation.rs:224-240` `new` -/
def Adaptor.new (source : List ι) (dur lat : Nat) : Adaptor κ ι σ ο := ⟨source, WinAgg.new dur lat, [], []⟩

/-- `crates/analytics/src/aggregation.rs:243-251` `get_next` -/
def Adaptor.getNext (a : Adaptor κ ι σ ο) : Option (Out ι ο) × Adaptor κ ι σ ο :=
  match a.lateBuffer with
  | x :: l => (some (.late x), { a with lateBuffer := l })
  | [] =>
    match a.buffer with
    | w :: b => (some (.win w.1 w.2), { a with buffer := b })
    | [] => (none, a)

/-- the loop of `next` once both buffers are empty, `aggregation.rs:270-291`, by recursion on what the source
still yields -/
def nextLoop (A : Agg κ ι σ ο) (ordOf : HMap κ (BMap σ) → List (κ × BMap σ)) :
    List ι → WinAgg κ σ → Option (Option (Out ι ο) × Adaptor κ ι σ ο)
  | [], st => do
    let (res, st') ← flushAll A (ordOf st.active) st
    return Adaptor.getNext ⟨[], st', res, []⟩
  | x :: rest, st => do
    let (res, late, st') ← processItem A st x
    match Adaptor.getNext ⟨rest, st', res, late⟩ with
    | (some o, a) => return (some o, a)
    | (none, _) => nextLoop A ordOf rest st'

/-- `crates/analytics/src/aggregation.rs:263-294` `Iterator::next`; the stream adaptor's `poll_next`
(`aggregation.rs:377-420`) runs the same steps whenever its source is not pending. -/
def Adaptor.next (A : Agg κ ι σ ο) (ordOf : HMap κ (BMap σ) → List (κ × BMap σ)) (a : Adaptor κ ι σ ο) :
    Option (Option (Out ι ο) × Adaptor κ ι σ ο) :=
  match a.getNext with
  | (some o, a') => some (some o, a')
  | (none, _) => nextLoop A ordOf a.source a.agg

/-- A source of the stream adaptor: at each poll it is pending or yields an item; it ends after the list. -/
abbrev Polls (ι : Type) := List (Option ι)

/-- `Poll<Option<Self::Item>>` -/
inductive Poll (α : Type) where
  | pending
  | ready (a : α)

/-- the loop of `poll_next` once both buffers are empty, `aggregation.rs:389-418` -/
def pollLoop (A : Agg κ ι σ ο) (ordOf : HMap κ (BMap σ) → List (κ × BMap σ)) :
    Polls ι → WinAgg κ σ → Option (Poll (Option (Out ι ο)) × Polls ι × Adaptor κ ι σ ο)
  | [], st => do
    let (res, st') ← flushAll A (ordOf st.active) st
    let (o, a) := Adaptor.getNext ⟨[], st', res, []⟩
    return (.ready o, [], a)
  | none :: rest, st => some (.pending, rest, ⟨[], st, [], []⟩)
  | some x :: rest, st => do
    let (res, late, st') ← processItem A st x
    match Adaptor.getNext ⟨[], st', res, late⟩ with
    | (some o, a) => return (.ready (some o), rest, a)
    | (none, _) => pollLoop A ordOf rest st'

/-- `crates/analytics/src/aggregation.rs:377-420` `Stream::poll_next`; the adaptor's own `source` field is
unused, the polls the source still has to answer are a separate argument. -/
def pollNext (A : Agg κ ι σ ο) (ordOf : HMap κ (BMap σ) → List (κ × BMap σ)) (src : Polls ι)
    (a : Adaptor κ ι σ ο) : Option (Poll (Option (Out ι ο)) × Polls ι × Adaptor κ ι σ ο) :=
  match a.getNext with
  | (some o, a') => some (.ready (some o), src, a')
  | (none, _) => pollLoop A ordOf src a.agg

/-! ## `flow.rs` -/

/-- `crates/analytics/src/flow.rs:20-27` `AggrOp` -/
inductive AggrOp where
  | key (indices : Option (List Nat))
  | add | min | max | boolMapOr
  deriving DecidableEq, Repr

/-- `crates/analytics/src/flow.rs:29-34` `AggregationError` (the variant used by the reductions) -/
inductive AggErr | operationNotSupported
  deriving DecidableEq, Repr

/-- `crates/analytics/src/flow.rs:100-121` `set_field`, and `126-145` `set_field_clone` -/
def setField {τ : Type} (lhs rhs : Option (List τ)) (indices : Option (List Nat)) : Option (List τ) :=
  match indices with
  | some idxs =>
    match rhs with
    | some r =>
      let res := idxs.filterMap (fun i => r[i]?)
      if res.isEmpty then none else some res
    | none => lhs
  | none =>
    match rhs with
    | some r => some r
    | none => none

/-- the loop shared by `aggr_add`, `aggr_min`, `aggr_max`, `aggr_bitor`: combine position by position in place,
then append what the right-hand side has beyond -/
def zipGrow {τ : Type} (f : τ → τ → τ) (l r : List τ) : List τ :=
  let l' := List.zipWith f l r ++ l.drop r.length
  if r.length > l'.length then l' ++ r.drop l'.length else l'

/-- `crates/analytics/src/flow.rs:148-170`, `173-197`, `200-224`, `227-249`: `aggr_add`, `aggr_min`,
`aggr_max`, `aggr_bitor`, which differ only in the operation -/
def aggr {τ : Type} (f : τ → τ → τ) (lhs rhs : Option (List τ)) : Option (List τ) :=
  match lhs, rhs with
  | none, r => r
  | some l, none => some l
  | some l, some r => some (zipGrow f l r)

/-- `crates/analytics/src/flow.rs:39-52` `reduce_num` -/
def reduceNum {τ : Type} (addF minF maxF : τ → τ → τ) (op : AggrOp) (lhs rhs : Option (List τ)) :
    Except AggErr (Option (List τ)) :=
  match op with
  | .key i => .ok (setField lhs rhs i)
  | .add => .ok (aggr addF lhs rhs)
  | .min => .ok (aggr minF lhs rhs)
  | .max => .ok (aggr maxF lhs rhs)
  | .boolMapOr => .error .operationNotSupported

/-- `crates/analytics/src/flow.rs:55-67` `reduce_boolmap` -/
def reduceBoolmap {τ : Type} (orF : τ → τ → τ) (op : AggrOp) (lhs rhs : Option (List τ)) :
    Except AggErr (Option (List τ)) :=
  match op with
  | .key i => .ok (setField lhs rhs i)
  | .boolMapOr => .ok (aggr orF lhs rhs)
  | _ => .error .operationNotSupported

/-- `crates/analytics/src/flow.rs:70-97` `reduce_misc` and `reduce_misc_clone` -/
def reduceMisc {τ : Type} (op : AggrOp) (lhs rhs : Option (List τ)) : Except AggErr (Option (List τ)) :=
  match op with
  | .key i => .ok (setField lhs rhs i)
  | _ => .error .operationNotSupported

end Verif.Analytics
