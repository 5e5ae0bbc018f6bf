import Verif.Analytics.Model
/-!
# What the windowing properties speak about

Independent of the model's state: an input is late when an earlier input of the same key is ahead of it by
more than the lateness; a batch is the ghost content of one emitted window.
-/
namespace Verif.Analytics
variable {κ ι σ ο : Type} [DecidableEq κ]

/-- `x` comes too late after the inputs `pre`: one of the same key is ahead by more than `lat`. -/
def IsLate (A : Agg κ ι σ ο) (lat : Nat) (pre : List ι) (x : ι) : Prop :=
  ∃ y ∈ pre, A.key y = A.key x ∧ A.ts x + lat < A.ts y

instance (A : Agg κ ι σ ο) (lat : Nat) (pre : List ι) (x : ι) : Decidable (IsLate A lat pre x) :=
  inferInstanceAs (Decidable (∃ y ∈ pre, _))

/-- the late ones among `items` that arrive after `pre` -/
def lateItems (A : Agg κ ι σ ο) (lat : Nat) : List ι → List ι → List ι
  | _, [] => []
  | pre, x :: rest => (if IsLate A lat pre x then [x] else []) ++ lateItems A lat (pre ++ [x]) rest

/-- the others -/
def acceptedItems (A : Agg κ ι σ ο) (lat : Nat) : List ι → List ι → List ι
  | _, [] => []
  | pre, x :: rest => (if IsLate A lat pre x then [] else [x]) ++ acceptedItems A lat (pre ++ [x]) rest

/-- the aggregator state after pushing `l` in order -/
def Agg.eval (A : Agg κ ι σ ο) (l : List ι) : σ := l.foldl A.push A.init

/-- A batch: key, window start and the inputs that were pushed into the window. -/
abbrev Batch (κ ι : Type) := κ × Nat × List ι

/-- what the user sees of a batch -/
def Batch.out (A : Agg κ ι σ ο) (dur : Nat) (b : Batch κ ι) : Out ι ο :=
  .win (b.2.1, b.2.1 + dur) (A.flush (A.eval b.2.2))

/-- the windows among the outputs, the late items among the outputs -/
def winsOf : List (Out ι ο) → List (Out ι ο)
  | [] => []
  | .win w v :: r => .win w v :: winsOf r
  | .late _ :: r => winsOf r
def latesOf : List (Out ι ο) → List ι
  | [] => []
  | .win _ _ :: r => latesOf r
  | .late x :: r => x :: latesOf r

/-- `for o in adaptor { outs.push(o) }`: calling `next` until it returns `None` gives `outs`.
No run exists if a call panics. -/
inductive Collects (A : Agg κ ι σ ο) (ordOf : HMap κ (BMap σ) → List (κ × BMap σ)) :
    Adaptor κ ι σ ο → List (Out ι ο) → Prop
  | done {a a'} : a.next A ordOf = some (none, a') → Collects A ordOf a []
  | step {a a' o outs} : a.next A ordOf = some (some o, a') → Collects A ordOf a' outs →
      Collects A ordOf a (o :: outs)

/-- The same for a stream, whose source may be pending in between. -/
inductive StreamCollects (A : Agg κ ι σ ο) (ordOf : HMap κ (BMap σ) → List (κ × BMap σ)) :
    Polls ι → Adaptor κ ι σ ο → List (Out ι ο) → Prop
  | done {src a src' a'} : pollNext A ordOf src a = some (.ready none, src', a') →
      StreamCollects A ordOf src a []
  | pend {src a src' a' outs} : pollNext A ordOf src a = some (.pending, src', a') →
      StreamCollects A ordOf src' a' outs → StreamCollects A ordOf src a outs
  | step {src a src' a' o outs} : pollNext A ordOf src a = some (.ready (some o), src', a') →
      StreamCollects A ordOf src' a' outs → StreamCollects A ordOf src a (o :: outs)

/-- `ordOf` is a possible iteration order for every map it is asked about (with finitely many keys). -/
def IsOrder (ordOf : HMap κ (BMap σ) → List (κ × BMap σ)) : Prop :=
  ∀ m l, HMap.Enum l m → HMap.Enum (ordOf m) m

/-- `bs` explains the outputs `outs` for the inputs `items`: the windows are those of `bs` in order; together
with the late items the batches hold every input exactly once; a batch is non-empty, in arrival order, and all
its items have its key. -/
structure Accounts (A : Agg κ ι σ ο) (dur : Nat) (items : List ι) (outs : List (Out ι ο))
    (bs : List (Batch κ ι)) : Prop where
  windows : winsOf outs = bs.map (Batch.out A dur)
  once : (latesOf outs ++ bs.flatMap (fun b => b.2.2)).Perm items
  nonempty : ∀ b ∈ bs, b.2.2 ≠ []
  ordered : ∀ b ∈ bs, b.2.2.Sublist items
  oneKey : ∀ b ∈ bs, ∀ x ∈ b.2.2, A.key x = b.1

/-- values at position `i` of the rows that have one -/
def column {τ : Type} (rows : List (Option (List τ))) (i : Nat) : List τ :=
  rows.filterMap (fun r => r.bind (fun l => l[i]?))

/-- combining a non-empty list of values from the left -/
def reduce1 {τ : Type} (f : τ → τ → τ) : List τ → Option τ
  | [] => none
  | x :: xs => some (xs.foldl f x)

end Verif.Analytics
