import Verif.Core.HMap
/-!
# References to the fields of a record, and maps

`T` stands for `crates/collector/src/flow/types.rs`. `Field` and `IE` are parameters with the function from a field to its element (`HasIE`) and the
order that `#[derive(Ord)]` gives to pairs of a reference and a field.
-/
namespace Verif.Collector

/-- `HasIE` of `flow-pkt`: the element a field is of -/
class HasIe (F : Type) (I : outParam Type) where
  ie : F → I
export HasIe (ie)

/-- `FieldRef`, `T:41-48`: an element and which of its occurrences -/
structure FieldRef (I : Type) where
  ie : I
  index : Nat
  deriving DecidableEq, Repr

/-- the order of `(FieldRef, Field)`, derived: it is a strict linear order -/
class FieldOrd (F : Type) (I : outParam Type) where
  lt : FieldRef I × F → FieldRef I × F → Bool
  irrefl : ∀ a, lt a a = false
  trans : ∀ {a b c}, lt a b = true → lt b c = true → lt a c = true
  total : ∀ {a b}, lt a b = false → a ≠ b → lt b a = true

variable {F I : Type} [DecidableEq F] [DecidableEq I] [HasIe F I]

/-- the loop of `FieldRef::map_fields`, `T:83-102`, with the counters so far -/
def mapFieldsFrom (counters : I → Nat) : List F → List (FieldRef I × F)
  | [] => []
  | f :: fs => (⟨ie f, counters (ie f)⟩, f) :: mapFieldsFrom (fun i => if i = ie f then counters (ie f) + 1 else counters i) fs

/-- `FieldRef::map_fields`, `T:83-102`, and the functions that collect into a particular collection, `T:104-136`. As no reference occurs twice
(`mapFields_nodup`) a hash map has the same entries. -/
def mapFields (fs : List F) : List (FieldRef I × F) := mapFieldsFrom (fun _ => 0) fs

/-! ## Hash maps that are iterated over

They are lists of entries in the order of insertion; what is said about results does not depend on the order. -/

variable {κ α : Type} [DecidableEq κ]

/-- `get` -/
def _root_.List.look (m : List (κ × α)) (k : κ) : Option α :=
  match m with
  | [] => none
  | (k', v) :: m => if k' = k then some v else m.look k

/-- `insert` -/
def put (m : List (κ × α)) (k : κ) (v : α) : List (κ × α) :=
  match m with
  | [] => [(k, v)]
  | (k', v') :: m => if k' = k then (k, v) :: m else (k', v') :: put m k v

/-- `remove` -/
def del (m : List (κ × α)) (k : κ) : List (κ × α) := m.filter fun x => x.1 ≠ k

/-- `BTreeMap::insert`: entries are kept in the order of their keys -/
def putOrd (lt : κ → κ → Bool) (m : List (κ × α)) (k : κ) (v : α) : List (κ × α) :=
  match m with
  | [] => [(k, v)]
  | (k', v') :: m => if k' = k then (k, v) :: m else if lt k k' then (k, v) :: (k', v') :: m else (k', v') :: putOrd lt m k v

end Verif.Collector
