/-!
# JSON values, and what `serde` reads and writes of structures

`J` is the crate `serde_json` with `preserve_order`, which the lock file of the workspace turns on (`Cargo.lock`, `serde_json` depends on `indexmap`). A document is the tree of a text: members of objects in their order, and
as often as they occur. Text, its escapes and numbers that are not whole are left out: those numbers are told apart only by a number of their own. Errors of `serde` are all `none`.
-/
namespace Verif.Notif

/-- a document -/
inductive Json where
  | null
  | bool (b : Bool)
  | int (i : Int)
  /-- a number that is not whole -/
  | frac (n : Nat)
  | str (s : String)
  | arr (l : List Json)
  | obj (m : List (String × Json))

/-- members of an object -/
abbrev Members := List (String × Json)

/-- `Map::insert` of `serde_json` with `preserve_order`: the value of a key that is there is replaced in place -/
def insertM : Members → String → Json → Members
  | [], k, v => [(k, v)]
  | (k', v') :: r, k, v => if k' = k then (k, v) :: r else (k', v') :: insertM r k v

/-- members as they are inserted one after the other -/
def dedup (m : Members) : Members := m.foldl (fun a x => insertM a x.1 x.2) []

mutual
/-- a document as it is read to a `Value`: of members of the same name the last value counts -/
def norm : Json → Json
  | .arr l => .arr (normList l)
  | .obj m => .obj (dedup (normMembers m))
  | .null => .null
  | .bool b => .bool b
  | .int i => .int i
  | .frac n => .frac n
  | .str s => .str s
/-- `norm` of elements -/
def normList : List Json → List Json
  | [] => []
  | j :: l => norm j :: normList l
/-- `norm` of members -/
def normMembers : List (String × Json) → List (String × Json)
  | [] => []
  | (k, v) :: m => (k, norm v) :: normMembers m
end

/-- the values of members with one of some names: the name of a field and its aliases -/
def valuesOf (names : List String) (m : Members) : List Json := m.filterMap fun x => if x.1 ∈ names then some x.2 else none

/-- the other members -/
def without (names : List String) (m : Members) : Members := m.filter fun x => decide (x.1 ∉ names)

/-- a field that must be there, and once: a derived `visit_map` -/
def readReq (p : Json → Option α) (names : List String) (m : Members) : Option α :=
  match valuesOf names m with
  | [v] => p v
  | _ => none

/-- an `Option`: `null` is none -/
def readNull (p : Json → Option α) : Json → Option (Option α)
  | .null => some none
  | v => (p v).map some

/-- a field that is an `Option`: it may be missing -/
def readOpt (p : Json → Option α) (names : List String) (m : Members) : Option (Option α) :=
  match valuesOf names m with
  | [] => some none
  | [v] => readNull p v
  | _ => none

/-- text -/
def readStr : Json → Option String
  | .str s => some s
  | _ => none

/-- a number without sign that is less than a bound -/
def readNat (bound : Nat) : Json → Option Nat
  | .int i => if 0 ≤ i ∧ i < bound then some i.toNat else none
  | _ => none

/-- a truth value -/
def readBool : Json → Option Bool
  | .bool b => some b
  | _ => none

/-- all elements -/
def readAll (p : Json → Option α) : List Json → Option (List α)
  | [] => some []
  | j :: l => (p j).bind fun a => (readAll p l).map (a :: ·)

/-- a boxed slice -/
def readArr (p : Json → Option α) : Json → Option (List α)
  | .arr l => readAll p l
  | _ => none

/-- a `Value` -/
def readAny (j : Json) : Option Json := some (norm j)

/-- the name of a variant without data: text, or an object with that name and `null` -/
def readUnit : Json → Option String
  | .str s => some s
  | .obj [(s, .null)] => some s
  | _ => none

/-- `FlatMapDeserializer::deserialize_enum` of `serde`: the first member with the name of a variant is taken out -/
def takeFirst (names : List String) : Members → Option ((String × Json) × Members)
  | [] => none
  | x :: r => if x.1 ∈ names then some (x, r) else (takeFirst names r).map fun y => (y.1, x :: y.2)

/-- a flattened `Option` of an enumeration: `FlatMapDeserializer::deserialize_option` gives none if reading fails, and what was taken out is gone -/
def readFlat (names : List String) (p : String × Json → Option α) (m : Members) : Option α × Members :=
  match takeFirst names m with
  | none => (none, m)
  | some (x, r) => (p x, r)

/-- a member that is written if there is a value: `skip_serializing_if = "Option::is_none"` -/
def putOpt (k : String) (f : α → Json) : Option α → Members
  | none => []
  | some a => [(k, f a)]

/-- a flattened `Value` is written: only objects, and `null` as nothing -/
def flatMembers : Json → Option Members
  | .obj m => some m
  | .null => some []
  | _ => none

/-- dates as text: `chrono`, which is left out -/
structure Dates where
  parse : String → Option Nat
  text : Nat → String

/-- a date -/
def Dates.read (d : Dates) : Json → Option Nat
  | .str s => d.parse s
  | _ => none

end Verif.Notif
