import Verif.Flow.Ie
/-!
# Operations on fields

`G` stands for `crates/ipfix-code-generator/src/generator.rs`. It generates, for every element, arms of `add_assign_field`, `min_assign_field`,
`max_assign_field` and `bitwise_or_assign_field` and the predicates that say which operations an element supports.
-/
namespace Verif.Collector
open Flow (Kind Value Field Ie Time)

/-- `AggOp`, `crates/collector/src/flow/aggregation/config.rs:136-142` -/
inductive AggOp where
  | add | min | max | boolMapOr
  deriving DecidableEq, Repr

/-- What the registries say of the element with a certain enterprise number and id besides the type of its values, and the operations the model leaves open -/
structure Sem where
  /-- its semantics is `identifier` or `flags` -/
  label : UInt32 → UInt16 → Bool
  /-- its values have names, so that the field holds an enum -/
  registry : UInt32 → UInt16 → Bool
  /-- the order that `#[derive(Ord)]` gives to this enum, on codes: names in the order of their discriminants, `Unassigned` after the last of them -/
  le : UInt32 → UInt16 → Nat → Nat → Bool
  /-- `+` of `f64`, on the bits -/
  fadd : UInt64 → UInt64 → UInt64

/-- a derived order is a linear order -/
structure Sem.Ok (S : Sem) : Prop where
  total : ∀ p i a b, S.le p i a b = true ∨ S.le p i b a = true
  trans : ∀ p i a b c, S.le p i a b = true → S.le p i b c = true → S.le p i a c = true
  anti : ∀ p i a b, S.le p i a b = true → S.le p i b a = true → a = b

/-- `is_numeric`, `G:580-596`. `tcpControlBits` has semantics `flags`. -/
def Sem.isNumeric (S : Sem) (p : UInt32) (i : UInt16) (k : Kind) : Bool :=
  if S.label p i then false
  else if S.registry p i then false
  else match k with
    | .unsigned8 | .unsigned16 | .unsigned32 | .unsigned64 | .signed32 | .float64 => true
    | _ => false

/-- `is_comparable`, `G:598-612` -/
def isComparable : Kind → Bool
  | .string | .octetArray | .mpls | .basicList | .subTemplateList | .subTemplateMultiList | .unsigned256 => false
  | _ => true

/-- `is_bitwise`, `G:614-629` -/
def isBitwise : Kind → Bool
  | .string | .float64 | .basicList | .subTemplateList | .subTemplateMultiList | .seconds | .millis | .micros | .nanos => false
  | _ => true

/-- `*lhs += *rhs`. Addition wraps around as it does in release builds; with debug assertions it panics instead. -/
def Sem.addValue (S : Sem) : Value → Value → Option Value
  | .unsigned8 a, .unsigned8 b => some (.unsigned8 (a + b))
  | .unsigned16 a, .unsigned16 b => some (.unsigned16 (a + b))
  | .unsigned32 a, .unsigned32 b => some (.unsigned32 (a + b))
  | .unsigned64 a, .unsigned64 b => some (.unsigned64 (a + b))
  | .signed32 a, .signed32 b => some (.signed32 (a + b))
  | .float64 a, .float64 b => some (.float64 (S.fadd a b))
  | _, _ => none

/-- order of `chrono::DateTime<Utc>` -/
def Time.le (a b : Time) : Bool := a.secs < b.secs || (a.secs = b.secs && a.nanos ≤ b.nanos)

/-- `std::cmp::min` and `std::cmp::max` of times -/
def Time.min (a b : Time) : Time := if Time.le a b then a else b
def Time.max (a b : Time) : Time := if Time.le a b then b else a

/-- the place of an `OrderedFloat<f64>` in their order: NaN is the greatest and the two zeros are equal -/
def floatKey (bits : UInt64) : Int :=
  let m : Nat := bits.toNat % 2 ^ 63
  if 2047 * 2 ^ 52 < m then 2 ^ 63 else if bits.toNat < 2 ^ 63 then m else -m

/-- the place of `TCPHeaderFlags` in the derived order, `crates/iana/src/tcp.rs:41-70`: FIN, the lowest bit, is compared first -/
def tcpKey (v : UInt8) : Nat :=
  let n := v.toNat
  n % 2 * 128 + n / 2 % 2 * 64 + n / 4 % 2 * 32 + n / 8 % 2 * 16 + n / 16 % 2 * 8 + n / 32 % 2 * 4 + n / 64 % 2 * 2 + n / 128 % 2

/-- the order of integers, or of the names they stand for -/
def Sem.leInt (S : Sem) (p : UInt32) (i : UInt16) (a b : Nat) : Bool := if S.registry p i then S.le p i a b else a ≤ b

/-- `Ord` of the types of values; `none` if there is no arm -/
def Sem.leValue (S : Sem) (p : UInt32) (i : UInt16) : Value → Value → Option Bool
  | .unsigned8 a, .unsigned8 b => some (S.leInt p i a.toNat b.toNat)
  | .unsigned16 a, .unsigned16 b => some (S.leInt p i a.toNat b.toNat)
  | .tcpControlBits a, .tcpControlBits b => some (tcpKey a ≤ tcpKey b)
  | .unsigned32 a, .unsigned32 b => some (S.leInt p i a.toNat b.toNat)
  | .unsigned64 a, .unsigned64 b => some (S.leInt p i a.toNat b.toNat)
  | .signed32 a, .signed32 b => some (a ≤ b)
  | .float64 a, .float64 b => some (floatKey a ≤ floatKey b)
  | .boolean a, .boolean b => some (!a || b)
  | .macAddress a, .macAddress b => some (a ≤ b)
  | .seconds a, .seconds b => some (Time.le a b)
  | .millis a, .millis b => some (Time.le a b)
  | .micros a, .micros b => some (Time.le a b)
  | .nanos a, .nanos b => some (Time.le a b)
  | .ipv4 a, .ipv4 b => some (a ≤ b)
  | .ipv6 a, .ipv6 b => some (a ≤ b)
  | _, _ => none

/-- `lhs.iter_mut().zip(rhs.iter()).for_each(|(a, b)| *a |= b)` -/
def orBytes : Bytes → Bytes → Bytes
  | a :: l, b :: r => (a ||| b) :: orBytes l r
  | l, _ => l

/-- `*lhs |= *rhs`, octet by octet for octet arrays, `G:1035-1083`; of named values the codes are combined,
`crates/ipfix-code-generator/src/generator_sub_registries.rs:283-300` -/
def orValue : Value → Value → Option Value
  | .octetArray a, .octetArray b => some (.octetArray (orBytes a b))
  | .mpls a, .mpls b => some (.mpls (a ||| b))
  | .unsigned8 a, .unsigned8 b => some (.unsigned8 (a ||| b))
  | .unsigned16 a, .unsigned16 b => some (.unsigned16 (a ||| b))
  | .tcpControlBits a, .tcpControlBits b => some (.tcpControlBits (a ||| b))
  | .unsigned32 a, .unsigned32 b => some (.unsigned32 (a ||| b))
  | .unsigned64 a, .unsigned64 b => some (.unsigned64 (a ||| b))
  | .unsigned256 a, .unsigned256 b => some (.unsigned256 (a ||| b))
  | .signed32 a, .signed32 b => some (.signed32 (a ||| b))
  | .boolean a, .boolean b => some (.boolean (a || b))
  | .macAddress a, .macAddress b => some (.macAddress (a ||| b))
  | .ipv4 a, .ipv4 b => some (.ipv4 (a ||| b))
  | .ipv6 a, .ipv6 b => some (.ipv6 (a ||| b))
  | _, _ => none

/-- the arms for an element, `G:915-1086`. `Ord::min` returns the first of equal values and `Ord::max` the second. -/
def Sem.applyValue (S : Sem) (p : UInt32) (i : UInt16) (op : AggOp) (a b : Value) : Option Value :=
  match op with
  | .add => if S.isNumeric p i a.kind then S.addValue a b else none
  | .min => if isComparable a.kind then (S.leValue p i a b).map fun le => if le then a else b else none
  | .max => if isComparable a.kind then (S.leValue p i a b).map fun le => if le then b else a else none
  | .boolMapOr => if isBitwise a.kind then orValue a b else none

/-- `add_assign_field`, `min_assign_field`, `max_assign_field`, `bitwise_or_assign_field`, `G:821-881`, with the arms for vendors' elements, `G:690-745`;
`none` is the error, upon which the left-hand side is as it was -/
def Sem.apply (S : Sem) (op : AggOp) : Field → Field → Option Field
  | .known p i v, .known p' i' v' => if p = p' ∧ i = i' then (S.applyValue p i op v v').map (.known p i) else none
  | _, _ => none

/-- `supports_arithmetic_ops`, `G:1176-1213`; a type that is not in the registry is `octetArray`. `tcpControlBits` has semantics `flags`. -/
def Sem.supportsArithmetic (S : Sem) : Ie → Bool
  | .known p i k =>
    if S.label p i then false
    else if S.registry p i then false
    else match k with
      | .unsigned8 | .unsigned16 | .unsigned32 | .unsigned64 | .signed32 | .float64 => true
      | _ => false
  | .vendorUnknown _ _ | .unknown _ _ => false

/-- `supports_comparison_ops`, `G:1217-1243` -/
def supportsComparison : Ie → Bool
  | .known _ _ k =>
    match k with
    | .octetArray | .mpls | .boolean | .macAddress | .string | .unsigned256 => false
    | _ => true
  | .vendorUnknown _ _ | .unknown _ _ => false

/-- `supports_bitwise_ops`, `G:1247-1273` -/
def supportsBitwise : Ie → Bool
  | .known _ _ k =>
    match k with
    | .float64 | .string | .seconds | .millis | .micros | .nanos | .basicList | .subTemplateList | .subTemplateMultiList => false
    | _ => true
  | .vendorUnknown _ _ | .unknown _ _ => true

end Verif.Collector
