import Verif.Flow.Ie
/-!
# Binary64 arithmetic on values that are not negative

The Rust type `f64` with `as f64`, `+`, `*`, `/` and `as u64`, for the values that renormalization computes with: zero, positive numbers, infinity and NaN.
A finite value is kept as the number of times it contains `2^-1074`, the smallest positive value of the type, so that every finite value is a natural number.
Results are rounded to the nearest value of the type, to the even one of two, as IEEE 754 and the Rust reference have it.
-/
namespace Verif.Collector

/-- an `f64` that is not negative: `fin n` is `n * 2^-1074` -/
inductive F64 where
  | fin (n : Nat)
  | inf
  | nan
  deriving DecidableEq, Repr

namespace F64

/-- `n / d` rounded to the nearest natural number, to the even one of two -/
def nearest (n d : Nat) : Nat :=
  if 2 * (n % d) < d then n / d
  else if d < 2 * (n % d) then n / d + 1
  else n / d + n / d % 2

/-- the distance between values of the type around `q`, of which 53 binary digits are kept -/
def unit (q : Nat) : Nat := 2 ^ (q.log2 - 52)

/-- the number `1`, and the first power of two beyond the type -/
def one : Nat := 2 ^ 1074
def top : Nat := 2 ^ 2098

/-- `n / d` in units of `2^-1074`, rounded to a value of the type -/
def round (n d : Nat) : F64 :=
  let r := nearest n (d * unit (n / d)) * unit (n / d)
  if r < top then fin r else inf

/-- `n as f64` of an unsigned integer -/
def ofNat (n : Nat) : F64 := round (n * one) 1

/-- `f64::from_bits` of a value that is not negative -/
def ofBits (b : UInt64) : F64 :=
  let e := b.toNat / 2 ^ 52
  let m := b.toNat % 2 ^ 52
  if e = 0 then fin m else if e < 2047 then fin ((2 ^ 52 + m) * 2 ^ (e - 1)) else if m = 0 then inf else nan

def add : F64 → F64 → F64
  | fin a, fin b => round (a + b) 1
  | nan, _ => nan
  | _, nan => nan
  | _, _ => inf

def mul : F64 → F64 → F64
  | fin a, fin b => round (a * b) one
  | nan, _ => nan
  | _, nan => nan
  | inf, fin b => if b = 0 then nan else inf
  | fin a, inf => if a = 0 then nan else inf
  | inf, inf => inf

def div : F64 → F64 → F64
  | fin a, fin b => if b = 0 then if a = 0 then nan else inf else round (a * one) b
  | nan, _ => nan
  | _, nan => nan
  | inf, fin _ => inf
  | fin _, inf => fin 0
  | inf, inf => nan

/-- `x as u64`: towards zero, at most the largest, and zero for NaN -/
def toU64 : F64 → UInt64
  | fin n => UInt64.ofNat (min (n / one) (2 ^ 64 - 1))
  | inf => UInt64.ofNat (2 ^ 64 - 1)
  | nan => 0

end F64
end Verif.Collector
