import Mathlib.Data.Rat.Defs
import Mathlib.Algebra.Order.Field.Rat
import Mathlib.Algebra.Field.Rat

/-!
# Specification of binary floating point numbers

The interchange formats of IEEE 754: `m` bits of mantissa, `e` bits of exponent, a sign bit.
-/

namespace Hmath

/-- what a bit pattern stands for -/
inductive Float' where
  | finite (q : ℚ)
  | inf (neg : Bool)
  | nan

/-- exponent bias -/
def floatBias (e : Nat) : Nat := 2 ^ (e - 1) - 1

/-- the value of a bit pattern -/
def floatVal (m e b : Nat) : Float' :=
  let neg := b / 2 ^ (m + e) % 2 = 1
  let field := b / 2 ^ m % 2 ^ e
  let frac := b % 2 ^ m
  let sign : ℚ := if neg then -1 else 1
  if field = 2 ^ e - 1 then if frac = 0 then .inf neg else .nan
  else if field = 0 then .finite (sign * frac * 2 ^ (1 - floatBias e - m : ℤ))
  else .finite (sign * (2 ^ m + frac) * 2 ^ (field - floatBias e - m : ℤ))

/-- single precision -/
def f32Val (b : Nat) : Float' := floatVal 23 8 b

/-- double precision -/
def f64Val (b : Nat) : Float' := floatVal 52 11 b

end Hmath
