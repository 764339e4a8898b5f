import Verif.Spec.RatioStr
import Mathlib.Data.Rat.Floor

/-!
# Specification of the decimal text of a rational number
-/

namespace Hmath

/-- the digit of `q ≥ 0` at the place `10^-(i+1)` -/
def decimalDigit (q : ℚ) (i : Nat) : Nat := ⌊q * 10 ^ (i + 1)⌋₊ % 10

/-- `q ≥ 0` in decimal, cut off (not rounded) after `d` digits behind the point, without trailing zeros -/
def fixedRat (neg : Prop) [Decidable neg] (q : ℚ) (d : Nat) : List Char :=
  let f := stripZeros ((List.range d).map fun i => Nat.digitChar (decimalDigit q i))
  (if neg then ['-'] else []) ++ Nat.toDigits 10 ⌊q⌋₊ ++ (if f = [] then [] else '.' :: f)

/-- an exponent as text -/
def expText (x : Int) : List Char := 'e' :: ((if x < 0 then ['-'] else []) ++ Nat.toDigits 10 x.natAbs)

/-- how many digits behind the point there is room for: in `k` characters, or in three more than the
exponent takes if that is more, after the sign, one digit, the point and the exponent -/
def sciRoom (neg : Prop) [Decidable neg] (x : Int) (k : Nat) : Nat :=
  max k ((expText x).length + 3) - (expText x).length - (if neg then 1 else 0) - 2

/-- Scientific notation of `N · 10^X`, `N > 0`: sign, the first digit of `N`, the others without trailing zeros and
then cut off after `c` of them, and the exponent. -/
def sciCutRat (neg : Prop) [Decidable neg] (N : Nat) (X : Int) (c : Nat) : List Char :=
  let ds := Nat.toDigits 10 N
  let f := (stripZeros ds.tail).take c
  (if neg then ['-'] else []) ++ (ds.take 1 ++ (if f = [] then [] else '.' :: f)) ++ expText (X + Nat.log 10 N)

end Hmath
