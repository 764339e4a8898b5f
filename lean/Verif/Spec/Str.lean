import Mathlib.Data.Nat.Log
import Verif.Spec.BigInt

/-!
# Specification of numerals

Independent of the model functions: what a numeral is and which number it
denotes.  Canonical numerals are those of the Lean core library
(`Nat.toDigits`).
-/

namespace Hmath

/-- the value of a digit character: its position among the digits -/
def digitVal (c : Char) : Option Nat :=
  match ['0','1','2','3','4','5','6','7','8','9','a','b','c','d','e','f'].idxOf? c with
  | some d => some d
  | none => ['0','1','2','3','4','5','6','7','8','9','A','B','C','D','E','F'].idxOf? c

/-- positional value in base `b` of a list of digits, most significant first, after a
prefix of value `acc`; the first character that is no digit is an error -/
def readDigits (b : Nat) : List Char → Nat → Except ConvErr Nat
  | [], acc => .ok acc
  | c :: cs, acc =>
    match digitVal c with
    | some d => if d < b then readDigits b cs (acc * b + d) else .error (.invalidChar c)
    | none => .error (.invalidChar c)

/-- a nonempty list of digits -/
def readNumeral (b : Nat) (ds : List Char) : Except ConvErr Nat :=
  if ds = [] then .error .noData else readDigits b ds 0

/-- The accepted strings: a decimal numeral without leading zero, a single `0`, or a
prefix `0x`, `0o`, `0b` (either case) followed by digits; underscores are ignored
except as the first character. -/
def parseNat : List Char → Except ConvErr Nat
  | [] => .error .noData
  | c :: cs =>
    if c = '0' then
      match cs.filter (· ≠ '_') with
      | [] => .ok 0
      | x :: ds =>
        if x = 'x' ∨ x = 'X' then readNumeral 16 ds
        else if x = 'b' ∨ x = 'B' then readNumeral 2 ds
        else if x = 'o' ∨ x = 'O' then readNumeral 8 ds
        else .error (.invalidChar x)
    else readDigits 10 (c :: cs.filter (· ≠ '_')) 0

/-- An optional minus sign before a numeral. -/
def parseInt : List Char → Except ConvErr Int
  | [] => .error .noData
  | '-' :: s => (parseNat s).map (fun n => -(n : Int))
  | c :: s => (parseNat (c :: s)).map (fun n => (n : Int))

/-- the call returns the error, or the well-formed number of the given value -/
def ComputesE (m : M (Except ConvErr (List Nat))) : Except ConvErr Nat → Prop
  | .ok n => ∃ c, m = pure (.ok c) ∧ Valid c ∧ val c = n
  | .error e => m = pure (.error e)

/-- the call returns the error, or the well-formed signed number of the given value -/
def ComputesIE (m : M (Except ConvErr BigI)) : Except ConvErr Int → Prop
  | .ok z => ∃ c, m = pure (.ok c) ∧ IValid c ∧ ival c = z
  | .error e => m = pure (.error e)

/-- canonical signed numeral in base `b`, with a prefix after the sign -/
def intDigits (b : Nat) (pre : List Char) (z : Int) : List Char :=
  (if z < 0 then ['-'] else []) ++ pre ++ Nat.toDigits b z.natAbs

/-- drop trailing zeros of a fraction part -/
def stripZeros (s : List Char) : List Char := (s.reverse.dropWhile (· = '0')).reverse

/-- Scientific notation of `n > 0`: the first digit, up to `k - 1` further digits (cut off,
not rounded) without trailing zeros, and the exponent `⌊log₁₀ n⌋`. -/
def sciSpec (n k : Nat) : List Char :=
  let ds := Nat.toDigits 10 n
  let f := stripZeros (ds.tail.take (k - 1))
  ds.take 1 ++ (if f = [] then [] else '.' :: f) ++ 'e' :: Nat.toDigits 10 (Nat.log 10 n)

end Hmath
