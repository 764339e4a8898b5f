import Verif.Spec.Poly
import Verif.Spec.RatioStr
import Mathlib.Algebra.Order.Floor.Semiring
import Mathlib.Data.Rat.Floor

/-!
# Reading the text of a polynomial

`-3/2 * x^2 - x + 5` consists of words between spaces.  A term is a number, a power, or a number, `*` and a power.
-/

namespace Hmath
open Polynomial

/-- the words between single spaces -/
def words : List Char → List (List Char)
  | [] => [[]]
  | c :: s =>
    if c = ' ' then [] :: words s
    else match words s with
      | [] => [[c]]
      | w :: ws => (c :: w) :: ws

/-- `x` or `x^k` -/
def readPow : List Char → Option Nat
  | ['x'] => some 1
  | 'x' :: '^' :: k => some (decVal k)
  | _ => none

/-- a term, as exponent and coefficient, and the words after it -/
def readTerm (num : List Char → Option ℚ) : List (List Char) → Option ((Nat × ℚ) × List (List Char))
  | [] => none
  | w :: ws =>
    match readPow w with
    | some k => some ((k, 1), ws)
    | none =>
      match num w with
      | none => none
      | some q =>
        match ws with
        | ['*'] :: p :: ws' =>
          match readPow p with
          | some k => some ((k, q), ws')
          | none => none
        | _ => some ((0, q), ws)

/-- terms, each after its sign; at most `n` of them -/
def readTerms (num : List Char → Option ℚ) : Nat → List (List Char) → Option (List (Nat × ℚ))
  | _, [] => some []
  | 0, _ :: _ => none
  | n + 1, w :: ws =>
    if w = ['+'] ∨ w = ['-'] then
      match readTerm num ws with
      | none => none
      | some ((k, q), ws') =>
        match readTerms num n ws' with
        | none => none
        | some l => some ((k, if w = ['-'] then -q else q) :: l)
    else none

/-- the terms of a text; the first one may have a minus sign directly in front of it -/
def readPoly (num : List Char → Option ℚ) (s : List Char) : Option (List (Nat × ℚ)) :=
  if s.head? = some '-' then readTerms num s.length (['-'] :: words s.tail)
  else readTerms num s.length (['+'] :: words s)

/-- the sum of terms -/
noncomputable def sumTerms (l : List (Nat × ℚ)) : ℚ[X] := (l.map fun t => C t.2 * X ^ t.1).sum

/-- `5` or `5/4` -/
def readFrac (s : List Char) : Option ℚ :=
  if s ≠ [] ∧ s.all (fun c => c.isDigit || c = '/') then
    match s.dropWhile (· ≠ '/') with
    | [] => some (decVal s)
    | _ :: d => some (decVal (s.takeWhile (· ≠ '/')) / decVal d)
  else none

/-- `5` or `5.25` -/
def readDec (s : List Char) : Option ℚ :=
  if s ≠ [] ∧ s.all (fun c => c.isDigit || c = '.') then
    match s.dropWhile (· ≠ '.') with
    | [] => some (decVal s)
    | _ :: f => some (decVal (s.takeWhile (· ≠ '.')) + decVal f / 10 ^ f.length)
  else none

/-- the fraction in lowest terms, or the integer -/
def fracText (q : ℚ) : List Char :=
  (if q < 0 then ['-'] else []) ++ Nat.toDigits 10 q.num.natAbs ++ (if q.den = 1 then [] else '/' :: Nat.toDigits 10 q.den)

/-- the places behind the point that there is room for in `K` characters -/
def room (K : Nat) (q : ℚ) : Nat := K - ((Nat.toDigits 10 ⌊|q|⌋₊).length + 1)

/-- `q` cut off to those places -/
def cutOff (K : Nat) (q : ℚ) : ℚ := (if q < 0 then -1 else 1) * (⌊|q| * 10 ^ room K q⌋₊ / 10 ^ room K q)

/-- elements between brackets -/
def bracketText (l : List (List Char)) : List Char := "[".toList ++ List.intercalate ", ".toList l ++ "]".toList

/-- the rows of a matrix between brackets -/
def matText {r c : Nat} (B : Matrix (Fin r) (Fin c) ℚ) : List Char :=
  bracketText (List.ofFn fun i => bracketText (List.ofFn fun j => fracText (B i j)))

end Hmath
