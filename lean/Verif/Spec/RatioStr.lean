import Verif.Spec.Str
import Verif.Spec.Ratio

/-!
# Specification of rational literals

`[-]digits[.digits][e exponent]`, written independently of the parser.
-/

namespace Hmath

/-- the pieces of a literal -/
structure RatLit where
  /-- a minus sign in front -/
  neg : Bool
  /-- the digits before the point -/
  int : List Char
  /-- the point and the digits after it -/
  frac : Option (List Char)
  /-- the letter and the numeral of the exponent -/
  exp : Option (Char × List Char)

/-- decimal digits, possibly separated by underscores -/
def IsDec (s : List Char) : Prop := ∀ c ∈ s, c ∈ "0123456789_".toList

/-- the number that the digits in `s` spell -/
def decVal (s : List Char) : Nat :=
  s.foldl (fun acc c => if c = '_' then acc else 10 * acc + (c.toNat - '0'.toNat)) 0

/-- how many digits there are in `s` -/
def decLen (s : List Char) : Nat := (s.filter (· ≠ '_')).length

namespace RatLit

/-- the literal as it is written -/
def text (l : RatLit) : List Char :=
  (if l.neg then ['-'] else []) ++ l.int ++
    ((match l.frac with | none => [] | some F => '.' :: F) ++
      (match l.exp with | none => [] | some (e, X) => e :: X))

/-- the exponent -/
def expo (l : RatLit) : Int :=
  match l.exp with
  | none => 0
  | some (_, X) =>
    match parseInt X with
    | .ok x => x
    | .error _ => 0

/-- the digits after the point -/
def fracDigits (l : RatLit) : List Char := l.frac.getD []

/-- the number the literal denotes -/
def value (l : RatLit) : ℚ :=
  (if l.neg then -1 else 1) * (decVal l.int + decVal l.fracDigits / 10 ^ decLen l.fracDigits) * 10 ^ l.expo

/-- Which literals are well formed: the integer part is `0` or starts with a digit from 1 to 9, a
point or an exponent is present, the exponent is an integer numeral (in any base).  After an integer
part `0` an underscore may not come before the first nonzero digit (see
`C28_underscore_counterexample`). -/
structure WF (l : RatLit) : Prop where
  int : IsDec l.int
  first : l.int = ['0'] ∨ ∃ c cs, l.int = c :: cs ∧ c ≠ '0' ∧ c ≠ '_'
  frac : ∀ F, l.frac = some F → IsDec F
  under : ∀ F, l.frac = some F → l.int = ['0'] → (F.dropWhile (· = '0')).head? ≠ some '_'
  exp : ∀ e X, l.exp = some (e, X) → (e = 'e' ∨ e = 'E') ∧ ∃ x, parseInt X = .ok x
  some : l.frac ≠ none ∨ l.exp ≠ none

end RatLit

/-- Scientific notation of `N · 10^X`, `N > 0`: sign, the first digit of `N`, up to `k - 1` further digits (cut off,
not rounded) without trailing zeros, and the exponent. -/
def sciRat (neg : Prop) [Decidable neg] (N : Nat) (X : Int) (k : Nat) : List Char :=
  let ds := Nat.toDigits 10 N
  let f := stripZeros (ds.tail.take (k - 1))
  let x : Int := X + Nat.log 10 N
  (if neg then ['-'] else []) ++ (ds.take 1 ++ (if f = [] then [] else '.' :: f)) ++
    'e' :: ((if x < 0 then ['-'] else []) ++ Nat.toDigits 10 x.natAbs)

end Hmath
