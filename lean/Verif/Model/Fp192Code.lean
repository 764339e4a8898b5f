import Verif.Model.Fp192Print

/-!
# The 13 character code of 192-bit floating point numbers

Model of src/fp192/convert/string.rs 354-490 and 534-590.  A byte string is a list of numbers below 256.
-/

namespace Hmath
namespace F192

/-- src/fp192/convert/string.rs 535: `62^10 * 31` -/
def BASE : Nat := 26018280341918546944

/-- src/fp192/convert/string.rs 537-539 -/
def code13_zero : List Nat := [122, 121, 48, 48, 48, 48, 48, 48, 48, 48, 48, 48, 48]

/-- src/fp192/convert/string.rs 541-543 -/
def is_code13_zero (s : List Nat) : Bool := s == [122, 121, 48, 48, 48, 48, 48, 48, 48, 48, 48, 48, 48]

/-- `from_int` of src/fp192/convert/string.rs 545-559 -/
def codeChar (n : Nat) : Nat :=
  if n < 10 then n + 48
  else if n < 36 then n - 10 + 65
  else n - 36 + 97

/-- `to_int` of src/fp192/convert/string.rs 561-589 -/
def codeVal (c : Nat) : Except ConvErr Nat :=
  if c < 48 then .error (.invalidChar (Char.ofNat c))
  else if c ≤ 57 then .ok (c - 48)
  else if c < 65 then .error (.invalidChar (Char.ofNat c))
  else if c ≤ 90 then .ok (c - 65 + 10)
  else if c < 97 then .error (.invalidChar (Char.ofNat c))
  else if c ≤ 122 then .ok (c - 97 + 36)
  else .error (.invalidChar (Char.ofNat c))

/-- `while digits >= BASE * 64 { .. }` (src/fp192/convert/string.rs 365-368) -/
def codeScale (digits : Nat) (exp : Int) : M (Nat × Int) :=
  if digits ≥ BASE * 64 then do
    let e ← i64Chk (exp + 1)
    codeScale (digits / 2) e
  else pure (digits, exp)
termination_by digits
decreasing_by have : 0 < BASE := by decide
              omega

/-- src/fp192/convert/string.rs 374-381 -/
def codeRound (rem digits : Nat) (exp : Int) : M (Nat × Int) :=
  if rem > 15 then
    if digits + 1 = BASE * 2 then do
      let e ← i64Chk (exp + 1)
      pure (BASE, e)
    else pure (digits + 1, exp)
  else pure (digits, exp)

/-- the 13 characters (src/fp192/convert/string.rs 405-419) -/
def codeDigits (e d : Nat) : List Nat :=
  [codeChar (e / 124), codeChar (e % 124 / 2), codeChar (e % 2 * 31 + d % 31), codeChar (d / 419649682934170112),
    codeChar (d / 6768543273131776 % 62), codeChar (d / 109170052792448 % 62), codeChar (d / 1760807303104 % 62),
    codeChar (d / 28400117792 % 62), codeChar (d / 458066416 % 62), codeChar (d / 7388168 % 62),
    codeChar (d / 119164 % 62), codeChar (d / 1922 % 62), codeChar (d / 31 % 62)]

/-- the loop that drops leading zeros but keeps one character (src/fp192/convert/string.rs 421-427) -/
def codeStrip : List Nat → List Nat
  | c :: c' :: s => if c = 48 then codeStrip (c' :: s) else c :: c' :: s
  | s => s

/-- the number that stands for sign and exponent (src/fp192/convert/string.rs 401-403) -/
def codeExp (exp : Int) (neg : Bool) : Nat :=
  max (exp.natAbs * 4) 2 - 2 + (if exp < 0 then 2 else 0) + (if neg then 1 else 0)

/-- src/fp192/convert/string.rs 356-428.  The error value holds the number as text (line 397), which is computed here and left out. -/
def into_code13 (x : F192) : M (Except ConvErr (List Nat)) :=
  if is_zero x then pure (.ok code13_zero)
  else do
    let digits := (x.digits ||| SIGN_MASK) / 2 ^ 57
    let exp ← expI64 x
    let exp ← i64Chk (exp + 57)
    let p ← codeScale digits exp
    let exp ← i64Chk (p.2 + 5)
    let p ← codeRound (p.1 % 32) (p.1 / 32) exp
    let d ← uSub p.1 BASE
    let exp ← i64Chk (p.2 + 64)
    if exp < -1921 then pure (.ok code13_zero)
    else if exp > 1922 then do
      let _ ← to_approx_string x
      pure (.error .notInRange)
    else pure (.ok (codeStrip (codeDigits (codeExp exp (is_neg x)) d)))

/-- `to_int` of every character, stopping at the first error -/
def codeVals : List Nat → Except ConvErr (List Nat)
  | [] => .ok []
  | c :: s =>
    match codeVal c with
    | .error e => .error e
    | .ok v =>
      match codeVals s with
      | .error e => .error e
      | .ok vs => .ok (v :: vs)

/-- `for c in s[3..].iter() { .. }` (src/fp192/convert/string.rs 455-458) -/
def codeSum : List Nat → Nat → Nat
  | [], d => d
  | v :: vs, d => codeSum vs ((d + v) * 62)

/-- src/fp192/convert/string.rs 465-488, given the values of the characters; no intermediate result leaves its
type, since `e` is at most 7687 and `d` less than `2 * BASE` -/
def codeNumber (e d : Nat) : F192 :=
  let exp : Int := ((e + 2) / 4 : Nat) * (((e % 4 / 2 * 2 : Nat) : Int) - 1)
  let dlz := lz128 d
  let exp := exp - dlz
  let d := d * 2 ^ dlz % 2 ^ 128 &&& LOW_MASK
  ⟨d ||| signBit (e % 2 == 1), asU64 (exp - 64 + EXP_COEFF)⟩

/-- src/fp192/convert/string.rs 431-490 -/
def from_code13 (s : List Nat) : Except ConvErr F192 :=
  if is_code13_zero s then .ok ZERO
  else if s.length ≤ 13 then
    if s.isEmpty then .error .noData
    else
      match codeVals (List.replicate (13 - s.length) 48 ++ s) with
      | .error e => .error e
      | .ok (a :: b :: c :: vs) => .ok (codeNumber (a * 124 + b * 2 + c / 31) (codeSum vs 0 / 2 + c % 31 + BASE))
      | .ok _ => .ok ZERO
  else .error (.invalidChar (Char.ofNat (s.getD 13 0)))

end F192
end Hmath
