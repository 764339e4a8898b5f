import Verif.Model.Ratio
import Verif.Model.Str

/-!
# Strings to `Ratio`

Model of src/ratio/convert.rs 76-225 and 487-497.  Strings are lists of
characters.  The byte indices of the Rust code are character indices here: they are only used to cut
the string just before or just after the one-byte characters `.`, `e` and `E`.
-/

namespace Hmath
namespace Ratio

/-- src/ratio/convert.rs 487-497 -/
def get_non_decimal_char : Str → Option Char
  | [] => none
  | c :: cs =>
    let l := c.toLower
    if l = '-' ∨ l = '0' ∨ l = '.' then get_non_decimal_char cs
    else if (toDigit 10 l).isSome then none
    else some c

/-- `s.get(i..j)` -/
def strGet (s : Str) (i j : Nat) : Option Str :=
  if i ≤ j ∧ j ≤ s.length then some ((s.drop i).take (j - i)) else none

/-- the closure `|c| c.to_ascii_lowercase() == 'e'` (src/ratio/convert.rs 85, 92) -/
def isE (c : Char) : Bool := c.toLower = 'e'

/-- `e_index` (src/ratio/convert.rs 83-93) -/
def eIndex (s : Str) : Option Nat :=
  match get_non_decimal_char s with
  | some c => if c.toLower ≠ 'x' then s.findIdx? isE else none
  | none => s.findIdx? isE

/-- the loop over the digits of the fraction; state `(denom, numer)`
(src/ratio/convert.rs 141-156) -/
def fracLoop : Str → BigI → BigI → M (Except ConvErr (BigI × BigI))
  | [], denom, numer => pure (.ok (denom, numer))
  | c :: cs, denom, numer =>
    if c = '_' then fracLoop cs denom numer
    else
      match toDigit 10 c with
      | some d => do
        let denom ← BigI.mul_i32_mut denom 10
        let numer ← BigI.mul_i32_mut numer 10
        let numer ← BigI.add_i32_mut numer d
        fracLoop cs denom numer
      | none => pure (.error (.invalidChar c))

/-- `fractional_part` (src/ratio/convert.rs 125-160) -/
def fracPart (s : Str) (dot e : Option Nat) : M (Except ConvErr Ratio) :=
  match dot with
  | none => pure (.ok zero)
  | some i =>
    let stop := e.getD s.length
    match strGet s (i + 1) stop with
    | none => pure (.error .unexpectedEnd)
    | some fs => do
      match ← fracLoop fs BigI.one BigI.zero with
      | .error e => pure (.error e)
      | .ok dn => do
        let r ← from_denom_and_numer dn.1 dn.2
        pure (.ok r)

/-- `exponential_part` (src/ratio/convert.rs 161-179) -/
def expPart (s : Str) (e : Option Nat) : M (Except ConvErr Int) :=
  match e with
  | none => pure (.ok 0)
  | some i =>
    match strGet s (i + 1) s.length with
    | none => pure (.error .unexpectedEnd)
    | some xs => do
      match ← BigI.from_string xs with
      | .error e => pure (.error e)
      | .ok n => BigI.to_i32 n

/-- `while a.rem_pow2(2).is_zero() && e.rem_pow2(2).is_zero() { .. }`
(src/ratio/convert.rs 194-197, 208-211) -/
def cancel2 (a e : BigI) : M (BigI × BigI) := do
  let r ← BigI.rem_pow2 a 2
  if BigI.is_zero r then do
    let t ← BigI.rem_pow2 e 2
    if BigI.is_zero t then do
      let a ← BigI.div_i32_mut a 2
      let e ← BigI.div_i32_mut e 2
      cancel2 a e
    else pure (a, e)
  else pure (a, e)
partial_fixpoint

/-- `while a.rem_i32(5).is_zero() && e.rem_i32(5).is_zero() { .. }`
(src/ratio/convert.rs 199-202, 213-216) -/
def cancel5 (a e : BigI) : M (BigI × BigI) := do
  let r ← BigI.rem_i32 a 5
  if BigI.is_zero r then do
    let t ← BigI.rem_i32 e 5
    if BigI.is_zero t then do
      let a ← BigI.div_i32_mut a 5
      let e ← BigI.div_i32_mut e 5
      cancel5 a e
    else pure (a, e)
  else pure (a, e)
partial_fixpoint

/-- multiplication by `10^x` (src/ratio/convert.rs 190-222) -/
def scale10 (r : Ratio) (x : Int) : M Ratio :=
  if x = 0 then pure r
  else do
    let ten ← BigI.from_i32 10
    let p ← i32AbsU32 x
    let p ← BigI.pow_u32 ten p
    if x > 0 then do
      let s ← cancel2 r.denom p
      let s ← cancel5 s.1 s.2
      let n ← BigI.mul_mut r.numer s.2
      pure ⟨s.1, n⟩
    else do
      let s ← cancel2 r.numer p
      let s ← cancel5 s.1 s.2
      let d ← BigI.mul_mut r.denom s.2
      pure ⟨d, s.1⟩

/-- `is_neg`, `result` (src/ratio/convert.rs 108, 181-222) -/
def assemble (s : Str) (ip : BigI) (fp : Ratio) (x : Int) : M Ratio := do
  let fp := if s.head? = some '-' then fp.negate_mut else fp
  let r ← add_mut (from_bi ip) fp
  scale10 r x

/-- the three parts one after the other (src/ratio/convert.rs 108-224) -/
def parseParts (s : Str) (dot e : Option Nat) : M (Except ConvErr Ratio) := do
  let stop ← match dot with
    | some i => pure i
    | none => unwrapO e
  let is ← unwrapO (strGet s 0 stop)
  match ← BigI.from_string is with
  | .error e => pure (.error e)
  | .ok ip => do
    match ← fracPart s dot e with
    | .error e => pure (.error e)
    | .ok fp => do
      match ← expPart s e with
      | .error e => pure (.error e)
      | .ok x => do
        let r ← assemble s ip fp x
        pure (.ok r)

/-- src/ratio/convert.rs 76-225 (also `FromStr`, `TryFrom<&str>`, `TryFrom<String>`) -/
def from_string (s : Str) : M (Except ConvErr Ratio) :=
  if s = [] then pure (.error .noData)
  else
    let dot := s.findIdx? (· = '.')
    let e := eIndex s
    if dot.isNone && e.isNone then do
      match ← BigI.from_string s with
      | .ok n => pure (.ok (from_bi n))
      | .error e => pure (.error e)
    else
      match get_non_decimal_char s with
      | some c => if c.toLower ≠ 'e' then pure (.error (.invalidChar c)) else parseParts s dot e
      | none => parseParts s dot e

/-- src/ratio/convert.rs 228-234 -/
def to_ratio_string (a : Ratio) : M Str :=
  if BigI.is_one a.denom then BigI.to_string_dec a.numer
  else do
    let n ← BigI.to_string_dec a.numer
    let d ← BigI.to_string_dec a.denom
    pure (n ++ '/' :: d)

end Ratio
end Hmath
