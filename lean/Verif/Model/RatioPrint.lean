import Verif.Model.Ieee
import Verif.Model.Series

/-!
# `Ratio` as decimal text

Model of src/ratio/convert.rs 236-439, 480-482 and 499-527.  `max_len` is a `usize` below `2^63`
(the cast `as i64` keeps it); `exp`, `log10i64` and the powers are `i64`s of a magnitude below `2^32`,
so that their additions cannot overflow.
-/

namespace Hmath
namespace Ratio

/-- `log2` (src/ratio/convert.rs 242) -/
def approxLog2 (a : Ratio) : M BigI := do
  let ln ← BigI.log2_accurate a.numer
  let ld ← BigI.log2_accurate a.denom
  BigI.sub ln ld

/-- `log10i64` (src/ratio/convert.rs 245) -/
def approxLog10 (log2 : BigI) : M Int := do
  let d ← BigI.mul_i32 log2 21306
  let d ← BigI.div_i32 d 70777
  let r ← BigI.to_i64 (BigI.shift_right d 1)
  unwrapR r

/-- the local variables of `exp10` (src/ratio/convert.rs 505-509) -/
structure Exp10 where
  small : BigI
  smallExp : Ratio
  big : BigI
  bigExp : Ratio

/-- the `for` loop of `exp10` (src/ratio/convert.rs 511-524), `k` rounds -/
def exp10Loop (n : Ratio) : Nat → Exp10 → M Exp10
  | 0, s => pure s
  | k + 1, s => do
    let m ← BigI.mul s.small s.big
    let mid ← BigI.sqrt m
    let e ← add s.smallExp s.bigExp
    let midExp ← div_i32 e 2
    let b ← lt midExp n
    exp10Loop n k (if b then { s with small := mid, smallExp := midExp } else { s with big := mid, bigExp := midExp })

/-- src/ratio/convert.rs 502-527 -/
def exp10 (n : Ratio) : M Int := do
  let ten ← BigI.from_i32 10
  let s ← exp10Loop n 32 ⟨⟨[0, 1], false⟩, zero, BigI.shift_left ten 1, one⟩
  let r ← BigI.to_i64 s.small
  unwrapR r

/-- the exponent and the fraction of the logarithm (src/ratio/convert.rs 251-263) -/
def hugeParts (log2 : BigI) : M (BigI × Ratio) := do
  let d ← BigI.from_i64 303984900308992
  let n ← BigI.mul_i32 log2 21306
  let log10 ← from_denom_and_numer d n
  let p ← truncate_and_frac log10
  if BigI.is_neg p.1 && !is_zero p.2 then do
    let e ← BigI.sub_i32_mut p.1 1
    let f ← sub one (abs_mut p.2)
    pure (e, f)
  else pure p

/-- four digits as text (src/ratio/convert.rs 271-285); `digits` is an `i32` that is not negative -/
def hugeDigits (digits : Nat) : Str :=
  let d := if digits % 1000 > 992 then digits + (1000 - digits % 1000) else digits
  let d := d / 1000
  if d % 1000 = 0 then Nat.toDigits 10 (d / 1000)
  else if d % 100 = 0 then Nat.toDigits 10 (d / 1000) ++ '.' :: Nat.toDigits 10 (d / 100 % 10)
  else if d % 10 = 0 then Nat.toDigits 10 (d / 1000) ++ '.' :: padL 2 (Nat.toDigits 10 (d % 1000 / 10))
  else Nat.toDigits 10 (d / 1000) ++ '.' :: padL 3 (Nat.toDigits 10 (d % 1000))

/-- src/ratio/convert.rs 251-287.  `digits` is not negative, since `exp10` returns the lower end of an interval of positive numbers. -/
def hugeText (log2 : BigI) (sign : Str) : M Str := do
  let p ← hugeParts log2
  let x ← exp10 p.2
  let d ← BigI.from_i64 4294967296
  let n ← BigI.from_i64 x
  let r ← from_denom_and_numer d n
  let r ← mul_i32 r 1000000
  let b ← truncate_bi r
  let v ← BigI.to_i32 b
  let v ← unwrapR v
  let e ← BigI.to_string_dec p.1
  pure (sign ++ hugeDigits v.toNat ++ 'e' :: e)

/-- `while digits.len() > min && digits[digits.len() - 1] == 0 { digits.pop(); }` (src/ratio/convert.rs 319-321, 397-399, 425-427) on
the reversed vector -/
def popZeros (min : Nat) : List Int → List Int
  | [] => []
  | x :: xs => if xs.length + 1 > min ∧ x = 0 then popZeros min xs else x :: xs

/-- `iter().map(|n| n.to_string()).concat()` -/
def digitsStr (ds : List Int) : Str := (ds.map i64Str).flatten

/-- the first digit, and a point and the others if there are some (src/ratio/convert.rs 323-331, 401-405) -/
def pointStr : List Int → M Str
  | [] => throw .index
  | [d] => pure (i64Str d)
  | d :: ds => pure (i64Str d ++ '.' :: digitsStr ds)

/-- src/ratio/convert.rs 293-300 -/
def bigScale (a : Ratio) (log10 : Int) : M (BigI × Int) := do
  let b ← truncate_bi a
  let b := BigI.abs_mut b
  if log10 > 15 then do
    let ten ← BigI.from_i32 10
    let p ← BigI.pow_u32 ten (log10 - 10).toNat
    let b ← BigI.div_mut b p
    pure (b, log10 - 10)
  else pure (b, 0)

/-- `while bi.len() > 1 || bi.gt_i32(1_000_000_000)` (src/ratio/convert.rs 302-305) -/
def bigLoop (b : BigI) (exp : Int) : M (BigI × Int) := do
  let g ← if b.mag.length > 1 then pure true else BigI.gt_i32 b 1000000000
  if g then do
    let b ← BigI.div_i32_mut b 10
    bigLoop b (exp + 1)
  else pure (b, exp)
partial_fixpoint

/-- `digits.get(0..n).unwrap()`, and without a point at the end (src/ratio/convert.rs 338-345) -/
def bigCut (digits : Str) (n : Nat) : M Str :=
  if n ≤ digits.length then
    let d := digits.take n
    pure (if d.getLast? = some '.' then d.dropLast else d)
  else throw .unwrap

/-- src/ratio/convert.rs 293-347; the loop over the digits is that of src/ubigint/convert.rs 335-345 -/
def bigText (a : Ratio) (log10 : Int) (sign : Str) (max_len : Nat) : M Str := do
  let p ← bigScale a log10
  let p ← bigLoop p.1 p.2
  let r ← BigI.to_i32 p.1
  let v ← unwrapR r
  let q := UBig.sciLoop v.toNat 0 []
  let exp := 'e' :: i64Str (p.2 + q.1 - 1)
  let digits ← pointStr (popZeros 1 (q.2.map Int.ofNat).reverse).reverse
  let max_len := max max_len (exp.length + 3)
  if digits.length + exp.length + sign.length > max_len then do
    let n ← uSub max_len exp.length
    let n ← uSub n sign.length
    let digits ← bigCut digits n
    pure (sign ++ digits ++ exp)
  else pure (sign ++ digits ++ exp)

/-- `while pow2 > 0 && self_clone.denom.rem_pow2(2).is_zero()` (src/ratio/convert.rs 359-362) -/
def smallDiv2 : Nat → BigI → M (Nat × BigI)
  | 0, d => pure (0, d)
  | p + 1, d => do
    let r ← BigI.rem_pow2 d 2
    if BigI.is_zero r then do
      let d ← BigI.div_i32_mut d 2
      smallDiv2 p d
    else pure (p + 1, d)

/-- `while pow5 > 0 && self_clone.denom.rem_i32(5).is_zero()` (src/ratio/convert.rs 364-367) -/
def smallDiv5 : Nat → BigI → M (Nat × BigI)
  | 0, d => pure (0, d)
  | p + 1, d => do
    let r ← BigI.rem_i32 d 5
    if BigI.is_zero r then do
      let d ← BigI.div_i32_mut d 5
      smallDiv5 p d
    else pure (p + 1, d)

/-- src/ratio/convert.rs 351-371 -/
def smallScale (a : Ratio) (log10 : Int) : M (Ratio × Int) := do
  let c := abs a
  if log10 < -6 then do
    let pow10 := (-log10).toNat
    let p ← smallDiv2 pow10 c.denom
    let q ← smallDiv5 pow10 p.2
    let x ← BigI.exp2 p.1
    let five ← BigI.from_i32 5
    let y ← BigI.pow_u32 five q.1
    let z ← BigI.mul x y
    let n ← BigI.mul_mut c.numer z
    pure (⟨q.2, n⟩, -1 - pow10)
  else pure (c, -1)

/-- `while self_int.gt_i32(0)` (src/ratio/convert.rs 378-384); `push` is `::`, as the vector is reversed afterwards -/
def smallDigits (b : BigI) (exp : Int) (digits : List Int) : M (Int × List Int) := do
  let g ← BigI.gt_i32 b 0
  if g then do
    let r ← BigI.rem_i32 b 10
    let r ← BigI.to_i32 r
    let d ← unwrapR r
    let b ← BigI.div_i32_mut b 10
    smallDigits b (exp + 1) (d :: digits)
  else pure (exp, digits)
partial_fixpoint

/-- `while curr_len > max_len && digits.len() > 0` (src/ratio/convert.rs 392-395) on the reversed vector -/
def popLen (max_len : Nat) : Nat → List Int → List Int
  | _, [] => []
  | curr_len, x :: xs => if curr_len > max_len then popLen max_len (curr_len - 1) xs else x :: xs

/-- src/ratio/convert.rs 351-407 -/
def smallText (a : Ratio) (log10 : Int) (sign : Str) (max_len : Nat) : M Str := do
  let p ← smallScale a log10
  let r ← mul_i32 p.1 1000000000
  let b ← truncate_bi r
  let q ← smallDigits b (p.2 - 9) []
  let exp := 'e' :: i64Str q.1
  let max_len := max max_len (exp.length + 3)
  let ds := popZeros 0 (popLen max_len (q.2.length + sign.length + exp.length + 1) q.2.reverse)
  let digits ← pointStr ds.reverse
  pure (sign ++ digits ++ exp)

/-- `while curr_len < max_len` (src/ratio/convert.rs 418-423), `k` rounds; the vector of digits is reversed -/
def fixedDigits : Nat → Ratio → List Int → M (List Int)
  | 0, _, digits => pure digits
  | k + 1, f, digits => do
    let f ← mul_i32_mut f 10
    let b ← truncate_bi f
    let r ← BigI.to_i32 b
    let d ← unwrapR r
    let f ← frac_mut f
    fixedDigits k f (d :: digits)

/-- src/ratio/convert.rs 411-433 -/
def fixedText (a : Ratio) (sign : Str) (max_len : Nat) : M Str := do
  let b ← truncate_bi a
  let int_part ← BigI.to_string_dec (BigI.abs b)
  let f ← frac (abs a)
  let digits ← fixedDigits (max_len - (int_part.length + 1 + sign.length)) f []
  let ds := (popZeros 0 digits).reverse
  pure (if ds.length > 0 then sign ++ int_part ++ '.' :: digitsStr ds else sign ++ int_part)

/-- src/ratio/convert.rs 239-439 -/
def to_approx_string (a : Ratio) (max_len : Nat) : M Str := do
  let max_len := max max_len 6
  let log2 ← approxLog2 a
  let log10 ← approxLog10 log2
  let sign := if is_neg a then ['-'] else []
  if log10.natAbs > 9990 then hugeText log2 sign
  else if log10 > (max_len : Int) - 3 then bigText a log10 sign max_len
  else if log10 < -((max_len : Int) - 3) then smallText a log10 sign max_len
  else fixedText a sign max_len

/-- src/ratio/convert.rs 480-482, and the `Display` of 529-533 -/
def to_string (a : Ratio) : M Str := to_approx_string a 12

end Ratio
end Hmath
