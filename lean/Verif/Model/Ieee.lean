import Verif.Model.Casts
import Verif.Model.Convert
import Verif.Model.Log
import Verif.Model.RatioStr

/-!
# Floating point numbers and scientific notation of `Ratio`

Model of src/ratio/convert/ieee754.rs 1-340 and src/ratio/convert.rs 442-477.  An `f32` or `f64` is its bit
pattern, a natural number (the code moves between floats and bit patterns by pointer casts).  The functions
for the two formats are the same text up to constants and integer types; they are modelled once, with these as
parameters (`Fmt`).
-/

namespace Hmath
namespace Ratio

/-! ### scientific notation -/

/-- the cut to four limbs (src/ratio/convert.rs 443-453) -/
def sciCut (a : Ratio) : M Ratio :=
  let m := min a.numer.mag.length a.denom.mag.length
  if m > 4 then
    from_denom_and_numer (BigI.shift_right a.denom (m - 4)) (BigI.shift_right a.numer (m - 4))
  else pure a

/-- `self_clone` (src/ratio/convert.rs 443-455) -/
def sciClone (a : Ratio) : M Ratio := do
  let c ← sciCut a
  pure (abs_mut c)

/-- `approx_digits`, an `i64` (src/ratio/convert.rs 458) -/
def sciApprox (c : Ratio) : M Int := do
  let ln ← BigI.log2_accurate c.numer
  let ld ← BigI.log2_accurate c.denom
  let d ← BigI.sub ln ld
  let d ← BigI.mul_i32 d 21306
  let d ← BigI.div_i32 d 70777
  let r ← BigI.to_i64 (BigI.shift_right d 1)
  unwrapR r

/-- `exp` and `self_bi` (src/ratio/convert.rs 460-468).  The casts `as u32` are exact: `approx` is the
difference of two `u64` values, divided by `3 * 2^32`. -/
def sciScale (c : Ratio) (approx : Int) : M (Int × Int) := do
  let ten ← BigI.from_i32 10
  if approx < 17 then do
    let p ← BigI.pow_u32 ten (17 - approx).toNat
    let n ← BigI.mul c.numer p
    let q ← BigI.div n c.denom
    let r ← BigI.to_i64 q
    let v ← unwrapR r
    pure (-(17 - approx), v)
  else do
    let p ← BigI.pow_u32 ten (approx - 17).toNat
    let d ← BigI.mul c.denom p
    let q ← BigI.div c.numer d
    let r ← BigI.to_i64 q
    let v ← unwrapR r
    pure (approx - 17, v)

/-- an `i64` printed by `format!` -/
def i64Str (z : Int) : Str := (if z < 0 then ['-'] else []) ++ Nat.toDigits 10 z.natAbs

/-- src/ratio/convert.rs 442-477 (`self_bi` is not negative, so `as u64` keeps it) -/
def to_scientific_notation (a : Ratio) (max : Nat) : M Str := do
  let c ← sciClone a
  let approx ← sciApprox c
  let x ← sciScale c approx
  let d := UBig.sciOf x.2.toNat max
  pure ((if is_neg a then ['-'] else []) ++ d.1 ++ 'e' :: i64Str (x.1 + d.2))

/-! ### floats -/

/-- the constants and the integer types of a format -/
structure Fmt where
  /-- width of the word -/
  bits : Nat
  /-- bits of the mantissa -/
  mant : Nat
  /-- number of exponent fields -/
  expMod : Nat
  /-- exponent bias -/
  bias : Nat
  /-- `BigInt::from_i32` / `from_i64` -/
  fromInt : Int → M BigI
  /-- `BigInt::to_i32` / `to_i64` -/
  toInt : BigI → M (Except ConvErr Int)
  /-- `mul_i32(1 << 23)` / `mul_bi(&BigInt::from_i64(1 << 52))` -/
  scale : Ratio → M Ratio

/-- single precision (src/ratio/convert/ieee754.rs 8-119, 241-288) -/
def f32 : Fmt := ⟨32, 23, 256, 127, BigI.from_i32, BigI.to_i32, fun r => mul_i32 r 8388608⟩

/-- double precision (src/ratio/convert/ieee754.rs 124-235, 293-340) -/
def f64 : Fmt := ⟨64, 52, 2048, 1023, BigI.from_i64, BigI.to_i64, fun r => do
  let b ← BigI.from_i64 4503599627370496
  mul_bi r b⟩

/-- the loop-free normalisation of a denormalised number
(src/ratio/convert/ieee754.rs 261-267, 313-319) -/
def renorm (f : Fmt) (exp : Int) (frac : Nat) : M (Int × Nat) :=
  if frac < 2 ^ f.mant then do
    let s ← uSub f.mant (Nat.log2 frac)
    let frac ← uShl f.bits frac s
    let frac ← uSub frac (2 ^ f.mant)
    pure (exp - s, frac)
  else do
    let frac ← uSub frac (2 ^ f.mant)
    pure (exp, frac)

/-- `inspect_ieee754_f32`, `inspect_ieee754_f64` (src/ratio/convert/ieee754.rs 241-288, 293-340) -/
def inspect (f : Fmt) (n : Nat) : M (Except ConvErr (Bool × Int × Nat)) :=
  let neg := decide (n > 2 ^ (f.bits - 1))
  let exp : Int := (n / 2 ^ f.mant % f.expMod : Nat) - f.bias
  let frac := n % 2 ^ f.mant
  if exp = -f.bias then
    if frac = 0 then pure (.ok (false, -2147483648, 0))
    else do
      let p ← renorm f (exp + 1) frac
      pure (.ok (neg, p.1, p.2))
  else if exp = f.bias + 1 then
    if frac = 0 then
      if neg then pure (.error .negInfinity) else pure (.error .infinity)
    else pure (.error .notANumber)
  else pure (.ok (neg, exp, frac))

/-- `from_ieee754_f32`, `from_ieee754_f64` (src/ratio/convert/ieee754.rs 8-31, 124-147) -/
def from_ieee754 (f : Fmt) (n : Nat) : M (Except ConvErr Ratio) := do
  match ← inspect f n with
  | .error e => pure (.error e)
  | .ok (neg, exp, frac) =>
    if exp = -2147483648 then pure (.ok zero)
    else if exp ≥ f.mant then do
      let numer ← f.fromInt (frac + 2 ^ f.mant : Nat)
      let numer ← BigI.mul_pow2_mut numer (exp - f.mant).toNat
      pure (.ok (from_bi (if neg then BigI.negate_mut numer else numer)))
    else do
      let numer ← f.fromInt (frac + 2 ^ f.mant : Nat)
      let denom ← BigI.pow2 (f.mant - exp).toNat
      let r ← from_denom_and_numer denom (if neg then BigI.negate_mut numer else numer)
      pure (.ok r)

/-- src/ratio/convert/ieee754.rs 56-64, 172-180 -/
def prescale (c : Ratio) (al : Int) : M (Ratio × Int) :=
  if al < -2 then do
    let k ← i32AbsU32 al
    let b ← BigI.exp2 k
    let c ← mul_bi_mut c b
    pure (c, al)
  else if al > 2 then do
    let b ← BigI.exp2 al.toNat
    let c ← div_bi_mut c b
    pure (c, al)
  else pure (c, 0)

/-- `while self_clone.gt_one() { .. }` (src/ratio/convert/ieee754.rs 66-69, 182-185) -/
def halve (c : Ratio) (exp : Int) : M (Ratio × Int) :=
  if gt_one c then do
    let c ← div_i32_mut c 2
    let exp ← i32Add exp 1
    halve c exp
  else pure (c, exp)
partial_fixpoint

/-- `while self_clone.lt_one() { .. }` (src/ratio/convert/ieee754.rs 71-74, 187-190) -/
def double (c : Ratio) (exp : Int) : M (Ratio × Int) :=
  if lt_one c then do
    let c ← mul_i32_mut c 2
    let exp ← i32Add exp (-1)
    double c exp
  else pure (c, exp)
partial_fixpoint

/-- `if frac_rem.gt(1/2) { frac.add_i32_mut(1); }` (src/ratio/convert/ieee754.rs 79-81, 195-197) -/
def roundUp (m : BigI) (up : Bool) : M BigI := if up then BigI.add_i32_mut m 1 else pure m

/-- the mantissa (src/ratio/convert/ieee754.rs 76-83, 192-199) -/
def mantissa (f : Fmt) (c : Ratio) : M Nat := do
  let c ← sub_i32 c 1
  let c ← f.scale c
  let p ← truncate_and_frac c
  let half ← from_denom_and_numer_i32 2 1
  let up ← gt p.2 half
  let m ← roundUp p.1 up
  let r ← f.toInt m
  let v ← unwrapR r
  pure (v % (2 ^ f.bits : Nat)).toNat

/-- src/ratio/convert/ieee754.rs 86-92, 202-208: the mantissa of a number below the smallest normalised
number, before rounding -/
def subShift (f : Fmt) (exp : Int) (frac : Nat) : M Nat := do
  let frac ← uAdd (2 ^ f.bits) frac (2 ^ f.mant)
  let frac ← uMul (2 ^ f.bits) frac 16
  if exp < -f.bias then uShr f.bits frac (min (-f.bias - exp) (f.bits - 1)).toNat
  else pure frac

/-- `result` (src/ratio/convert/ieee754.rs 109-118, 225-234); the error is built with
`to_scientific_notation` -/
def pack (f : Fmt) (a : Ratio) (neg : Bool) (exp : Int) (frac : Nat) : M (Except ConvErr Nat) := do
  let exp ← i32Add exp f.bias
  if exp < 0 ∨ exp > f.expMod - 1 then do
    let _ ← to_scientific_notation a 5
    pure (.error .notInRange)
  else
    pure (.ok ((if neg then 2 ^ (f.bits - 1) else 0) ||| (exp.toNat * 2 ^ f.mant % 2 ^ f.bits) ||| frac))

/-- src/ratio/convert/ieee754.rs 85-118, 201-234 -/
def encode (f : Fmt) (a : Ratio) (neg : Bool) (exp : Int) (frac : Nat) : M (Except ConvErr Nat) :=
  if exp < 1 - f.bias then do
    let frac ← subShift f exp frac
    let frac := if frac % 32 > 15 then frac / 32 + 1 else frac / 32
    if frac = 0 then pure (.ok 0)
    else pack f a neg (-f.bias) frac
  else pack f a neg exp frac

/-- `to_ieee754_f32`, `to_ieee754_f64` (src/ratio/convert/ieee754.rs 36-119, 152-235) -/
def to_ieee754 (f : Fmt) (a : Ratio) : M (Except ConvErr Nat) :=
  if is_zero a then pure (.ok 0)
  else do
    let neg := is_neg a
    let c := if neg then negate_mut a else a
    let ln ← BigI.log2 a.numer
    let ld ← BigI.log2 a.denom
    let al ← BigI.sub ln ld
    let big ← BigI.gt_i32 al (f.bias + 1)
    if big then do
      let _ ← to_scientific_notation a 5
      pure (.error .notInRange)
    else do
      let r ← BigI.to_i32 al
      let al ← unwrapR r
      let p ← prescale c al
      let p ← halve p.1 p.2
      let p ← double p.1 p.2
      let frac ← mantissa f p.1
      encode f a neg p.2 frac

end Ratio

namespace BigI

/-- `TryFrom<f32>`, `TryFrom<f64>` (src/bigint/convert/from.rs 44-60) -/
def from_float (f : Ratio.Fmt) (n : Nat) : M (Except ConvErr BigI) := do
  match ← Ratio.from_ieee754 f n with
  | .error e => pure (.error e)
  | .ok r => do
    let b ← Ratio.truncate_bi r
    pure (.ok b)

/-- `TryFrom<&BigInt> for f32`, `f64` (src/bigint/convert/into.rs 79-93) -/
def to_float (f : Ratio.Fmt) (a : BigI) : M (Except ConvErr Nat) := Ratio.to_ieee754 f (Ratio.from_bi a)

end BigI

/-- `TryFrom<f32>`, `TryFrom<f64>` (src/ubigint/convert/from.rs 38-53) -/
def UBig.from_float (f : Ratio.Fmt) (n : Nat) : M (Except ConvErr UBig) := do
  match ← Ratio.from_ieee754 f n with
  | .error e => pure (.error e)
  | .ok r => do
    let b ← Ratio.truncate_bi r
    pure (BigI.to_ubi b)

end Hmath
