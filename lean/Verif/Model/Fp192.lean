import Verif.Model.Ieee

/-!
# 192-bit floating point numbers

Model of src/fp192.rs, src/fp192/comp.rs, src/fp192/arith/, src/fp192/convert.rs and src/fp192/funcs.rs.
`digits` is a `u128`, `exp` a `u64`; the bit operations of the code are the bit operations of `Nat`.
-/

namespace Hmath

/-- an unsigned or signed word reinterpreted as `i64` -/
def asI64 (z : Int) : Int := (z + 9223372036854775808) % 18446744073709551616 - 9223372036854775808

/-- an `i64` reinterpreted as `u64` -/
def asU64 (z : Int) : Nat := (z % 18446744073709551616).toNat

/-- the result of a checked `i64` operation whose exact result is `z` -/
def i64Chk (z : Int) : M Int :=
  if -9223372036854775808 ≤ z ∧ z ≤ 9223372036854775807 then pure z else throw .overflow

/-- `i32::abs`, as `u128` -/
def i32AbsU128 (a : Int) : M Nat := if a = -2147483648 then throw .overflow else pure a.natAbs

/-- `u128::leading_zeros` -/
def lz128 (n : Nat) : Nat := if n = 0 then 128 else 127 - Nat.log2 n

/-- src/fp192.rs 16-24 -/
structure F192 where
  digits : Nat
  exp : Nat
  deriving DecidableEq, Repr

namespace F192

/-- src/fp192.rs 26 -/
def SIGN_MASK : Nat := 170141183460469231731687303715884105728
/-- `!SIGN_MASK` -/
def LOW_MASK : Nat := 170141183460469231731687303715884105727
/-- src/fp192.rs 27 -/
def EXP_COEFF : Nat := 281474976710656

/-- src/fp192/consts.rs 5-8 -/
def ZERO : F192 := ⟨0, 0⟩
/-- src/fp192/consts.rs 10-13 -/
def ONE : F192 := ⟨0, EXP_COEFF - 127⟩
/-- src/fp192/consts.rs 15-18 -/
def MAX : F192 := ⟨LOW_MASK, 18446744073709551615⟩
/-- src/fp192/consts.rs 20-23 -/
def MIN : F192 := ⟨340282366920938463463374607431768211455, 18446744073709551615⟩

/-- src/fp192.rs 31-33 -/
def is_zero (x : F192) : Bool := x.exp == 0 && x.digits == 0
/-- src/fp192.rs 36-38 -/
def is_neg (x : F192) : Bool := x.digits / 2 ^ 127 == 1

/-- `self.exp as i64 - EXP_COEFF as i64` -/
def expI64 (x : F192) : M Int := i64Chk (asI64 x.exp - EXP_COEFF)

/-- `(self.digits >> e) << e` -/
def clearLow (d e : Nat) : M Nat := do
  let a ← uShr 128 d e
  uShl 128 a e

/-- src/fp192.rs 41-62 -/
def is_integer (x : F192) : M Bool :=
  if is_zero x then pure true
  else do
    let e ← expI64 x
    if e < -127 then pure false
    else if e ≥ 0 then pure true
    else do
      let d ← clearLow x.digits (-e).toNat
      pure (d == x.digits)

/-- src/fp192.rs 65-70 -/
def abs (x : F192) : F192 := ⟨x.digits &&& LOW_MASK, x.exp⟩

/-- src/fp192.rs 72-83 -/
def neg (x : F192) : F192 := if is_zero x then ZERO else ⟨x.digits ^^^ SIGN_MASK, x.exp⟩

/-- src/fp192.rs 85-96 -/
def shl (x : F192) (k : Nat) : M F192 :=
  if is_zero x then pure ZERO
  else do
    let e ← u64Add x.exp k
    pure ⟨x.digits, e⟩

/-- src/fp192.rs 98-109 -/
def shr (x : F192) (k : Nat) : F192 :=
  if decide (x.exp < k) || is_zero x then ZERO else ⟨x.digits, x.exp - k⟩

/-- src/fp192.rs 111-125 -/
def step_epsilon (x : F192) : M F192 :=
  if x.digits &&& LOW_MASK = LOW_MASK then do
    let e ← u64Add x.exp 1
    pure ⟨x.digits &&& SIGN_MASK, e⟩
  else do
    let d ← u128Add x.digits 1
    pure ⟨d, x.exp⟩

/-! ### comparison -/

/-- reverse an ordering when `n` -/
def flip (n : Bool) : Ordering → Ordering
  | .eq => .eq
  | .gt => if n then .lt else .gt
  | .lt => if n then .gt else .lt

/-- src/fp192/comp.rs 11-49 -/
def cmp (x y : F192) : Ordering :=
  if is_neg x != is_neg y then if is_neg x then .lt else .gt
  else match compare x.exp y.exp with
    | .eq => flip (is_neg x) (compare x.digits y.digits)
    | .gt => if is_neg x then .lt else .gt
    | .lt => if is_neg x then .gt else .lt

/-- `<`, through `partial_cmp` (src/fp192/comp.rs 4-8) -/
def lt (x y : F192) : Bool := cmp x y == .lt
/-- `>` -/
def gt (x y : F192) : Bool := cmp x y == .gt
/-- `<=` -/
def le (x y : F192) : Bool := cmp x y != .gt
/-- `>=` -/
def ge (x y : F192) : Bool := cmp x y != .lt

/-! ### conversions to and from integers -/

/-- src/fp192/convert.rs 7-23 -/
def from_u128 (n : Nat) : M F192 :=
  if n = 0 then pure ZERO
  else do
    let d ← uShl 128 n (lz128 n)
    let e ← uSub EXP_COEFF (lz128 n)
    pure ⟨d &&& LOW_MASK, e⟩

/-- src/fp192/convert.rs 25-36 -/
def from_i128 (n : Int) : M F192 :=
  if n < 0 then
    if n = -170141183460469231731687303715884105728 then throw .overflow
    else do
      let r ← from_u128 n.natAbs
      pure ⟨r.digits ||| SIGN_MASK, r.exp⟩
  else from_u128 n.toNat

/-- src/fp192/convert.rs 38-50; `Err(())` is `none` -/
def to_u128 (x : F192) : M (Option Nat) :=
  if is_zero x then pure (some 0)
  else if is_neg x || decide (x.exp > EXP_COEFF) then pure none
  else do
    let n ← uShr 128 (x.digits ||| SIGN_MASK) (EXP_COEFF - x.exp)
    pure (some n)

/-- src/fp192/convert.rs 52-76 -/
def to_i128 (x : F192) : M (Option Int) :=
  if is_neg x then do
    match ← to_u128 (neg x) with
    | none => pure none
    | some n => pure (if n < 2 ^ 127 then some (-(n : Int)) else none)
  else do
    match ← to_u128 x with
    | none => pure none
    | some n => pure (if n < 2 ^ 127 then some (n : Int) else none)

/-- `From` for the unsigned integer types (src/fp192/convert.rs 79-94); `n as u128` keeps `n` -/
def from_uint (n : Nat) : M F192 := from_u128 n
/-- `From` for the signed integer types (src/fp192/convert.rs 96-111); `n as i128` keeps `n` -/
def from_int (n : Int) : M F192 := from_i128 n
/-- `TryFrom<F192>` for the unsigned type with largest value `hi` (src/fp192/convert.rs 113-130) -/
def to_uint (hi : Nat) (x : F192) : M (Option Nat) := do
  match ← to_u128 x with
  | none => pure none
  | some n => pure (if n ≤ hi then some n else none)
/-- `TryFrom<F192>` for the signed type with range `lo..=hi` (src/fp192/convert.rs 113-123, 132-137) -/
def to_int (lo hi : Int) (x : F192) : M (Option Int) := do
  match ← to_i128 x with
  | none => pure none
  | some n => pure (if lo ≤ n ∧ n ≤ hi then some n else none)

/-! ### conversions to and from `Ratio` -/

/-- `i64::abs`, then `as u32` -/
def absU32 (e : Int) : M Nat :=
  if e = -9223372036854775808 then throw .overflow else pure (e.natAbs % 4294967296)

/-- src/fp192/convert.rs 255-262 -/
def ratioScale (r : Ratio) (p : BigI) (e : Int) : M Ratio :=
  if e < 0 then Ratio.div_bi_mut r p else Ratio.mul_bi_mut r p

/-- src/fp192/convert.rs 243-269 -/
def to_ratio (x : F192) : M Ratio :=
  if is_zero x then pure Ratio.zero
  else do
    let d := x.digits ||| SIGN_MASK
    let e ← expI64 x
    let k ← absU32 e
    let p ← BigI.mul_pow2 BigI.one k
    let r ← ratioScale (Ratio.from_u128 d) p e
    pure (if is_neg x then Ratio.negate_mut r else r)

/-- `while n_abs.lt(&lower_bound) { .. }` (src/fp192/convert.rs 289-292) -/
def scaleUp (lower n : Ratio) (exp : Nat) : M (Ratio × Nat) := do
  let c ← Ratio.lt n lower
  if c then do
    let n ← Ratio.mul_i32_mut n 2
    let exp ← uSub exp 1
    scaleUp lower n exp
  else pure (n, exp)
partial_fixpoint

/-- `while n_abs.geq(&upper_bound) { .. }` (src/fp192/convert.rs 294-297) -/
def scaleDown (upper n : Ratio) (exp : Nat) : M (Ratio × Nat) := do
  let c ← Ratio.geq n upper
  if c then do
    let n ← Ratio.div_i32_mut n 2
    let exp ← u64Add exp 1
    scaleDown upper n exp
  else pure (n, exp)
partial_fixpoint

/-- `n_abs_rem` (src/fp192/convert.rs 299) -/
def ratioRem (n : Ratio) : M Int := do
  let a ← Ratio.mul_i32 n 32
  let b ← Ratio.truncate_bi a
  let c ← BigI.rem_i32 b 32
  let r ← BigI.to_u32 c
  unwrapR r

/-- src/fp192/convert.rs 301-302 -/
def ratioDigits (n lower : Ratio) : M Nat := do
  let a ← Ratio.sub_mut n lower
  let b ← Ratio.truncate_bi a
  let r ← BigI.to_u128 b
  let v ← unwrapR r
  pure v.toNat

/-- src/fp192/convert.rs 304-313 -/
def ratioRound (rem : Int) (digits exp : Nat) : M (Nat × Nat) :=
  if rem > 15 then
    if digits ≠ 340282366920938463463374607431768211455 then do
      let d ← u128Add digits 1
      pure (d, exp)
    else do
      let e ← u64Add exp 1
      pure (0, e)
  else pure (digits, exp)

/-- `(b as u128) << 127` -/
def signBit (b : Bool) : Nat := if b then SIGN_MASK else 0

/-- src/fp192/convert.rs 277-320 -/
def from_ratio (n : Ratio) : M F192 :=
  if Ratio.is_zero n then pure ZERO
  else do
    let lower := Ratio.from_u128 SIGN_MASK
    let upper ← Ratio.mul_i32 lower 2
    let p ← scaleUp lower (Ratio.abs n) EXP_COEFF
    let p ← scaleDown upper p.1 p.2
    let rem ← ratioRem p.1
    let digits ← ratioDigits p.1 lower
    let r ← ratioRound rem digits p.2
    pure ⟨r.1 ||| signBit (Ratio.is_neg n), r.2⟩

/-! ### conversions to and from floats -/

/-- `TryFrom<f32>`, `TryFrom<f64>` (src/fp192/convert.rs 139-155, 157-173); a float is its bit pattern -/
def from_float (f : Ratio.Fmt) (n : Nat) : M (Except ConvErr F192) := do
  match ← Ratio.inspect f n with
  | .error e => pure (.error e)
  | .ok (sign, exp, frac) =>
    if exp = -2147483648 ∧ frac = 0 ∧ sign = false then pure (.ok ZERO)
    else do
      let d ← uShl 128 frac (127 - f.mant)
      let e ← i64Chk (exp + EXP_COEFF)
      let e ← uSub (asU64 e) 127
      pure (.ok ⟨d ||| signBit sign, e⟩)

/-- the rounding step (src/fp192/convert.rs 184-191, 218-225) -/
def floatRound (f : Ratio.Fmt) (rem mant : Nat) (exp : Int) : M (Nat × Int) :=
  if rem > 15 then
    if mant + 1 = 2 ^ f.mant then do
      let e ← i64Chk (exp + 1)
      pure (0, e)
    else pure (mant + 1, exp)
  else pure (mant, exp)

/-- `From<F192> for f32`, `f64` (src/fp192/convert.rs 175-207, 209-241): the bit pattern of the result.
The shift and the mask are `127 - 5 - mant` and `2^(mant + 5) - 1`; `+ 254`, `+ 1150` is `bias + 127`. -/
def to_float (f : Ratio.Fmt) (x : F192) : M Nat := do
  let m := x.digits / 2 ^ (122 - f.mant) &&& (2 ^ (f.mant + 5) - 1)
  let e ← expI64 x
  let e ← i64Chk (e + (f.bias + 127))
  let p ← floatRound f (m &&& 31) (m / 32) e
  if p.2 < 0 then pure 0
  else if p.2 > f.expMod - 1 then
    pure ((if is_neg x then 2 ^ (f.bits - 1) else 0) + (f.expMod - 1) * 2 ^ f.mant)
  else
    pure ((if is_neg x then 2 ^ (f.bits - 1) else 0) |||
      ((p.2.toNat &&& (f.expMod - 1)) * 2 ^ f.mant % 2 ^ f.bits) ||| p.1 % 2 ^ f.bits)

/-! ### addition and subtraction -/

/-- the two branches of src/fp192/arith/add.rs 27-75: `x` has the larger exponent -/
def addAligned (x y : F192) : M F192 :=
  let diff := x.exp - y.exp
  if diff > 127 then pure x
  else do
    let d1 := x.digits ||| SIGN_MASK
    let d2 ← uShr 128 (y.digits ||| SIGN_MASK) diff
    let s := x.digits / 2 ^ 127 * 2 ^ 127
    if d1 + d2 < B128 then
      pure ⟨(d1 + d2) &&& LOW_MASK ||| s, x.exp⟩
    else do
      let h ← u128Add (d1 / 2) (d2 / 2)
      let d ← u128Add h ((d1 % 2 + d2 % 2) / 2)
      let e ← u64Add x.exp 1
      pure ⟨d &&& LOW_MASK ||| s, e⟩

mutual
/-- src/fp192/arith/add.rs 6-77 -/
def add (x y : F192) : M F192 :=
  if is_neg x != is_neg y then
    if is_neg x then sub y (neg x)
    else sub x (neg y)
  else if is_zero x then pure y
  else if is_zero y then pure x
  else if x.exp > y.exp then addAligned x y
  else addAligned y x
partial_fixpoint

/-- src/fp192/arith/sub.rs 6-27 -/
def sub (x y : F192) : M F192 :=
  if is_neg x != is_neg y then
    if is_neg x then do
      let r ← add y (neg x)
      pure (neg r)
    else add x (neg y)
  else if is_zero x then pure (neg y)
  else if is_zero y then pure x
  else do
    let a ← to_ratio x
    let b ← to_ratio y
    let d ← Ratio.sub a b
    from_ratio d
partial_fixpoint
end

/-! ### multiplication and division -/

/-- `match mul_hi.checked_add(mul_lo)` (src/fp192/arith/mul.rs 32-38) -/
def mulSum (hi lo exp : Nat) : M (Nat × Nat) :=
  if hi + lo < B128 then pure (hi + lo, exp)
  else do
    let e ← u64Add exp 1
    let d ← u128Add (hi / 2) (lo / 2)
    pure (d, e)

/-- the mantissa of the product (src/fp192/arith/mul.rs 19-38) -/
def mulDigits (d1 d2 exp : Nat) : M (Nat × Nat) := do
  let hi ← u128Mul (d1 / 2 ^ 64) (d2 / 2 ^ 64)
  let lo1 ← u128Mul (d1 / 2 ^ 64) (d2 &&& 18446744073709551615)
  let lo2 ← u128Mul (d2 / 2 ^ 64) (d1 &&& 18446744073709551615)
  let lo ← u128Add (lo1 / 2) (lo2 / 2)
  let lo ← uShr 128 lo 63
  mulSum hi lo exp

/-- src/fp192/arith/mul.rs 7-50 -/
def mul (x y : F192) : M F192 :=
  if is_zero x || is_zero y then pure ZERO
  else do
    let s ← u64Add x.exp y.exp
    if s < EXP_COEFF then pure ZERO
    else do
      let exp ← u64Add (s - EXP_COEFF) 128
      let p ← mulDigits (SIGN_MASK ||| x.digits) (SIGN_MASK ||| y.digits) exp
      let d ← uShl 128 p.1 (lz128 p.1)
      let e ← uSub p.2 (lz128 p.1)
      pure ⟨d &&& LOW_MASK ||| (x.digits ^^^ y.digits) &&& SIGN_MASK, e⟩

/-- `while digits < SIGN_MASK { .. }` (src/fp192/arith/mul.rs 67-71, src/fp192/arith/div.rs 65-69) -/
def normLoop (digits rem exp : Nat) : M (Nat × Nat × Nat) :=
  if digits < SIGN_MASK then do
    let d ← u128Mul digits 2
    let r ← u128Mul rem 2
    let e ← uSub exp 1
    normLoop d r e
  else pure (digits, rem, exp)
partial_fixpoint

/-- src/fp192/arith/mul.rs 53-80 -/
def mul_i32 (x : F192) (a : Int) : M F192 :=
  if is_zero x || a == 0 then pure ZERO
  else do
    let d := x.digits ||| SIGN_MASK
    let k ← i32AbsU128 a
    let rem ← u128Mul (d &&& 4294967295) k
    let d ← uShr 128 d 32
    let d ← u128Mul d k
    let e ← u64Add x.exp 32
    let p ← normLoop d rem e
    let d ← u128Add p.1 (p.2.1 / 2 ^ 32)
    pure ⟨d &&& LOW_MASK ||| signBit (is_neg x != decide (a < 0)), p.2.2⟩

/-- src/fp192/arith/div.rs 49-77 -/
def div_i32 (x : F192) (a : Int) : M F192 :=
  if a = 0 then throw .explicit
  else if is_zero x then pure ZERO
  else do
    let d := x.digits ||| SIGN_MASK
    let k ← i32AbsU128 a
    let rem ← uRem d k
    let d ← uDiv d k
    let p ← normLoop d rem x.exp
    let q ← uDiv p.2.1 k
    let d ← u128Add p.1 q
    pure ⟨d &&& LOW_MASK ||| signBit (is_neg x != decide (a < 0)), p.2.2⟩

/-- src/fp192/funcs/ln.rs 88-98 -/
def LOG_TABLE : List Nat := [
    0, 375269, 744809, 1108792, 1467382, 1820738, 2169009,
    2512339, 2850868, 3184727, 3514044, 3838940, 4159533,
    4475935, 4788254, 5096595, 5401057, 5701736, 5998727,
    6292117, 6581994, 6868440, 7151535, 7431358, 7707983,
    7981482, 8251925, 8519380, 8783912, 9045583, 9304456,
    9560590, 9814042, 10064867, 10313119, 10558851, 10802114,
    11042956, 11281425, 11517567, 11751428, 11983051, 12212478,
    12439751, 12664910, 12887994, 13109040, 13328086, 13545167,
    13760319, 13973575, 14184969, 14394532, 14602296, 14808293,
    15012550, 15215099, 15415967, 15615181, 15812769, 16008757,
    16203171, 16396036, 16587376, 16777216]

/-- src/fp192/funcs/pow.rs 144-210 -/
def POW_TABLE : List Nat := [
    16777216, 16959907, 17144589, 17331281, 17520006, 17710787, 17903645, 18098602,
    18295683, 18494910, 18696307, 18899896, 19105702, 19313750, 19524063, 19736666,
    19951584, 20168843, 20388467, 20610483, 20834916, 21061794, 21291142, 21522987,
    21757357, 21994279, 22233781, 22475891, 22720637, 22968049, 23218155, 23470984,
    23726566, 23984931, 24246110, 24510133, 24777031, 25046835, 25319577, 25595289,
    25874004, 26155753, 26440571, 26728489, 27019544, 27313767, 27611195, 27911861,
    28215801, 28523051, 28833647, 29147625, 29465021, 29785874, 30110221, 30438100,
    30769549, 31104608, 31443315, 31785710, 32131834, 32481726, 32835429, 33192984,
    33554432]

/-- linear interpolation in a table of `u32` (src/fp192/funcs/ln.rs 78-83, src/fp192/funcs/pow.rs 134-138) -/
def interpolate (table : List Nat) (index : Nat) : M Nat := do
  let frac := index &&& 31
  let index := index / 32
  let a ← idx table index
  let b ← idx table (index + 1)
  let a ← u32Mul a (32 - frac)
  let b ← u32Mul b frac
  let s ← u32Add a b
  pure (s / 32)

/-- src/fp192/funcs/ln.rs 75-84.  The shift of the sum by five places is done after the cast to `i64` in the
code, which gives the same number; `<< 24` on an `i64` drops the upper bits. -/
def fast_log2 (x : F192) : M Int := do
  let e ← expI64 x
  let e ← i64Chk (e + 127)
  let s ← interpolate LOG_TABLE ((x.digits &&& LOW_MASK) / 2 ^ 116)
  i64Chk (asI64 (e * 16777216) + s)

/-- src/fp192/funcs/pow.rs 133-142 -/
def fast_pow2_worker (n : Nat) : M Nat := do
  let r ← interpolate POW_TABLE (n / 2 ^ 13)
  uShl 128 r 103

/-- src/fp192/funcs/pow.rs 69-88.  `n & 0xfff_fff` of a negative `n` is not negative, so the inner branch
`d < 0` is never taken. -/
def fast_pow2 (n : Int) : M F192 := do
  let d ← fast_pow2_worker (n % 16777216).toNat
  let e ← i64Chk (n / 16777216 + EXP_COEFF)
  let e ← i64Chk (e - 127)
  pure ⟨d &&& LOW_MASK, asU64 e⟩

/-- `loop { .. }` (src/fp192/arith/div.rs 26-45) -/
def divLoop (s o : F192) (negative : Bool) (min max : F192) : M F192 := do
  let t ← add min max
  let mid := shr t 1
  let p ← mul o mid
  let min := if lt p s then mid else min
  let max := if lt p s then max else mid
  let n ← step_epsilon min
  if n = max then pure (if negative then neg max else max)
  else divLoop s o negative min max
partial_fixpoint

/-- src/fp192/arith/div.rs 8-46 -/
def div (x y : F192) : M F192 :=
  if is_zero x then pure ZERO
  else if is_zero y then throw .explicit
  else do
    let a ← fast_log2 x
    let b ← fast_log2 y
    let approx ← i64Chk (a - b)
    let lo ← i64Chk (approx - 1048576)
    let hi ← i64Chk (approx + 1048576)
    let min ← fast_pow2 lo
    let max ← fast_pow2 hi
    divLoop (abs x) (abs y) (is_neg x != is_neg y) min max

/-! ### rounding -/

/-- src/fp192/funcs.rs 68-95 -/
def truncate (x : F192) : M F192 :=
  if is_zero x then pure ZERO
  else do
    let e ← expI64 x
    if e < -127 then pure ZERO
    else if e ≥ 0 then pure x
    else do
      let d ← clearLow x.digits (-e).toNat
      pure ⟨d, x.exp⟩

/-- src/fp192/funcs.rs 10-24 -/
def floor (x : F192) : M F192 := do
  let t ← truncate x
  if t = x then pure t
  else if is_neg x then do
    let one ← from_int 1
    sub t one
  else pure t

/-- src/fp192/funcs.rs 26-40 -/
def ceil (x : F192) : M F192 := do
  let t ← truncate x
  if t = x then pure t
  else if is_neg x then pure t
  else do
    let one ← from_int 1
    add t one

/-- src/fp192/funcs.rs 42-66 -/
def round (x : F192) : M F192 := do
  let t ← truncate x
  if t = x then pure t
  else do
    let f ← sub x t
    let half := shr ONE 1
    let neg_half := neg half
    if le f neg_half then do
      let m ← from_int (-1)
      add t m
    else if ge f half then do
      let o ← from_int 1
      add t o
    else pure t

/-- src/fp192/funcs.rs 97-99 -/
def frac (x : F192) : M F192 := do
  let t ← truncate x
  sub x t

/-! ### powers of two -/

/-- src/fp192/funcs/ln.rs 8-18 -/
def ilog2 (x : F192) : M F192 :=
  if is_neg x then throw .explicit
  else if is_zero x then throw .explicit
  else do
    let e ← expI64 x
    let e ← i64Chk (e + 127)
    from_int e

/-- src/fp192/funcs/pow.rs 7-12 -/
def from_pow2 (n : Int) : M F192 := do
  let e ← i64Chk (n + EXP_COEFF)
  let e ← i64Chk (e - 127)
  pure ⟨0, asU64 e⟩

end F192
end Hmath
