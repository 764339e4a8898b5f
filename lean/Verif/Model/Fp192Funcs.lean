import Verif.Model.Fp192

/-!
# Functions of 192-bit floating point numbers

Model of src/fp192/funcs/pow.rs, sqrt.rs and ln.rs.
-/

namespace Hmath
namespace F192

/-- src/fp192/consts.rs 60-63 -/
def SQRT_2 : F192 := ⟨70474785707535279813346468761740951199, 281474976710529⟩
/-- src/fp192/consts.rs 80-83 -/
def LN_2 : F192 := ⟨65724579765044062406256839048270378671, 281474976710528⟩

/-- `i64::abs` -/
def i64Abs (z : Int) : M Nat := if z = -9223372036854775808 then throw .overflow else pure z.natAbs

/-! ### powers -/

/-- `while b >= 2` (src/fp192/funcs/pow.rs 107-110): the product and what is left of `b` -/
def powiLoop (aa : F192) : Nat → F192 → M (F192 × Nat)
  | b + 2, r => do
    let r ← mul r aa
    powiLoop aa b r
  | b, r => pure (r, b)

/-- src/fp192/funcs/pow.rs 91-130 -/
def powi_abs (a : F192) (b : Nat) : M F192 :=
  if b < 8 then
    if b < 2 then pure (if b = 0 then ONE else a)
    else do
      let aa ← mul a a
      let p ← powiLoop aa b ONE
      if p.2 = 1 then mul p.1 a else pure p.1
  else do
    let r ← powi_abs a (b / 2)
    let r ← mul r r
    if b % 2 = 1 then mul r a else pure r
termination_by b

/-- src/fp192/funcs/pow.rs 49-60 -/
def powi (x : F192) (n : Int) : M F192 := do
  let k ← i64Abs n
  let r ← powi_abs x k
  if n < 0 then div ONE r else pure r

/-- the loop of src/fp192/funcs/pow.rs 36-40: `n` more rounds, starting with the divisor `i` -/
def pow2Loop (u : F192) : Nat → Nat → F192 → F192 → M (F192 × F192)
  | 0, _, approx, iter => pure (approx, iter)
  | n + 1, i, approx, iter => do
    let approx ← add approx iter
    let iter ← mul iter u
    let iter ← div_i32 iter i
    pow2Loop u n (i + 1) approx iter

/-- src/fp192/funcs/pow.rs 16-46.  The exponent is added with wrapping conversions and a checked addition. -/
def pow2 (x : F192) : M F192 := do
  let int ← floor x
  let fraction ← sub x int
  match ← to_int (-9223372036854775808) 9223372036854775807 int with
  | none => throw .explicit
  | some exp =>
    let u ← mul fraction LN_2
    let p ← pow2Loop u 13 2 ONE u
    let approx ← add p.1 p.2
    let e ← i64Chk (asI64 approx.exp + exp)
    pure ⟨approx.digits, asU64 e⟩

/-! ### square root -/

/-- `x = (x + n / x) >> 1` (src/fp192/funcs/sqrt.rs 52-55) -/
def isqrtStep (n x : Nat) : M Nat := do
  let q ← uDiv n x
  let s ← u128Add x q
  pure (s / 2)

/-- src/fp192/funcs/sqrt.rs 47-58 -/
def isqrt (n : Nat) : M Nat := do
  let x ← isqrtStep n 13043817825332782212
  let x ← isqrtStep n x
  let x ← isqrtStep n x
  let x2 ← isqrtStep n x
  pure (min x x2)

/-- `approx.add(&self.div(&approx)).shr(1)` (src/fp192/funcs/sqrt.rs 38-39) -/
def newton (x approx : F192) : M F192 := do
  let q ← div x approx
  let s ← add approx q
  pure (shr s 1)

/-- the start of the iteration (src/fp192/funcs/sqrt.rs 12-36) -/
def sqrtStart (x : F192) : M F192 := do
  let digits := x.digits ||| SIGN_MASK
  let exp ← expI64 x
  let r ← isqrt digits
  let a ← i64Abs exp
  let es ← i64Chk (exp.tdiv 2 - 64)
  let es ← i64Chk (es + EXP_COEFF)
  let approx : F192 := ⟨r * 2 ^ 64 % 2 ^ 128 &&& LOW_MASK, asU64 es⟩
  if a % 2 = 1 then do
    let approx ← mul approx SQRT_2
    pure (if exp < 0 then shr approx 1 else approx)
  else pure approx

/-- src/fp192/funcs/sqrt.rs 7-42 -/
def sqrt (x : F192) : M F192 :=
  if is_zero x || is_neg x then pure ZERO
  else do
    let approx ← sqrtStart x
    let approx ← newton x approx
    newton x approx

/-! ### logarithms -/

/-- the eight squarings of src/fp192/funcs/ln.rs 55-62: the power with exponent `2^n` -/
def squares : Nat → F192 → M F192
  | 0, x => pure x
  | n + 1, x => do
    let y ← mul x x
    squares n y

/-- src/fp192/funcs/ln.rs 50-72.  The recursive calls get the mantissa with the top bit, which is the sign bit,
set, that is, a negative number. -/
def log2_iter : Nat → F192 → M F192
  | 0, _ => from_int 127
  | n + 1, x => do
    let h ← squares 8 x
    let d : F192 := ⟨h.digits ||| SIGN_MASK, EXP_COEFF⟩
    let e ← expI64 h
    let e ← from_int e
    let l ← log2_iter n d
    let s ← add e l
    pure (shr s 8)

/-- src/fp192/funcs/ln.rs 24-41 -/
def log2 (x : F192) : M F192 :=
  if is_neg x then throw .explicit
  else if is_zero x then throw .explicit
  else do
    let d : F192 := ⟨x.digits ||| SIGN_MASK, EXP_COEFF⟩
    let e ← expI64 x
    let e ← from_int e
    let l ← log2_iter 16 d
    add e l

/-- src/fp192/funcs/ln.rs 44-46 -/
def ln (x : F192) : M F192 := do
  let l ← log2 x
  mul l LN_2

/-- src/fp192/funcs/pow.rs 64-66 -/
def pow (x y : F192) : M F192 := do
  let l ← log2 x
  let p ← mul y l
  pow2 p

end F192
end Hmath
