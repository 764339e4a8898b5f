import Verif.Model.UBigInt

/-!
# `sqrt`, `factorial`, `fibonacci`, `is_prime`, `prime_factorial`

Model of src/ubigint/funcs.rs 9-370.  The `#[cfg(test)] assert!`s are not part
of the library build and are left out; `random` (feature `rand`) is in
`Model/Misc.lean`.
-/

namespace Hmath
namespace UBig

/-! ### square root -/

/-- `n.abs_diff(m)` on `u64` -/
def u64AbsDiff (n m : Nat) : Nat := if m ≤ n then n - m else m - n

/-- `while result * result < n { result += div; }` (src/ubigint/funcs.rs 350-352) -/
def sqrtU64Up (n r div : Nat) : M Nat := do
  let s ← u64Mul r r
  if s < n then do
    let r ← u64Add r div
    sqrtU64Up n r div
  else pure r
partial_fixpoint

/-- `while result * result > n { result -= div; }` (src/ubigint/funcs.rs 358-360) -/
def sqrtU64Down (n r div : Nat) : M Nat := do
  let s ← u64Mul r r
  if s > n then do
    let r ← uSub r div
    sqrtU64Down n r div
  else pure r
partial_fixpoint

/-- `div /= 4; if div < 4 { div = 1; }` (src/ubigint/funcs.rs 354-356 and 62-67) -/
def sqrtNextDiv (div : Nat) : Nat := if div / 4 < 4 then 1 else div / 4

/-- the final `loop` of `sqrt_u64` (src/ubigint/funcs.rs 349-369) -/
def sqrtU64Fin (n r div : Nat) : M Nat := do
  let r ← sqrtU64Up n r div
  let r ← sqrtU64Down n r (sqrtNextDiv div)
  if sqrtNextDiv div / 4 = 0 then pure r
  else sqrtU64Fin n r (sqrtNextDiv div / 4)
partial_fixpoint

/-- src/ubigint/funcs.rs 301-307: `frac` before the subtraction of `1 << 28` -/
def sqrtFrac (n l2 : Nat) : M Nat :=
  if l2 > 28 then do
    let k ← uSub l2 28
    uShr 64 n k
  else do
    let k ← uSub 28 l2
    uShl 64 n k

/-- src/ubigint/funcs.rs 317-320 -/
def sqrtOdd (l2 s : Nat) : M Nat :=
  if l2 % 2 = 1 then do
    let s ← u64Mul s 379625062
    pure (s / 2 ^ 28)
  else pure s

/-- src/ubigint/funcs.rs 299-324: the first approximation (`n ≠ 0`) -/
def sqrtApprox (n : Nat) : M Nat := do
  let l2 := Nat.log2 n
  let frac ← sqrtFrac n l2
  let frac ← uSub frac (2 ^ 28)
  let f1 ← u64Add (2 ^ 28) (frac / 2)
  let f2 ← u64Mul frac frac
  let s ← uSub f1 (f2 / 2 ^ 31)
  let s ← sqrtOdd l2 s
  let p ← uShl 64 1 (l2 / 2)
  let d ← u64Mul p s
  pure (d / 2 ^ 28)

/-- src/ubigint/funcs.rs 327-335: one Newton step with a step of at least one -/
def sqrtNewton (n r : Nat) : M Nat := do
  let s ← u64Mul r r
  let t ← u64Mul 2 r
  let q ← uDiv (u64AbsDiff n s) t
  if n > s then u64Add r (max q 1) else uSub r (max q 1)

/-- src/ubigint/funcs.rs 337-347: initial `div` of the final loop -/
def sqrtDiv (n r : Nat) : M Nat :=
  if r = 0 then pure 2
  else do
    let s ← u64Mul r r
    let t ← u64Mul 2 r
    let div ← uDiv (u64AbsDiff n s) t
    if div = 0 then pure 2 else pure div

/-- src/ubigint/funcs.rs 296-370 -/
def sqrt_u64 (n : Nat) : M Nat :=
  if n = 0 then pure 0
  else do
    let r ← sqrtApprox n
    let r ← sqrtNewton n r
    let div ← sqrtDiv n r
    sqrtU64Fin n r div

/-- src/ubigint/funcs.rs 35-43: one Newton step `(div, result)` -/
def sqrtStep (a r : UBig) : M (UBig × UBig) := do
  let r2 ← mul r r
  if geq a r2 then do
    let t ← sub a r2
    let t ← div_u32 t 2
    let d ← div t r
    let r ← add_mut r d
    pure (d, r)
  else do
    let t ← sub r2 a
    let t ← div_u32 t 2
    let d ← div t r
    let r ← sub_mut r d
    pure (d, r)

/-- the Newton `loop` (src/ubigint/funcs.rs 32-48); returns `(div, result)` -/
def sqrtLoop (a r : UBig) : M (UBig × UBig) := do
  let x ← sqrtStep a r
  if x.1.length < 2 then pure x else sqrtLoop a x.2
partial_fixpoint

/-- src/ubigint/funcs.rs 58-60 -/
def sqrtUp (a r : UBig) (d : Nat) : M UBig := do
  let r2 ← mul r r
  if lt r2 a then do
    let r ← add_u32_mut r d
    sqrtUp a r d
  else pure r
partial_fixpoint

/-- src/ubigint/funcs.rs 69-71 -/
def sqrtDown (a r : UBig) (d : Nat) : M UBig := do
  let r2 ← mul r r
  if gt r2 a then do
    let r ← sub_u32_mut r d
    sqrtDown a r d
  else pure r
partial_fixpoint

/-- src/ubigint/funcs.rs 57-78 -/
def sqrtFin (a r : UBig) (d : Nat) : M UBig := do
  let r ← sqrtUp a r d
  let r ← sqrtDown a r (sqrtNextDiv d)
  if sqrtNextDiv d / 4 = 0 then pure r
  else sqrtFin a r (sqrtNextDiv d / 4)
partial_fixpoint

/-- src/ubigint/funcs.rs 21-27: scale the approximation -/
def sqrtScale (len approx : Nat) : M UBig :=
  if len % 2 ≠ 0 then do
    let r ← mul_u32_mut (from_u64 approx) 65536
    let k ← uSub (len / 2) 1
    pure (shift_left_mut r k)
  else do
    let k ← uSub (len / 2) 1
    pure (shift_left_mut (from_u64 approx) k)

/-- src/ubigint/funcs.rs 12-79 -/
def sqrt (a : UBig) : M UBig :=
  if a.length < 3 then do
    let t ← to_u64 a
    let n ← unwrapR t
    let r ← sqrt_u64 n
    pure (from_u64 r)
  else do
    let k ← uSub a.length 2
    let t ← to_u64 (shift_right a k)
    let n ← unwrapR t
    let approx ← sqrt_u64 n
    let result ← sqrtScale a.length approx
    let r2 ← mul result result
    let t ← sub a r2
    let t ← div_u32 t 2
    let d ← div t result
    let result ← add_mut result d
    let x ← sqrtLoop a result
    let t ← to_u32 x.1
    let d ← unwrapR t
    sqrtFin a x.2 (if d = 0 then 2 else d)

/-! ### factorial and Fibonacci numbers -/

/-- src/ubigint/funcs.rs 85-87: `k` iterations starting with counter `i` -/
def factLoop64 : Nat → Nat → Nat → M Nat
  | 0, _, result => pure result
  | k + 1, i, result => do
    let result ← u64Mul result i
    factLoop64 k (i + 1) result

/-- src/ubigint/funcs.rs 96-103: `k` iterations starting with counter `i`;
`i as u32` is `i % 2^32`. -/
def factLoopInt : Nat → Nat → UBig → Nat → M (UBig × Nat)
  | 0, _, result, buf => pure (result, buf)
  | k + 1, i, result, buf => do
    let buf ← u32Mul buf (i % B32)
    if buf > 0x1000000 then do
      let result ← mul_u32_mut result buf
      factLoopInt k (i + 1) result 1
    else factLoopInt k (i + 1) result buf

/-- src/ubigint/funcs.rs 124-131 -/
def factLoopBig : Nat → Nat → UBig → UBig → M (UBig × UBig)
  | 0, _, result, buf => pure (result, buf)
  | k + 1, i, result, buf => do
    let buf ← mul_u32_mut buf (i % B32)
    if buf.length > 6 then do
      let result ← mul_mut result buf
      factLoopBig k (i + 1) result one
    else factLoopBig k (i + 1) result buf

/-- src/ubigint/funcs.rs 81-136; a range `s..e` has `e - s` elements. -/
def factorial (n : Nat) : M UBig :=
  if n < 21 then do
    let r ← factLoop64 (n + 1 - 2) 2 1
    pure (from_u64 r)
  else if n < 129 then do
    let x ← factLoopInt (n + 1 - 21) 21 [2192834560, 566454140] 1
    if x.2 > 1 then mul_u32_mut x.1 x.2 else pure x.1
  else do
    let x ← factLoopBig (n + 1 - 129) 129
      [0, 0, 0, 2147483648, 1653232837,
       595720861, 948844160, 1991672462,
       2500910141, 2421394908, 1199558731,
       684006397, 4097118094, 3861115933,
       3624737256, 703871983, 1875727135,
       2498653150, 380736459, 2256750694,
       3845178240, 3753984225, 4581] one
    mul_mut x.1 x.2

/-- src/ubigint/funcs.rs 151-155; returns `result` -/
def fibLoop128 : Nat → Nat → Nat → Nat → M Nat
  | 0, _, _, result => pure result
  | k + 1, last, llast, _ => do
    let result ← u128Add last llast
    fibLoop128 k result last result

/-- src/ubigint/funcs.rs 165-169 -/
def fibLoopBig : Nat → UBig → UBig → UBig → M UBig
  | 0, _, _, result => pure result
  | k + 1, last, llast, _ => do
    let result ← add last llast
    fibLoopBig k result last result

/-- src/ubigint/funcs.rs 138-173 -/
def fibonacci (n : Nat) : M UBig :=
  if n < 14 then do
    let x ← idx [0, 1, 1, 2, 3, 5, 8, 13, 21, 34, 55, 89, 144, 233] n
    pure (from_u32 x)
  else if n < 187 then do
    let r ← fibLoop128 (n - 13) 233 144 0
    pure (from_u128 r)
  else
    fibLoopBig (n - 186) [858943736, 3366396219, 4196493967, 4200843481]
      [3883453837, 806826839, 1203823756, 2596264053] zero

/-! ### primes -/

/-- src/ubigint/funcs.rs 201-209 -/
def primeLoop32 (n self div : Nat) : M Bool :=
  if div < n then do
    let r ← uRem self div
    if r = 0 then pure false
    else do
      let div ← u32Add div 2
      primeLoop32 n self div
  else pure true
partial_fixpoint

/-- src/ubigint/funcs.rs 212-219: `k` iterations; `false` is the early
`return false` -/
def primeLoopU32 (a : UBig) : Nat → Nat → M Bool
  | 0, _ => pure true
  | k + 1, div => do
    let r ← rem_u32 a div
    if is_zero r then pure false
    else do
      let div ← u32Add div 2
      primeLoopU32 a k div

/-- src/ubigint/funcs.rs 227-235 -/
def primeLoopBig (a d : UBig) : M Bool := do
  let d2 ← mul d d
  if leq d2 a then do
    let r ← rem a d
    if is_zero r then pure false
    else do
      let d ← add_u32_mut d 2
      primeLoopBig a d
  else pure true
partial_fixpoint

/-- src/ubigint/funcs.rs 212-235, with the number of iterations of the `for` loop
as an argument -/
def primeLarge (a : UBig) (iters : Nat) : M Bool := do
  let b ← primeLoopU32 a iters 3
  if b then do
    let t ← u64Add U32MAX (U32MAX % 2)
    let t ← u64Add t 1
    primeLoopBig a (from_u64 t)
  else pure false

/-- src/ubigint/funcs.rs 195-237 (after `iter_until` has been computed) -/
def primeBody (a : UBig) (iterUntil : Except ConvErr Nat) : M Bool :=
  match iterUntil with
  | .ok n => do
    let t ← to_u64 a
    let self ← unwrapR t
    primeLoop32 n self 3
  | .error _ => primeLarge a (U32MAX / 2 - 1)

/-- src/ubigint/funcs.rs 175-239 -/
def is_prime (a : UBig) : M Bool := do
  let x ← idx a 0
  if x % 2 = 0 then
    pure (decide (x = 2 ∧ a.length = 1))
  else if is_one a then pure false
  else do
    let s ← sqrt a
    let iter ← add_u32 s 1
    let it ← to_u32 iter
    primeBody a it

/-- src/ubigint/funcs.rs 245-248; `result` is kept reversed (`push` is `::`) -/
def pfTwos (a : UBig) (result : List UBig) : M (UBig × List UBig) := do
  let g ← gt_u32 a 1
  if g then do
    let r ← rem_pow2 a 2
    if is_zero r then do
      let a ← div_u32_mut a 2
      pfTwos a (from_u32 2 :: result)
    else pure (a, result)
  else pure (a, result)
partial_fixpoint

/-- src/ubigint/funcs.rs 253-256 -/
def pfInner32 (a : UBig) (div : Nat) (result : List UBig) : M (UBig × List UBig) := do
  let r ← rem_u32 a div
  if is_zero r then do
    let a ← div_u32_mut a div
    pfInner32 a div (from_u32 div :: result)
  else pure (a, result)
partial_fixpoint

/-- src/ubigint/funcs.rs 252-259 -/
def pfLoop32 (a : UBig) (div : Nat) (result : List UBig) : M (UBig × List UBig) := do
  let d2 ← u64Mul div div
  if geq a (from_u64 d2) then do
    let x ← pfInner32 a div result
    let div ← u32Add div 2
    pfLoop32 x.1 div x.2
  else pure (a, result)
partial_fixpoint

/-- src/ubigint/funcs.rs 265-268 -/
def pfInnerBig (a d : UBig) (result : List UBig) : M (UBig × List UBig) := do
  let r ← rem a d
  if is_zero r then do
    let a ← div_mut a d
    pfInnerBig a d (d :: result)
  else pure (a, result)
partial_fixpoint

/-- src/ubigint/funcs.rs 264-271 -/
def pfLoopBig (a d : UBig) (result : List UBig) : M (UBig × List UBig) := do
  let d2 ← mul d d
  if geq a d2 then do
    let x ← pfInnerBig a d result
    let d ← add_u32_mut d 2
    pfLoopBig x.1 d x.2
  else pure (a, result)
partial_fixpoint

/-- src/ubigint/funcs.rs 241-278 -/
def prime_factorial (a : UBig) : M (List UBig) := do
  let x ← pfTwos a []
  let x ← pfLoop32 x.1 3 x.2
  let x ← pfLoopBig x.1 (from_u32 U32MAX) x.2
  let g ← gt_u32 x.1 1
  if g || x.2.length == 0 then pure (x.1 :: x.2).reverse else pure x.2.reverse

end UBig
end Hmath
