import Verif.Model.Fp192Consts

/-!
# Trigonometric functions of 192-bit floating point numbers

Model of src/fp192/funcs/trigo.rs 1-191 and atrigo.rs 1-103.
-/

namespace Hmath
namespace F192

/-- an integer constant of the program: of type `i32`, or of type `u64` -/
inductive Lit
  | i32 (n : Nat)
  | u64 (n : Nat)

/-- `.into()` (src/fp192/convert.rs 78-110) -/
def Lit.into : Lit → M F192
  | .i32 n => from_int n
  | .u64 n => from_uint n

/-- pairs of statements `result = result.mul(&x); result = result.add(&c.into());`, or `sub` instead of `add` -/
def horner (x : F192) : List (Bool × Lit) → F192 → M F192
  | [], r => pure r
  | (plus, c) :: t, r => do
    let r ← mul r x
    let c ← c.into
    let r ← if plus then add r c else sub r c
    horner x t r

/-- the constants of src/fp192/funcs/trigo.rs 93-108 -/
def sinCoeffs : List (Bool × Lit) := [
  (false, .i32 (16 * 17 * 18 * 19)),
  (true, .i32 (14 * 15 * 16 * 17 * 18 * 19)),
  (false, .u64 (12 * 13 * 14 * 15 * 16 * 17 * 18 * 19)),
  (true, .u64 (10 * 11 * 12 * 13 * 14 * 15 * 16 * 17 * 18 * 19)),
  (false, .u64 (8 * 9 * 10 * 11 * 12 * 13 * 14 * 15 * 16 * 17 * 18 * 19)),
  (true, .u64 (6 * 7 * 8 * 9 * 10 * 11 * 12 * 13 * 14 * 15 * 16 * 17 * 18 * 19)),
  (false, .u64 (4 * 5 * 6 * 7 * 8 * 9 * 10 * 11 * 12 * 13 * 14 * 15 * 16 * 17 * 18 * 19)),
  (true, .u64 (2 * 3 * 4 * 5 * 6 * 7 * 8 * 9 * 10 * 11 * 12 * 13 * 14 * 15 * 16 * 17 * 18 * 19))]

/-- the constants of src/fp192/funcs/trigo.rs 128-145 -/
def cosCoeffs : List (Bool × Lit) := [
  (true, .i32 (17 * 18 * 19 * 20)),
  (false, .i32 (15 * 16 * 17 * 18 * 19 * 20)),
  (true, .u64 (13 * 14 * 15 * 16 * 17 * 18 * 19 * 20)),
  (false, .u64 (11 * 12 * 13 * 14 * 15 * 16 * 17 * 18 * 19 * 20)),
  (true, .u64 (9 * 10 * 11 * 12 * 13 * 14 * 15 * 16 * 17 * 18 * 19 * 20)),
  (false, .u64 (7 * 8 * 9 * 10 * 11 * 12 * 13 * 14 * 15 * 16 * 17 * 18 * 19 * 20)),
  (true, .u64 (5 * 6 * 7 * 8 * 9 * 10 * 11 * 12 * 13 * 14 * 15 * 16 * 17 * 18 * 19 * 20)),
  (false, .u64 (3 * 4 * 5 * 6 * 7 * 8 * 9 * 10 * 11 * 12 * 13 * 14 * 15 * 16 * 17 * 18 * 19 * 20)),
  (true, .u64 (1 * 2 * 3 * 4 * 5 * 6 * 7 * 8 * 9 * 10 * 11 * 12 * 13 * 14 * 15 * 16 * 17 * 18 * 19 * 20))]

/-- the constants of src/fp192/funcs/trigo.rs 167-186 -/
def nearCoeffs : List (Bool × Lit) := [
  (true, .i32 (10 * 11)),
  (true, .i32 (9 * 10 * 11)),
  (false, .i32 (8 * 9 * 10 * 11)),
  (false, .i32 (7 * 8 * 9 * 10 * 11)),
  (true, .i32 (6 * 7 * 8 * 9 * 10 * 11)),
  (true, .i32 (5 * 6 * 7 * 8 * 9 * 10 * 11)),
  (false, .i32 (4 * 5 * 6 * 7 * 8 * 9 * 10 * 11)),
  (false, .i32 (3 * 4 * 5 * 6 * 7 * 8 * 9 * 10 * 11)),
  (true, .i32 (2 * 3 * 4 * 5 * 6 * 7 * 8 * 9 * 10 * 11)),
  (true, .i32 (1 * 2 * 3 * 4 * 5 * 6 * 7 * 8 * 9 * 10 * 11))]

/-- src/fp192/funcs/trigo.rs 161-191 -/
def sin_near_pi_over_4 (x : F192) : M F192 := do
  let x' ← sub x PI_OVER_4
  let c ← (Lit.i32 11).into
  let r ← add c x'
  let r ← horner x' nearCoeffs (neg r)
  let r ← mul r ONE_OVER_SQRT_2
  div_i32 r (1 * 2 * 3 * 4 * 5 * 6 * 7 * 8 * 9 * 10 * 11)

/-- src/fp192/funcs/trigo.rs 85-117 -/
def sin_iter (x : F192) : M F192 :=
  if gt x ONE_OVER_SQRT_2 then sin_near_pi_over_4 x
  else do
    let x_sqr ← mul x x
    let c ← (Lit.i32 (18 * 19)).into
    let r ← sub c x_sqr
    let r ← horner x_sqr sinCoeffs r
    let r ← mul r x
    let r ← div_i32 (shr r 16) (6561 * 125)
    div_i32 r 2263261

/-- src/fp192/funcs/trigo.rs 121-153 -/
def cos_iter (x : F192) : M F192 :=
  if gt x ONE_OVER_SQRT_2 then do
    let y ← sub PI_OVER_2 x
    sin_near_pi_over_4 y
  else do
    let x_sqr ← mul x x
    let c ← (Lit.i32 (19 * 20)).into
    let r ← sub x_sqr c
    let r ← horner x_sqr cosCoeffs r
    let r ← div_i32 (shr r 18) (6561 * 625)
    div_i32 r 2263261

/-- `x.div(&pi_2).frac().mul(&pi_2)` for `x.abs()` (src/fp192/funcs/trigo.rs 7-12 and 43-48) -/
def mod2pi (x : F192) : M F192 := do
  let pi_2 ← shl PI 1
  let d ← div (abs x) pi_2
  let f ← frac d
  mul f pi_2

/-- src/fp192/funcs/trigo.rs 23-37: from the argument in the first quarter -/
def sinQuarter (x : F192) (neg' : Bool) : M F192 := do
  let r ← if gt x PI_OVER_4 then do
      let y ← sub PI_OVER_2 x
      cos_iter y
    else sin_iter x
  pure (if neg' then neg r else r)

/-- src/fp192/funcs/trigo.rs 19-21 -/
def sinHalf (x : F192) (neg' : Bool) : M F192 :=
  if gt x PI_OVER_2 then do
    let y ← sub PI x
    sinQuarter y neg'
  else sinQuarter x neg'

/-- src/fp192/funcs/trigo.rs 5-38 -/
def sin (x : F192) : M F192 := do
  let y ← mod2pi x
  if gt y PI then do
    let y ← sub y PI
    sinHalf y (!is_neg x)
  else sinHalf y (is_neg x)

/-- src/fp192/funcs/trigo.rs 59-73: from the argument in the first quarter -/
def cosQuarter (x : F192) (neg' : Bool) : M F192 := do
  let r ← if gt x PI_OVER_4 then do
      let y ← sub PI_OVER_2 x
      sin_iter y
    else cos_iter x
  pure (if neg' then neg r else r)

/-- src/fp192/funcs/trigo.rs 54-57 -/
def cosHalf (x : F192) : M F192 :=
  if gt x PI_OVER_2 then do
    let y ← sub PI x
    cosQuarter y true
  else cosQuarter x false

/-- src/fp192/funcs/trigo.rs 41-74 -/
def cos (x : F192) : M F192 := do
  let y ← mod2pi x
  if gt y PI then do
    let pi_2 ← shl PI 1
    let y ← sub pi_2 y
    cosHalf y
  else cosHalf y

/-- src/fp192/funcs/trigo.rs 78-80 -/
def tan (x : F192) : M F192 := do
  let s ← sin x
  let c ← cos x
  div s c

/-! ### inverse functions -/

/-- the loop of src/fp192/funcs/atrigo.rs 28-33: `n` more rounds, starting with `i` -/
def asinLoop (x_sqr : F192) : Nat → Nat → F192 → F192 → M F192
  | 0, _, r, _ => pure r
  | n + 1, i, r, c => do
    let r ← add r c
    let c ← mul c x_sqr
    let c ← mul_i32 c ((2 * i + 3) * (2 * i + 3) * (2 * i + 4))
    let c ← div_i32 c ((i + 2) * (i + 2) * (2 * i + 5) * 4)
    asinLoop x_sqr n (i + 1) r c

/-- src/fp192/funcs/atrigo.rs 7-41.  `asin_near_one` (97-99) is `todo!`. -/
def asin (x : F192) : M F192 := do
  let r := if is_neg x then neg x else x
  if gt r ONE then throw .explicit
  else if gt x ONE_OVER_SQRT_2 then throw .explicit
  else do
    let x_sqr ← mul r r
    let c ← mul x_sqr r
    let c ← div_i32 c 6
    let r ← asinLoop x_sqr 15 0 r c
    pure (if is_neg x then neg r else r)

/-- src/fp192/funcs/atrigo.rs 44-46 -/
def acos (x : F192) : M F192 := do
  let a ← asin x
  sub PI_OVER_2 a

/-- the loop of src/fp192/funcs/atrigo.rs 72-82: `n` more rounds -/
def atanLoop (x_sqr : F192) : Nat → Nat → F192 → F192 → M F192
  | 0, k, r, c => do
    let t ← div_i32 c k
    sub r t
  | n + 1, k, r, c => do
    let t ← div_i32 c k
    let r ← sub r t
    let c ← mul c x_sqr
    let t ← div_i32 c (k + 2)
    let r ← add r t
    let c ← mul c x_sqr
    atanLoop x_sqr n (k + 4) r c

/-- src/fp192/funcs/atrigo.rs 63-83, for an argument of at most 1.  `atan_near_one` (101-103) is `todo!`. -/
def atanUnit (r : F192) : M F192 :=
  if gt r ONE_OVER_SQRT_2 then throw .explicit
  else do
    let x_sqr ← mul r r
    let c ← mul x_sqr r
    atanLoop x_sqr 7 3 r c

/-- src/fp192/funcs/atrigo.rs 48-94 -/
def atan (x : F192) : M F192 := do
  let a := if is_neg x then neg x else x
  let r ← if gt a ONE then do
      let q ← div ONE a
      let t ← atanUnit q
      sub PI_OVER_2 t
    else atanUnit a
  pure (if is_neg x then neg r else r)

end F192
end Hmath
