import Verif.Model.BigInt

/-!
# Model of `Ratio` (src/ratio.rs, src/ratio/arith, comp.rs, funcs.rs, convert.rs 14-74)
-/

namespace Hmath

/-- src/ratio.rs 16-20 `pub struct Ratio { denom: BigInt, numer: BigInt }` -/
structure Ratio where
  denom : BigI
  numer : BigI
  deriving DecidableEq, Repr

namespace Ratio

/-- src/ratio.rs 48-53 -/
def zero : Ratio := ⟨BigI.one, BigI.zero⟩
/-- src/ratio.rs 55-60 -/
def one : Ratio := ⟨BigI.one, BigI.one⟩
/-- src/ratio.rs 62-64 -/
def is_neg (a : Ratio) : Bool := BigI.is_neg a.numer
/-- src/ratio.rs 66-68 -/
def is_one (a : Ratio) : Bool := BigI.is_one a.denom && BigI.is_one a.numer
/-- src/ratio.rs 70-72 -/
def is_zero (a : Ratio) : Bool := BigI.is_one a.denom && BigI.is_zero a.numer
/-- src/ratio.rs 74-76 -/
def is_integer (a : Ratio) : Bool := BigI.is_one a.denom

/-- The sign step of `fit` (src/ratio.rs 85-88), also src/ratio/arith/div.rs 49-52 and
src/ratio/funcs.rs 72-75. -/
def fixSign (a : Ratio) : Ratio :=
  if BigI.is_neg a.denom then ⟨BigI.negate_mut a.denom, BigI.negate_mut a.numer⟩ else a

/-- The second half of `fit` (src/ratio.rs 90-95) -/
def reduce (a : Ratio) : M Ratio := do
  let r ← BigI.gcd_bi a.denom a.numer
  if BigI.is_one r then pure a
  else do
    let d ← BigI.div_mut a.denom r
    let n ← BigI.div_mut a.numer r
    pure ⟨d, n⟩

/-- src/ratio.rs 84-98 -/
def fit (a : Ratio) : M Ratio := reduce (fixSign a)

/-! ### constructors (src/ratio/convert.rs) -/

/-- src/ratio/convert.rs 43-45 -/
def from_denom_and_numer_raw (denom numer : BigI) : Ratio := ⟨denom, numer⟩
/-- src/ratio/convert.rs 14-19 -/
def from_denom_and_numer (denom numer : BigI) : M Ratio :=
  fit (from_denom_and_numer_raw denom numer)
/-- src/ratio/convert.rs 47-52 -/
def from_bi (n : BigI) : Ratio := from_denom_and_numer_raw BigI.one n
/-- src/ratio/convert.rs 54-59 -/
def from_ubi (n : UBig) : Ratio := from_denom_and_numer_raw BigI.one (BigI.from_ubi n false)
/-- src/ratio/convert.rs 61-64 -/
def from_i32 (n : Int) : M Ratio := do
  let b ← BigI.from_i32 n
  pure (from_denom_and_numer_raw BigI.one b)
/-- src/ratio/convert.rs 66-69 -/
def from_i64 (n : Int) : M Ratio := do
  let b ← BigI.from_i64 n
  pure (from_denom_and_numer_raw BigI.one b)
/-- src/ratio/convert.rs 71-74 -/
def from_i128 (n : Int) : M Ratio := do
  let b ← BigI.from_i128 n
  pure (from_denom_and_numer_raw BigI.one b)

/-- the loop of `gcd_i32` (src/utils.rs 39-45); operands are nonnegative `i32`s -/
def gcdI32Loop (a b : Nat) : Nat :=
  if h : a = 0 then b else gcdI32Loop (b % a) a
termination_by a
decreasing_by exact Nat.mod_lt _ (Nat.pos_of_ne_zero h)

/-- src/utils.rs 35-46 -/
def gcd_i32 (a b : Int) : M Int := do
  let a ← i32AbsU32 a
  let b ← i32AbsU32 b
  pure (gcdI32Loop a b)

/-- `denom /= r; numer /= r` unless `r = 1` (src/ratio/convert.rs 25-28); `i32` division
truncates and panics on a zero divisor (`r ≥ 0`, so `MIN / -1` does not occur). -/
def divI32Pair (denom numer r : Int) : M (Int × Int) :=
  if r ≠ 1 then (if r = 0 then throw .divZero else pure (denom.tdiv r, numer.tdiv r))
  else pure (denom, numer)

/-- `denom *= -1; numer *= -1` (src/ratio/convert.rs 30-33), checked -/
def negI32Pair (denom numer : Int) : M (Int × Int) :=
  if denom < 0 then
    if denom = -2147483648 ∨ numer = -2147483648 then throw .overflow else pure (-denom, -numer)
  else pure (denom, numer)

/-- src/ratio/convert.rs 22-36 -/
def from_denom_and_numer_i32 (denom numer : Int) : M Ratio := do
  let r ← gcd_i32 denom numer
  let p ← divI32Pair denom numer r
  let p ← negI32Pair p.1 p.2
  let d ← BigI.from_i32 p.1
  let n ← BigI.from_i32 p.2
  pure (from_denom_and_numer_raw d n)

/-! ### addition (src/ratio/arith/add.rs) -/

/-- src/ratio/arith/add.rs 6-15 -/
def add (a b : Ratio) : M Ratio := do
  let d ← BigI.mul a.denom b.denom
  let x ← BigI.mul a.denom b.numer
  let y ← BigI.mul b.denom a.numer
  let n ← BigI.add x y
  from_denom_and_numer d n

/-- src/ratio/arith/add.rs 17-22 -/
def add_mut (a b : Ratio) : M Ratio := do
  let x ← BigI.mul a.denom b.numer
  let y ← BigI.mul b.denom a.numer
  let n ← BigI.add x y
  let d ← BigI.mul_mut a.denom b.denom
  fit ⟨d, n⟩

/-- src/ratio/arith/add.rs 25-36 -/
def add_bi (a : Ratio) (b : BigI) : M Ratio := do
  let x ← BigI.mul a.denom b
  let n ← BigI.add a.numer x
  pure (from_denom_and_numer_raw a.denom n)

/-- src/ratio/arith/add.rs 38-41 -/
def add_bi_mut (a : Ratio) (b : BigI) : M Ratio := do
  let x ← BigI.mul a.denom b
  let n ← BigI.add_mut a.numer x
  pure ⟨a.denom, n⟩

/-- src/ratio/arith/add.rs 44-55 -/
def add_i32 (a : Ratio) (o : Int) : M Ratio := do
  let x ← BigI.mul_i32 a.denom o
  let n ← BigI.add a.numer x
  pure (from_denom_and_numer_raw a.denom n)

/-- src/ratio/arith/add.rs 57-60 -/
def add_i32_mut (a : Ratio) (o : Int) : M Ratio := do
  let x ← BigI.mul_i32 a.denom o
  let n ← BigI.add_mut a.numer x
  pure ⟨a.denom, n⟩

/-! ### subtraction (src/ratio/arith/sub.rs) -/

/-- src/ratio/arith/sub.rs 6-15 -/
def sub (a b : Ratio) : M Ratio := do
  let d ← BigI.mul a.denom b.denom
  let x ← BigI.mul a.numer b.denom
  let y ← BigI.mul b.numer a.denom
  let n ← BigI.sub x y
  from_denom_and_numer d n

/-- src/ratio/arith/sub.rs 17-22 -/
def sub_mut (a b : Ratio) : M Ratio := do
  let x ← BigI.mul a.numer b.denom
  let y ← BigI.mul b.numer a.denom
  let n ← BigI.sub x y
  let d ← BigI.mul_mut a.denom b.denom
  fit ⟨d, n⟩

/-- src/ratio/arith/sub.rs 25-36 -/
def sub_bi (a : Ratio) (b : BigI) : M Ratio := do
  let x ← BigI.mul a.denom b
  let n ← BigI.sub a.numer x
  pure (from_denom_and_numer_raw a.denom n)

/-- src/ratio/arith/sub.rs 38-41 -/
def sub_bi_mut (a : Ratio) (b : BigI) : M Ratio := do
  let x ← BigI.mul a.denom b
  let n ← BigI.sub_mut a.numer x
  pure ⟨a.denom, n⟩

/-- src/ratio/arith/sub.rs 44-55 -/
def sub_i32 (a : Ratio) (o : Int) : M Ratio := do
  let x ← BigI.mul_i32 a.denom o
  let n ← BigI.sub a.numer x
  pure (from_denom_and_numer_raw a.denom n)

/-- src/ratio/arith/sub.rs 57-60 -/
def sub_i32_mut (a : Ratio) (o : Int) : M Ratio := do
  let x ← BigI.mul_i32 a.denom o
  let n ← BigI.sub_mut a.numer x
  pure ⟨a.denom, n⟩

/-! ### multiplication (src/ratio/arith/mul.rs) -/

/-- src/ratio/arith/mul.rs 6-15 -/
def mul (a b : Ratio) : M Ratio := do
  let d ← BigI.mul a.denom b.denom
  let n ← BigI.mul a.numer b.numer
  from_denom_and_numer d n

/-- src/ratio/arith/mul.rs 17-23 -/
def mul_mut (a b : Ratio) : M Ratio := do
  let d ← BigI.mul_mut a.denom b.denom
  let n ← BigI.mul_mut a.numer b.numer
  fit ⟨d, n⟩

/-- src/ratio/arith/mul.rs 33-46 -/
def mul_bi_mut (a : Ratio) (b : BigI) : M Ratio := do
  let r ← BigI.gcd_bi a.denom b
  if BigI.is_one r then do
    let n ← BigI.mul_mut a.numer b
    pure ⟨a.denom, n⟩
  else do
    let q ← BigI.div b r
    let n ← BigI.mul_mut a.numer q
    let d ← BigI.div_mut a.denom r
    pure ⟨d, n⟩

/-- src/ratio/arith/mul.rs 26-31 -/
def mul_bi (a : Ratio) (b : BigI) : M Ratio := mul_bi_mut a b

/-- src/ratio/arith/mul.rs 49-58 -/
def mul_i32 (a : Ratio) (o : Int) : M Ratio := do
  let n ← BigI.mul_i32 a.numer o
  from_denom_and_numer a.denom n

/-- src/ratio/arith/mul.rs 60-65 -/
def mul_i32_mut (a : Ratio) (o : Int) : M Ratio := do
  let n ← BigI.mul_i32_mut a.numer o
  fit ⟨a.denom, n⟩

/-! ### division (src/ratio/arith/div.rs) -/

/-- src/ratio/arith/div.rs 6-15 -/
def div (a b : Ratio) : M Ratio := do
  let d ← BigI.mul a.denom b.numer
  let n ← BigI.mul a.numer b.denom
  from_denom_and_numer d n

/-- src/ratio/arith/div.rs 17-23 -/
def div_mut (a b : Ratio) : M Ratio := do
  let d ← BigI.mul_mut a.denom b.numer
  let n ← BigI.mul_mut a.numer b.denom
  fit ⟨d, n⟩

/-- src/ratio/arith/div.rs 38-47 -/
def divBiCore (a : Ratio) (b : BigI) : M Ratio := do
  let r ← BigI.gcd_bi a.numer b
  if BigI.is_one r then do
    let d ← BigI.mul_mut a.denom b
    pure ⟨d, a.numer⟩
  else do
    let q ← BigI.div b r
    let d ← BigI.mul_mut a.denom q
    let n ← BigI.div_mut a.numer r
    pure ⟨d, n⟩

/-- src/ratio/arith/div.rs 33-55 -/
def div_bi_mut (a : Ratio) (b : BigI) : M Ratio :=
  if BigI.is_zero b then throw .explicit
  else do
    let x ← divBiCore a b
    pure (fixSign x)

/-- src/ratio/arith/div.rs 26-31 -/
def div_bi (a : Ratio) (b : BigI) : M Ratio := div_bi_mut a b

/-- src/ratio/arith/div.rs 58-67 -/
def div_i32 (a : Ratio) (o : Int) : M Ratio := do
  let d ← BigI.mul_i32 a.denom o
  from_denom_and_numer d a.numer

/-- src/ratio/arith/div.rs 69-74 -/
def div_i32_mut (a : Ratio) (o : Int) : M Ratio := do
  let d ← BigI.mul_i32_mut a.denom o
  fit ⟨d, a.numer⟩

/-! ### unary functions (src/ratio/funcs.rs) -/

/-- src/ratio/funcs.rs 40-43 -/
def negate (a : Ratio) : Ratio := from_denom_and_numer_raw a.denom (BigI.negate a.numer)
/-- src/ratio/funcs.rs 45-47 -/
def negate_mut (a : Ratio) : Ratio := ⟨a.denom, BigI.negate_mut a.numer⟩
/-- src/ratio/funcs.rs 50-53 -/
def abs (a : Ratio) : Ratio := from_denom_and_numer_raw a.denom (BigI.abs a.numer)
/-- src/ratio/funcs.rs 55-57 -/
def abs_mut (a : Ratio) : Ratio := ⟨a.denom, BigI.abs_mut a.numer⟩

/-- src/ratio/funcs.rs 61-80 -/
def reci (a : Ratio) : M Ratio :=
  let result := from_denom_and_numer_raw a.numer a.denom
  if BigI.is_zero result.denom then throw .explicit else pure (fixSign result)

/-- src/ratio/funcs.rs 83-85 -/
def reci_mut (a : Ratio) : M Ratio := reci a

/-- src/ratio/funcs.rs 100-106 -/
def truncate_bi (a : Ratio) : M BigI := BigI.div a.numer a.denom
/-- src/ratio/funcs.rs 88-90 -/
def truncate (a : Ratio) : M Ratio := do let n ← truncate_bi a; pure (from_bi n)
/-- src/ratio/funcs.rs 92-97 -/
def truncate_mut (a : Ratio) : M Ratio := do
  let n ← BigI.div_mut a.numer a.denom
  pure ⟨BigI.one, n⟩
/-- src/ratio/funcs.rs 110-125 -/
def frac (a : Ratio) : M Ratio := do
  let n ← BigI.rem a.numer a.denom
  pure (from_denom_and_numer_raw a.denom n)
/-- src/ratio/funcs.rs 128-130 -/
def frac_mut (a : Ratio) : M Ratio := do
  let n ← BigI.rem_mut a.numer a.denom
  pure ⟨a.denom, n⟩
/-- src/ratio/funcs.rs 133-142 -/
def truncate_and_frac (a : Ratio) : M (BigI × Ratio) := do
  let trun ← truncate_bi a
  let x ← BigI.mul a.denom trun
  let n ← BigI.sub a.numer x
  pure (trun, from_denom_and_numer_raw a.denom n)
/-- src/ratio/funcs.rs 150-164 -/
def floor_bi (a : Ratio) : M BigI :=
  if is_neg a then
    if is_integer a then pure a.numer
    else do let t ← truncate_bi a; BigI.sub_i32 t 1
  else truncate_bi a
/-- src/ratio/funcs.rs 145-147 -/
def floor (a : Ratio) : M Ratio := do let n ← floor_bi a; pure (from_bi n)
/-- src/ratio/funcs.rs 173-191 -/
def round_bi (a : Ratio) : M BigI := do
  let p ← truncate_and_frac a
  let d ← BigI.mul_i32 p.2.numer 2
  match BigI.comp (BigI.abs d) p.2.denom with
  | .lt => pure p.1
  | _ => if is_neg a then BigI.sub_i32 p.1 1 else BigI.add_i32 p.1 1
/-- src/ratio/funcs.rs 169-171 -/
def round (a : Ratio) : M Ratio := do let n ← round_bi a; pure (from_bi n)

/-- src/ratio/funcs.rs 21-35 -/
def common_denom (a b : Ratio) : M (BigI × BigI × BigI) := do
  let gcd ← BigI.gcd_bi a.denom b.denom
  let ag ← BigI.div a.denom gcd
  let bg ← BigI.div b.denom gcd
  let v1 ← BigI.mul a.numer bg
  let v2 ← BigI.mul b.numer ag
  let v3 ← BigI.mul a.denom bg
  pure (v1, v2, v3)

/-! ### powers (src/ratio/arith/pow.rs) -/

/-- src/ratio/arith/pow.rs 6-21 -/
def pow_i32 (a : Ratio) (e : Int) : M Ratio := do
  let ea ← i32AbsU32 e
  let d ← BigI.pow_u32 a.denom ea
  let n ← BigI.pow_u32 a.numer ea
  let result := from_denom_and_numer_raw d n
  if e < 0 then reci_mut result else pure result

/-- src/ratio/arith/pow.rs 23-32 -/
def pow_i32_mut (a : Ratio) (e : Int) : M Ratio := do
  let ea ← i32AbsU32 e
  let d ← BigI.pow_u32_mut a.denom ea
  let n ← BigI.pow_u32_mut a.numer ea
  if e < 0 then reci_mut ⟨d, n⟩ else pure ⟨d, n⟩

/-! ### comparison (src/ratio/comp.rs) -/

/-- src/ratio/comp.rs 7-10 -/
def lt (a b : Ratio) : M Bool := do let d ← sub a b; pure (is_neg d)
/-- src/ratio/comp.rs 13-16 -/
def gt (a b : Ratio) : M Bool := do let d ← sub b a; pure (is_neg d)
/-- src/ratio/comp.rs 19-21 (derived `PartialEq`) -/
def eq (a b : Ratio) : Bool := BigI.eq a.denom b.denom && BigI.eq a.numer b.numer
/-- src/ratio/comp.rs 24-26 -/
def neq (a b : Ratio) : Bool := !(BigI.eq a.denom b.denom && BigI.eq a.numer b.numer)
/-- src/ratio/comp.rs 29-31 -/
def leq (a b : Ratio) : M Bool := do let r ← gt a b; pure (!r)
/-- src/ratio/comp.rs 34-36 -/
def geq (a b : Ratio) : M Bool := do let r ← lt a b; pure (!r)
/-- src/ratio/comp.rs 38-40; also `Ord::cmp`, `PartialOrd::partial_cmp` (87-97) -/
def comp (a b : Ratio) : M Ordering := do
  let x ← BigI.mul a.numer b.denom
  let y ← BigI.mul b.numer a.denom
  pure (BigI.comp x y)
/-- src/ratio/comp.rs 43-45 -/
def lt_one (a : Ratio) : Bool := is_neg a || BigI.lt a.numer a.denom
/-- src/ratio/comp.rs 48-50 -/
def gt_one (a : Ratio) : Bool := !is_neg a && BigI.gt a.numer a.denom
/-- src/ratio/comp.rs 53-55 -/
def lt_i32 (a : Ratio) (o : Int) : M Bool := do
  let x ← BigI.mul_i32 a.denom o
  pure (BigI.lt a.numer x)
/-- src/ratio/comp.rs 58-60 -/
def gt_i32 (a : Ratio) (o : Int) : M Bool := do
  let x ← BigI.mul_i32 a.denom o
  pure (BigI.gt a.numer x)
/-- src/ratio/comp.rs 63-65 -/
def eq_i32 (a : Ratio) (o : Int) : M Bool :=
  if BigI.is_one a.denom then BigI.eq_i32 a.numer o else pure false
/-- src/ratio/comp.rs 68-70 -/
def neq_i32 (a : Ratio) (o : Int) : M Bool := do let r ← eq_i32 a o; pure (!r)
/-- src/ratio/comp.rs 73-75 -/
def leq_i32 (a : Ratio) (o : Int) : M Bool := do let r ← gt_i32 a o; pure (!r)
/-- src/ratio/comp.rs 78-80 -/
def geq_i32 (a : Ratio) (o : Int) : M Bool := do let r ← lt_i32 a o; pure (!r)
/-- src/ratio/comp.rs 82-84 -/
def comp_i32 (a : Ratio) (o : Int) : M Ordering := do
  let x ← BigI.mul_i32 a.denom o
  pure (BigI.comp a.numer x)

/-! ### shrink (src/ratio.rs 105-165) -/

/-- The branch of `shrink` for a long denominator (src/ratio.rs 126-146).  `Ok n` / `Err n`
are `Except.ok n` / `Except.error n`; `shrink - 1` cannot underflow (length ≥ 1). -/
def shrinkDenom (a : Ratio) (limit : Nat) : M (Ratio × Except Nat Nat) := do
  let s ← uSub a.numer.mag.length 1
  let d ← BigI.div_mut a.denom a.numer
  let r : Ratio := if BigI.is_neg d then ⟨BigI.abs_mut d, BigI.negate BigI.one⟩ else ⟨d, BigI.one⟩
  if r.denom.mag.length > limit then pure (r, .error s) else pure (r, .ok s)

/-- The branch of `shrink` for a long numerator (src/ratio.rs 148-160) -/
def shrinkNumer (a : Ratio) (limit : Nat) : M (Ratio × Except Nat Nat) := do
  let s ← uSub a.denom.mag.length 1
  let n ← BigI.div_mut a.numer a.denom
  if n.mag.length > limit then pure (⟨BigI.one, n⟩, .error s) else pure (⟨BigI.one, n⟩, .ok s)

/-- `shrink` of src/ratio.rs 110-112: the number of limbs to drop -/
def shrinkAmount (a : Ratio) (limit : Nat) : Nat :=
  max (max a.numer.mag.length limit - limit) (max a.denom.mag.length limit - limit)

/-- src/ratio.rs 105-165 -/
def shrink (a : Ratio) (limit : Nat) : M (Ratio × Except Nat Nat) :=
  if limit < 3 then pure (a, .error 0)
  else
    let s := shrinkAmount a limit
    if s = 0 then pure (a, .ok 0)
    else if s + 2 < min a.numer.mag.length a.denom.mag.length then do
      let r ← fit ⟨BigI.shift_right_mut a.denom s, BigI.shift_right_mut a.numer s⟩
      pure (r, .ok s)
    else if a.numer.mag.length + 4 < a.denom.mag.length then shrinkDenom a limit
    else if a.denom.mag.length + 4 < a.numer.mag.length then shrinkNumer a limit
    else pure (a, .error 0)

end Ratio
end Hmath
