import Verif.Model.UBigInt

/-!
# Model of `BigInt` (src/bigint.rs, src/bigint/**)
-/

namespace Hmath

/-- src/bigint.rs 9-13 `pub struct BigInt { val: UBigInt, _is_neg: bool }` -/
structure BigI where
  mag : UBig
  neg : Bool
  deriving DecidableEq, Repr

/-- `other.abs() as u32` for `other : i32`; `i32::MIN.abs()` overflows. -/
def i32AbsU32 (n : Int) : M Nat := if n = -2147483648 then throw .overflow else pure n.natAbs
/-- `n.abs() as u64` for `n : i64` -/
def i64AbsU64 (n : Int) : M Nat :=
  if n = -9223372036854775808 then throw .overflow else pure n.natAbs
/-- `n.abs() as u128` for `n : i128` -/
def i128AbsU128 (n : Int) : M Nat :=
  if n = -170141183460469231731687303715884105728 then throw .overflow else pure n.natAbs

namespace BigI

/-- src/bigint.rs 24-26 -/
def zero : BigI := ⟨UBig.zero, false⟩
/-- src/bigint.rs 29-31 -/
def one : BigI := ⟨UBig.one, false⟩
/-- src/bigint.rs 34-36 -/
def is_zero (a : BigI) : Bool := UBig.is_zero a.mag
/-- src/bigint.rs 39-41 -/
def is_one (a : BigI) : Bool := UBig.is_one a.mag && !a.neg
/-- src/bigint.rs 44-46 -/
def is_neg (a : BigI) : Bool := a.neg

/-! ### conversions (src/bigint/convert.rs) -/

/-- src/bigint/convert.rs 76-79 -/
def from_ubi (n : UBig) (is_neg : Bool) : BigI := ⟨n, is_neg && !UBig.is_zero n⟩

/-- src/bigint/convert.rs 81-89 (error text: Model/ErrText.lean) -/
def to_ubi (a : BigI) : Except ConvErr UBig := if a.neg then .error .notInRange else .ok a.mag

/-- src/bigint/convert.rs 10-17 -/
def from_i32 (n : Int) : M BigI := do
  let m ← i32AbsU32 n
  pure ⟨UBig.from_u32 m, decide (n < 0)⟩

/-- src/bigint/convert.rs 19-30 (error text: Model/ErrText.lean).  `n as i32` for
`n ≤ i32::MAX` and `(-(n as i64)) as i32` for `n ≤ 2^31` keep the value. -/
def to_i32 (a : BigI) : M (Except ConvErr Int) := do
  match ← UBig.to_u32 a.mag with
  | .ok n =>
    if !a.neg && n ≤ 2147483647 then pure (.ok n)
    else if a.neg && n ≤ 2147483648 then pure (.ok (-(n : Int)))
    else pure (.error .notInRange)
  | .error e => pure (.error e)

/-- src/bigint/convert.rs 32-39 -/
def from_i64 (n : Int) : M BigI := do
  let m ← i64AbsU64 n
  pure ⟨UBig.from_u64 m, decide (n < 0)⟩

/-- src/bigint/convert.rs 41-52 -/
def to_i64 (a : BigI) : M (Except ConvErr Int) := do
  match ← UBig.to_u64 a.mag with
  | .ok n =>
    if !a.neg && n ≤ 9223372036854775807 then pure (.ok n)
    else if a.neg && n ≤ 9223372036854775808 then pure (.ok (-(n : Int)))
    else pure (.error .notInRange)
  | .error e => pure (.error e)

/-- src/bigint/convert.rs 54-61 -/
def from_i128 (n : Int) : M BigI := do
  let m ← i128AbsU128 n
  pure ⟨UBig.from_u128 m, decide (n < 0)⟩

/-- src/bigint/convert.rs 63-74 -/
def to_i128 (a : BigI) : M (Except ConvErr Int) := do
  match ← UBig.to_u128 a.mag with
  | .ok n =>
    if !a.neg && n ≤ 170141183460469231731687303715884105727 then pure (.ok n)
    else if a.neg && n < 170141183460469231731687303715884105728 then pure (.ok (-(n : Int)))
    else pure (.error .notInRange)
  | .error e => pure (.error e)

/-! ### addition (src/bigint/arith/add.rs) -/

/-- `if self_less { other.val.sub(&self.val) } else { self.val.sub(&other.val) }`
(src/bigint/arith/add.rs 13-17, src/bigint/arith/sub.rs 13-17) -/
def absDiff (a b : BigI) (self_less : Bool) : M UBig :=
  if self_less then UBig.sub b.mag a.mag else UBig.sub a.mag b.mag

/-- src/bigint/arith/add.rs 6-34 -/
def add (a b : BigI) : M BigI :=
  if a.neg == b.neg then do
    let m ← UBig.add a.mag b.mag
    pure (from_ubi m a.neg)
  else do
    let self_less := UBig.lt a.mag b.mag
    let abs_diff ← absDiff a b self_less
    let is_diff_zero := UBig.is_zero abs_diff
    pure (from_ubi abs_diff ((self_less ^^ a.neg) && !is_diff_zero))

/-- The in-place variant of `absDiff` (src/bigint/arith/add.rs 43-47,
src/bigint/arith/sub.rs 44-50). -/
def absDiffMut (a b : BigI) (self_less : Bool) : M UBig :=
  if self_less then UBig.sub b.mag a.mag else UBig.sub_mut a.mag b.mag

/-- src/bigint/arith/add.rs 36-54 -/
def add_mut (a b : BigI) : M BigI :=
  if a.neg == b.neg then do
    let m ← UBig.add_mut a.mag b.mag
    pure ⟨m, a.neg⟩
  else do
    let self_less := UBig.lt a.mag b.mag
    let m ← absDiffMut a b self_less
    let is_diff_zero := UBig.is_zero m
    pure ⟨m, (self_less ^^ a.neg) && !is_diff_zero⟩

/-- src/bigint/arith/add.rs 65-69, src/bigint/arith/sub.rs 69-73 -/
def absDiffU32 (a : BigI) (other_abs : Nat) (self_less : Bool) : M UBig :=
  if self_less then do
    let x ← UBig.to_u32 a.mag
    let x ← unwrapR x
    let d ← uSub other_abs x
    pure (UBig.from_u32 d)
  else UBig.sub_u32 a.mag other_abs

/-- src/bigint/arith/add.rs 57-78 -/
def add_i32 (a : BigI) (o : Int) : M BigI :=
  if a.neg == decide (o < 0) then do
    let oa ← i32AbsU32 o
    let m ← UBig.add_u32 a.mag oa
    pure (from_ubi m a.neg)
  else do
    let oa ← i32AbsU32 o
    let self_less ← UBig.lt_u32 a.mag oa
    let abs_diff ← absDiffU32 a oa self_less
    let is_diff_zero := UBig.is_zero abs_diff
    pure (from_ubi abs_diff ((self_less ^^ a.neg) && !is_diff_zero))

/-- in-place variant of `absDiffU32` (src/bigint/arith/add.rs 88-92,
src/bigint/arith/sub.rs 93-99) -/
def absDiffU32Mut (a : BigI) (other_abs : Nat) (self_less : Bool) : M UBig :=
  if self_less then do
    let x ← UBig.to_u32 a.mag
    let x ← unwrapR x
    let d ← uSub other_abs x
    pure (UBig.from_u32 d)
  else UBig.sub_u32_mut a.mag other_abs

/-- src/bigint/arith/add.rs 80-98 -/
def add_i32_mut (a : BigI) (o : Int) : M BigI :=
  if a.neg == decide (o < 0) then do
    let oa ← i32AbsU32 o
    let m ← UBig.add_u32_mut a.mag oa
    pure ⟨m, a.neg⟩
  else do
    let oa ← i32AbsU32 o
    let self_less ← UBig.lt_u32 a.mag oa
    let m ← absDiffU32Mut a oa self_less
    let is_diff_zero := UBig.is_zero m
    pure ⟨m, (self_less ^^ a.neg) && !is_diff_zero⟩

/-! ### subtraction (src/bigint/arith/sub.rs) -/

/-- src/bigint/arith/sub.rs 6-34 -/
def sub (a b : BigI) : M BigI :=
  if a.neg != b.neg then do
    let m ← UBig.add a.mag b.mag
    pure (from_ubi m a.neg)
  else do
    let self_less := UBig.lt a.mag b.mag
    let abs_diff ← absDiff a b self_less
    let is_diff_zero := UBig.is_zero abs_diff
    pure (from_ubi abs_diff ((self_less ^^ a.neg) && !is_diff_zero))

/-- src/bigint/arith/sub.rs 36-58 -/
def sub_mut (a b : BigI) : M BigI :=
  if a.neg != b.neg then do
    let m ← UBig.add_mut a.mag b.mag
    pure ⟨m, a.neg⟩
  else do
    let self_less := UBig.lt a.mag b.mag
    let m ← absDiffMut a b self_less
    let is_diff_zero := UBig.is_zero m
    pure ⟨m, (self_less ^^ a.neg) && !is_diff_zero⟩

/-- src/bigint/arith/sub.rs 61-82 -/
def sub_i32 (a : BigI) (o : Int) : M BigI :=
  if a.neg != decide (o < 0) then do
    let oa ← i32AbsU32 o
    let m ← UBig.add_u32 a.mag oa
    pure (from_ubi m a.neg)
  else do
    let oa ← i32AbsU32 o
    let self_less ← UBig.lt_u32 a.mag oa
    let abs_diff ← absDiffU32 a oa self_less
    let is_diff_zero := UBig.is_zero abs_diff
    pure (from_ubi abs_diff ((self_less ^^ a.neg) && !is_diff_zero))

/-- src/bigint/arith/sub.rs 84-106 -/
def sub_i32_mut (a : BigI) (o : Int) : M BigI :=
  if a.neg != decide (o < 0) then do
    let oa ← i32AbsU32 o
    let m ← UBig.add_u32_mut a.mag oa
    pure ⟨m, a.neg⟩
  else do
    let oa ← i32AbsU32 o
    let self_less ← UBig.lt_u32 a.mag oa
    let m ← absDiffU32Mut a oa self_less
    let is_diff_zero := UBig.is_zero m
    pure ⟨m, (self_less ^^ a.neg) && !is_diff_zero⟩

/-! ### multiplication (src/bigint/arith/mul.rs) -/

/-- src/bigint/arith/mul.rs 6-15 -/
def mul (a b : BigI) : M BigI := do
  let m ← UBig.mul a.mag b.mag
  let is_neg := !UBig.is_zero m && a.neg != b.neg
  pure (from_ubi m is_neg)

/-- src/bigint/arith/mul.rs 17-21 -/
def mul_mut (a b : BigI) : M BigI := do
  let m ← UBig.mul_mut a.mag b.mag
  pure ⟨m, !UBig.is_zero m && a.neg != b.neg⟩

/-- src/bigint/arith/mul.rs 24-33 -/
def mul_i32 (a : BigI) (o : Int) : M BigI := do
  let oa ← i32AbsU32 o
  let m ← UBig.mul_u32 a.mag oa
  let is_neg := !UBig.is_zero m && a.neg != decide (o < 0)
  pure (from_ubi m is_neg)

/-- src/bigint/arith/mul.rs 35-39 -/
def mul_i32_mut (a : BigI) (o : Int) : M BigI := do
  let oa ← i32AbsU32 o
  let m ← UBig.mul_u32_mut a.mag oa
  pure ⟨m, !UBig.is_zero m && a.neg != decide (o < 0)⟩

/-- src/bigint/arith/mul.rs 43-45 -/
def mul_pow2 (a : BigI) (e : Nat) : M BigI := do
  let m ← UBig.mul_pow2 a.mag e
  pure (from_ubi m a.neg)

/-- src/bigint/arith/mul.rs 48-50 -/
def mul_pow2_mut (a : BigI) (e : Nat) : M BigI := do
  let m ← UBig.mul_pow2_mut a.mag e
  pure ⟨m, a.neg⟩

/-! ### division and remainder (src/bigint/arith/div.rs, rem.rs) -/

/-- src/bigint/arith/div.rs 6-15 -/
def div (a b : BigI) : M BigI := do
  let m ← UBig.div a.mag b.mag
  let is_neg := !UBig.is_zero m && a.neg != b.neg
  pure (from_ubi m is_neg)

/-- src/bigint/arith/div.rs 17-21 -/
def div_mut (a b : BigI) : M BigI := do
  let m ← UBig.div_mut a.mag b.mag
  pure ⟨m, !UBig.is_zero m && a.neg != b.neg⟩

/-- src/bigint/arith/div.rs 24-33 -/
def div_i32 (a : BigI) (o : Int) : M BigI := do
  let oa ← i32AbsU32 o
  let m ← UBig.div_u32 a.mag oa
  let is_neg := !UBig.is_zero m && a.neg != decide (o < 0)
  pure (from_ubi m is_neg)

/-- src/bigint/arith/div.rs 35-39 -/
def div_i32_mut (a : BigI) (o : Int) : M BigI := do
  let oa ← i32AbsU32 o
  let m ← UBig.div_u32_mut a.mag oa
  pure ⟨m, !UBig.is_zero m && a.neg != decide (o < 0)⟩

/-- src/bigint/arith/rem.rs 7-16 -/
def rem (a b : BigI) : M BigI := do
  let sdo ← div a b
  let sdo ← mul_mut sdo b
  sub a sdo

/-- src/bigint/arith/rem.rs 18-23 -/
def rem_mut (a b : BigI) : M BigI := do
  let sdo ← div a b
  let sdo ← mul_mut sdo b
  sub_mut a sdo

/-- src/bigint/arith/rem.rs 28-37 -/
def rem_i32 (a : BigI) (o : Int) : M BigI := do
  let oa ← i32AbsU32 o
  let m ← UBig.rem_u32 a.mag oa
  let is_neg := a.neg && !UBig.is_zero m
  pure (from_ubi m is_neg)

/-- src/bigint/arith/rem.rs 39-43 -/
def rem_i32_mut (a : BigI) (o : Int) : M BigI := do
  let oa ← i32AbsU32 o
  let m ← UBig.rem_u32_mut a.mag oa
  pure ⟨m, a.neg && !UBig.is_zero m⟩

/-- src/bigint/arith/rem.rs 47-52 -/
def rem_pow2 (a : BigI) (o : Int) : M BigI := do
  let oa ← i32AbsU32 o
  let m ← UBig.rem_pow2 a.mag oa
  let is_neg := a.neg && !UBig.is_zero m
  pure (from_ubi m is_neg)

/-! ### powers (src/bigint/arith/pow.rs, src/bigint/funcs.rs 10-12) -/

/-- src/bigint/arith/pow.rs 7-9 -/
def pow_u32 (a : BigI) (e : Nat) : M BigI := do
  let m ← UBig.pow_u32 a.mag e
  pure (from_ubi m (a.neg && e % 2 == 1))

/-- src/bigint/arith/pow.rs 11-14 -/
def pow_u32_mut (a : BigI) (e : Nat) : M BigI := do
  let m ← UBig.pow_u32_mut a.mag e
  pure ⟨m, a.neg && e % 2 == 1⟩

/-- src/bigint/arith/pow.rs 18-20 -/
def pow2 (e : Nat) : M BigI := do
  let m ← UBig.pow2 e
  pure (from_ubi m false)

/-- src/bigint/funcs.rs 10-12 -/
def exp2 (e : Nat) : M BigI := do
  let m ← UBig.exp2 e
  pure (from_ubi m false)

/-! ### other functions (src/bigint/funcs.rs) -/

/-- src/bigint/funcs.rs 17-19 -/
def log2 (a : BigI) : M BigI := do
  let m ← UBig.log2 a.mag
  pure (from_ubi m false)

/-- src/bigint/funcs.rs 34-40 -/
def negate (a : BigI) : BigI := from_ubi a.mag (!a.neg && !UBig.is_zero a.mag)
/-- src/bigint/funcs.rs 42-44 -/
def negate_mut (a : BigI) : BigI := ⟨a.mag, !a.neg && !UBig.is_zero a.mag⟩
/-- src/bigint/funcs.rs 47-49 -/
def abs (a : BigI) : BigI := from_ubi a.mag false
/-- src/bigint/funcs.rs 51-53 -/
def abs_mut (a : BigI) : BigI := ⟨a.mag, false⟩

/-- src/bigint/funcs.rs 77-82 -/
def shift_right (a : BigI) (n : Nat) : BigI :=
  let m := UBig.shift_right a.mag n
  from_ubi m (!UBig.is_zero m && a.neg)
/-- src/bigint/funcs.rs 85-88 -/
def shift_right_mut (a : BigI) (n : Nat) : BigI :=
  let m := UBig.shift_right_mut a.mag n
  ⟨m, !UBig.is_zero m && a.neg⟩
/-- src/bigint/funcs.rs 92-94 -/
def shift_left (a : BigI) (n : Nat) : BigI := from_ubi (UBig.shift_left a.mag n) a.neg
/-- src/bigint/funcs.rs 97-99 -/
def shift_left_mut (a : BigI) (n : Nat) : BigI := ⟨UBig.shift_left_mut a.mag n, a.neg⟩
/-- src/bigint/funcs.rs 104-109 -/
def slice_right (a : BigI) (n : Nat) : M BigI := do
  let m ← UBig.slice_right a.mag n
  pure (from_ubi m (!UBig.is_zero m && a.neg))
/-- src/bigint/funcs.rs 113-116 -/
def slice_right_mut (a : BigI) (n : Nat) : M BigI := do
  let m ← UBig.slice_right_mut a.mag n
  pure ⟨m, !UBig.is_zero m && a.neg⟩

/-- src/bigint/funcs.rs 132-134 -/
def gcd_bi (a b : BigI) : M BigI := do
  let m ← UBig.gcd_ubi a.mag b.mag
  pure (from_ubi m false)

/-! ### comparison (src/bigint/comp.rs) -/

/-- the `match` of `lt` / `lt_i32` (src/bigint/comp.rs 13-27, 105-119) -/
def ltMatch (neg : Bool) : Ordering → Bool
  | .eq => false
  | .lt => if neg then false else true
  | .gt => if neg then true else false
/-- the `match` of `gt` / `gt_i32` (src/bigint/comp.rs 38-52, 130-144) -/
def gtMatch (neg : Bool) : Ordering → Bool
  | .eq => false
  | .lt => if neg then true else false
  | .gt => if neg then false else true
/-- the `match` of `comp` / `comp_i32` (src/bigint/comp.rs 88-94, 184-190) -/
def compMatch (neg : Bool) : Ordering → Ordering
  | .eq => .eq
  | .lt => if neg then .gt else .lt
  | .gt => if neg then .lt else .gt

/-- src/bigint/comp.rs 7-29 -/
def lt (a b : BigI) : Bool :=
  if a.neg != b.neg then a.neg else ltMatch a.neg (UBig.comp a.mag b.mag)
/-- src/bigint/comp.rs 32-54 -/
def gt (a b : BigI) : Bool :=
  if a.neg != b.neg then b.neg else gtMatch a.neg (UBig.comp a.mag b.mag)
/-- src/bigint/comp.rs 58-60 (derived equality of both fields) -/
def eq (a b : BigI) : Bool := a.mag == b.mag && a.neg == b.neg
/-- src/bigint/comp.rs 62-64 -/
def neq (a b : BigI) : Bool := !(a.mag == b.mag && a.neg == b.neg)
/-- src/bigint/comp.rs 67-69 -/
def leq (a b : BigI) : Bool := !gt a b
/-- src/bigint/comp.rs 72-74 -/
def geq (a b : BigI) : Bool := !lt a b
/-- src/bigint/comp.rs 76-96 (also `Ord::cmp`, 195-205) -/
def comp (a b : BigI) : Ordering :=
  if a.neg != b.neg then (if a.neg then .lt else .gt)
  else compMatch a.neg (UBig.comp a.mag b.mag)
/-- src/bigint/comp.rs 99-121 -/
def lt_i32 (a : BigI) (o : Int) : M Bool :=
  if a.neg != decide (o < 0) then pure a.neg
  else do
    let oa ← i32AbsU32 o
    let c ← UBig.comp_u32 a.mag oa
    pure (ltMatch a.neg c)
/-- src/bigint/comp.rs 124-146 -/
def gt_i32 (a : BigI) (o : Int) : M Bool :=
  if a.neg != decide (o < 0) then pure (decide (o < 0))
  else do
    let oa ← i32AbsU32 o
    let c ← UBig.comp_u32 a.mag oa
    pure (gtMatch a.neg c)
/-- src/bigint/comp.rs 148-156 -/
def eq_i32 (a : BigI) (o : Int) : M Bool :=
  if a.neg != decide (o < 0) then pure false
  else do
    let x ← UBig.to_u32 a.mag
    let x ← unwrapR x
    let oa ← i32AbsU32 o
    pure (x == oa)
/-- src/bigint/comp.rs 158-160 -/
def neq_i32 (a : BigI) (o : Int) : M Bool := do let r ← eq_i32 a o; pure (!r)
/-- src/bigint/comp.rs 163-165 -/
def leq_i32 (a : BigI) (o : Int) : M Bool := do let r ← gt_i32 a o; pure (!r)
/-- src/bigint/comp.rs 168-170 -/
def geq_i32 (a : BigI) (o : Int) : M Bool := do let r ← lt_i32 a o; pure (!r)
/-- src/bigint/comp.rs 172-192 -/
def comp_i32 (a : BigI) (o : Int) : M Ordering :=
  if a.neg != decide (o < 0) then pure (if a.neg then .lt else .gt)
  else do
    let oa ← i32AbsU32 o
    let c ← UBig.comp_u32 a.mag oa
    pure (compMatch a.neg c)

end BigI
end Hmath
