import Verif.Model.Utils

/-!
# Model of `UBigInt` (src/ubigint.rs, src/ubigint/**)

A `UBigInt` is the vector of its limbs, least significant first.
`&mut self` methods return the new `self`.
-/

namespace Hmath

/-- src/ubigint.rs 9-10 `pub struct UBigInt(pub(crate) Vec<u32>)` -/
abbrev UBig := List Nat

namespace UBig

/-- src/ubigint.rs 20-22 -/
def zero : UBig := [0]
/-- src/ubigint.rs 25-27 -/
def one : UBig := [1]
/-- src/ubigint.rs 30-32 `self.len() == 1 && self.0[0] == 0` -/
def is_zero (a : UBig) : Bool := a == [0]
/-- src/ubigint.rs 35-37 `self.len() == 1 && self.0[0] == 1` -/
def is_one (a : UBig) : Bool := a == [1]

/-! ### comparison (src/ubigint/comp.rs) -/

/-- The loop of `comp` (src/ubigint/comp.rs 92-101), over the limbs from the top:
both lists are reversed limb vectors of equal length. -/
def compLoop : List Nat → List Nat → Ordering
  | x :: xs, y :: ys => if x > y then .gt else if x < y then .lt else compLoop xs ys
  | _, _ => .eq

/-- src/ubigint/comp.rs 80-105 -/
def comp (a b : UBig) : Ordering :=
  if a.length > b.length then .gt
  else if a.length < b.length then .lt
  else compLoop a.reverse b.reverse

/-- The loop of `lt` (src/ubigint/comp.rs 19-27), from the top limb. -/
def ltLoop : List Nat → List Nat → Bool
  | x :: xs, y :: ys => if x < y then true else if x > y then false else ltLoop xs ys
  | _, _ => false

/-- src/ubigint/comp.rs 7-31 -/
def lt (a b : UBig) : Bool :=
  if a.length > b.length then false
  else if a.length < b.length then true
  else ltLoop a.reverse b.reverse

/-- The loop of `gt` (src/ubigint/comp.rs 46-54), from the top limb. -/
def gtLoop : List Nat → List Nat → Bool
  | x :: xs, y :: ys => if x < y then false else if x > y then true else gtLoop xs ys
  | _, _ => false

/-- src/ubigint/comp.rs 34-58 -/
def gt (a b : UBig) : Bool :=
  if a.length > b.length then true
  else if a.length < b.length then false
  else gtLoop a.reverse b.reverse

/-- src/ubigint/comp.rs 62-64 (derived `PartialEq` of the limb vectors) -/
def eq (a b : UBig) : Bool := a == b
/-- src/ubigint/comp.rs 66-68 -/
def neq (a b : UBig) : Bool := a != b
/-- src/ubigint/comp.rs 71-73 -/
def leq (a b : UBig) : Bool := !gt a b
/-- src/ubigint/comp.rs 76-78 -/
def geq (a b : UBig) : Bool := !lt a b

/-- src/ubigint/comp.rs 108-116 -/
def lt_u32 (a : UBig) (o : Nat) : M Bool :=
  if a.length > 1 then pure false else do let x ← idx a 0; pure (decide (x < o))
/-- src/ubigint/comp.rs 119-127 -/
def gt_u32 (a : UBig) (o : Nat) : M Bool :=
  if a.length > 1 then pure true else do let x ← idx a 0; pure (decide (x > o))
/-- src/ubigint/comp.rs 129-137 -/
def eq_u32 (a : UBig) (o : Nat) : M Bool :=
  if a.length > 1 then pure false else do let x ← idx a 0; pure (x == o)
/-- src/ubigint/comp.rs 139-141 -/
def neq_u32 (a : UBig) (o : Nat) : M Bool := do let r ← eq_u32 a o; pure (!r)
/-- src/ubigint/comp.rs 144-146 -/
def leq_u32 (a : UBig) (o : Nat) : M Bool := do let r ← gt_u32 a o; pure (!r)
/-- src/ubigint/comp.rs 149-151 -/
def geq_u32 (a : UBig) (o : Nat) : M Bool := do let r ← lt_u32 a o; pure (!r)
/-- src/ubigint/comp.rs 153-161 -/
def comp_u32 (a : UBig) (o : Nat) : M Ordering :=
  if a.length > 1 then pure .gt else do let x ← idx a 0; pure (compare x o)

/-! ### fixed width conversions (src/ubigint/convert.rs 11-77) -/

/-- src/ubigint/convert.rs 12-14 -/
def from_u32 (n : Nat) : UBig := [n]

/-- src/ubigint/convert.rs 16-24 (the text inside the error: Model/ErrText.lean) -/
def to_u32 (a : UBig) : M (Except ConvErr Nat) :=
  if a.length > 1 then pure (.error .notInRange) else do let x ← idx a 0; pure (.ok x)

/-- src/ubigint/convert.rs 27-35 -/
def from_u64 (n : Nat) : UBig :=
  if n ≥ B32 then [n % B32 % B32, n / B32 % B32] else [n % B32]

/-- src/ubigint/convert.rs 37-49 -/
def to_u64 (a : UBig) : M (Except ConvErr Nat) :=
  if a.length > 2 then pure (.error .notInRange)
  else if a.length = 2 then do
    let x ← idx a 0
    let y ← idx a 1
    let y' ← uShl 64 y 32
    let r ← u64Add x y'
    pure (.ok r)
  else do let x ← idx a 0; pure (.ok x)

/-- src/ubigint/convert.rs 51-67 (`1 << 64` is `2^64`, `1 << 96` is `2^96`) -/
def from_u128 (n : Nat) : UBig :=
  if n < B32 then [n % B32]
  else if n < 2 ^ 64 then [n % B32 % B32, n / B32 % B32]
  else if n < 2 ^ 96 then [n % B32 % B32, n / B32 % B32 % B32, n / 2 ^ 64 % B32]
  else [n % B32 % B32, n / B32 % B32 % B32, n / 2 ^ 64 % B32 % B32, n / 2 ^ 96 % B32]

/-- src/ubigint/convert.rs 69-77 -/
def to_u128 (a : UBig) : M (Except ConvErr Nat) :=
  match a with
  | [x] => pure (.ok x)
  | [x, y] => do
    let y' ← uShl 128 y 32
    let r ← u128Add x y'
    pure (.ok r)
  | [x, y, z] => do
    let y' ← uShl 128 y 32
    let r ← u128Add x y'
    let z' ← uShl 128 z 64
    let r ← u128Add r z'
    pure (.ok r)
  | [x, y, z, w] => do
    let y' ← uShl 128 y 32
    let r ← u128Add x y'
    let z' ← uShl 128 z 64
    let r ← u128Add r z'
    let w' ← uShl 128 w 96
    let r ← u128Add r w'
    pure (.ok r)
  | _ => pure (.error .notInRange)

/-- `?.try_into()?` of the `TryFrom` impls: an integer conversion into the range
`lo .. hi` (both included) whose failure is `ConversionError::TryFromIntError`
(src/err.rs). -/
def tryInto (lo hi : Int) (r : Except ConvErr Int) : Except ConvErr Int :=
  match r with
  | .error e => .error e
  | .ok n => if lo ≤ n ∧ n ≤ hi then .ok n else .error .tryFromInt

/-- src/ubigint/convert/from.rs 111-115 (`usize` has 64 bits) -/
def from_usize (n : Nat) : UBig := from_u64 (n % B64)

/-- src/ubigint/convert/into.rs 57 `impl_trivial_try_from!(Fallible, &UBigInt, usize, to_u32)`
with src/impl_macros.rs: `to_u32()?.try_into()?` -/
def to_usize (a : UBig) : M (Except ConvErr Nat) := to_u32 a

/-! ### addition (src/ubigint/arith/add.rs) -/

/-- Column sums of `add` (src/ubigint/arith/add.rs 8-22): sums of the common
prefix, then the rest of the longer operand. -/
def addCols : List Nat → List Nat → M (List Nat)
  | x :: xs, y :: ys => do
    let s ← u64Add x y
    let t ← addCols xs ys
    pure (s :: t)
  | [], ys => pure ys
  | xs, [] => pure xs

/-- src/ubigint/arith/add.rs 7-34 -/
def add (a b : UBig) : M UBig := do
  let r ← addCols a b
  v64_to_v32 r

/-- Rest of `add_mut` when `other` is longer (src/ubigint/arith/add.rs 62-78). -/
def addMutPush : List Nat → Bool → M (List Nat × Bool)
  | [], c => pure ([], c)
  | y :: ys, true =>
    if y + 1 < B32 then do
      let (t, c) ← addMutPush ys false
      pure ((y + 1) :: t, c)
    else do
      let (t, c) ← addMutPush ys true
      pure (0 :: t, c)
  | y :: ys, false => do
      let (t, c) ← addMutPush ys false
      pure (y :: t, c)

/-- Rest of `add_mut` when `self` is longer and a carry is pending
(src/ubigint/arith/add.rs 81-92). -/
def addMutCarry : List Nat → List Nat × Bool
  | [] => ([], true)
  | x :: xs =>
    if x = U32MAX then let (t, c) := addMutCarry xs; (0 :: t, c)
    else ((x + 1) :: xs, false)

/-- The main loop of `add_mut` (src/ubigint/arith/add.rs 39-60) followed by the
two continuations; returns the new limbs and the final carry. -/
def addMutLoop : List Nat → List Nat → Bool → M (List Nat × Bool)
  | x :: xs, y :: ys, c =>
    if x + y < B32 then
      -- `Some(n)`
      if c then
        if x + y + 1 < B32 then do
          let (t, c') ← addMutLoop xs ys false
          pure ((x + y + 1) :: t, c')
        else do
          let s ← u64Add x y
          let s ← u64Add s 1
          let (t, c') ← addMutLoop xs ys c
          pure (s % B32 % B32 :: t, c')
      else do
        let (t, c') ← addMutLoop xs ys c
        pure ((x + y) :: t, c')
    else
      -- `None`
      if c then do
        let s ← u64Add x y
        let s ← u64Add s 1
        let (t, c') ← addMutLoop xs ys c
        pure (s % B32 % B32 :: t, c')
      else do
        let s ← u64Add x y
        let (t, c') ← addMutLoop xs ys true
        pure (s % B32 % B32 :: t, c')
  | [], y :: ys, c => addMutPush (y :: ys) c
  | x :: xs, [], c => if c then pure (addMutCarry (x :: xs)) else pure (x :: xs, c)
  | [], [], c => pure ([], c)

/-- src/ubigint/arith/add.rs 36-99 -/
def add_mut (a b : UBig) : M UBig := do
  let (r, c) ← addMutLoop a b false
  if c then pure (r ++ [1]) else pure r

/-- src/ubigint/arith/add.rs 119-131 -/
def add_u32_mut (a : UBig) (o : Nat) : M UBig :=
  match a with
  | [] => throw .index
  | x :: xs =>
    if x + o < B32 then pure ((x + o) :: xs)
    else do
      let s ← u64Add x o
      v64_to_v32 (s :: v32_to_v64 xs)

/-- src/ubigint/arith/add.rs 103-117 -/
def add_u32 (a : UBig) (o : Nat) : M UBig := add_u32_mut a o

/-! ### subtraction (src/ubigint/arith/sub.rs) -/

/-- `checked_sub(..).expect(..)` -/
def csub (a b : Nat) : M Nat := if b ≤ a then pure (a - b) else throw .unwrap

/-- The main loop of `sub_mut` (src/ubigint/arith/sub.rs 24-44): returns the
processed limbs, the untouched upper limbs of `self`, and the borrow. -/
def subLoop : List Nat → List Nat → Bool → M (List Nat × List Nat × Bool)
  | xs, [], c => pure ([], xs, c)
  | [], _ :: _, _ => throw .index
  | x :: xs, y :: ys, true =>
    if y ≠ U32MAX ∧ x ≥ y + 1 then do
      let y1 ← u32Add y 1
      let d ← csub x y1
      let (t, r, c) ← subLoop xs ys false
      pure (d :: t, r, c)
    else do
      let d ← csub y x
      let e ← uSub U32MAX d
      let (t, r, c) ← subLoop xs ys true
      pure (e :: t, r, c)
  | x :: xs, y :: ys, false =>
    if x ≥ y then do
      let d ← csub x y
      let (t, r, c) ← subLoop xs ys false
      pure (d :: t, r, c)
    else do
      let d ← csub y x
      let e ← uSub U32MAX d
      let e ← u32Add e 1
      let (t, r, c) ← subLoop xs ys true
      pure (e :: t, r, c)

/-- Borrow propagation of `sub_mut` (src/ubigint/arith/sub.rs 51-60). -/
def subBorrow : List Nat → List Nat
  | [] => []
  | x :: xs => if x > 0 then (x - 1) :: xs else U32MAX :: subBorrow xs

/-- src/ubigint/arith/sub.rs 16-66 (the check at 20-22 is `#[cfg(test)]` only) -/
def sub_mut (a b : UBig) : M UBig := do
  let (t, r, c) ← subLoop a b false
  if c then
    if a.length ≤ b.length then throw .explicit
    else pure (remove_suffix_0 (t ++ subBorrow r))
  else pure (remove_suffix_0 (t ++ r))

/-- src/ubigint/arith/sub.rs 8-13 -/
def sub (a b : UBig) : M UBig := sub_mut a b

/-- The `while self.0[i] == 0` loop and the decrement of `sub_u32_mut`
(src/ubigint/arith/sub.rs 90-97), on the limbs from index 1. -/
def subU32Borrow : List Nat → M (List Nat)
  | [] => throw .index
  | x :: xs =>
    if x = 0 then do
      let t ← subU32Borrow xs
      pure (U32MAX :: t)
    else do
      let x' ← uSub x 1
      pure (x' :: xs)

/-- src/ubigint/arith/sub.rs 85-108 -/
def sub_u32_mut (a : UBig) (o : Nat) : M UBig :=
  match a with
  | [] => throw .index
  | x :: xs =>
    if x ≥ o then do
      let x' ← uSub x o
      pure (x' :: xs)
    else if a.length > 1 then do
      let t ← subU32Borrow xs
      let s ← uSub U32MAX o
      let s ← u32Add s x
      let s ← u32Add s 1
      pure (remove_suffix_0 (s :: t))
    else throw .explicit

/-- src/ubigint/arith/sub.rs 71-82 -/
def sub_u32 (a : UBig) (o : Nat) : M UBig := sub_u32_mut a o

/-- src/ubigint/arith/sub.rs 110-118 -/
def abs_diff (a b : UBig) : M UBig := if geq a b then sub a b else sub b a

/-- src/ubigint/arith/sub.rs 120-128 -/
def abs_diff_u32 (a : UBig) (o : Nat) : M UBig := do
  if ← geq_u32 a o then sub_u32 a o
  else do
    let x ← to_u32 a
    let x ← unwrapR x
    let d ← uSub o x
    pure (from_u32 d)

/-! ### limb shifts (src/ubigint/funcs/shift.rs) -/

/-- src/ubigint/funcs/shift.rs 7-15 -/
def shift_right (a : UBig) (n : Nat) : UBig :=
  if n ≥ a.length then zero else a.drop n
/-- src/ubigint/funcs/shift.rs 18-26 -/
def shift_right_mut (a : UBig) (n : Nat) : UBig :=
  if n ≥ a.length then [0] else a.drop n
/-- src/ubigint/funcs/shift.rs 30-41 -/
def shift_left (a : UBig) (n : Nat) : UBig :=
  if is_zero a then zero else List.replicate n 0 ++ a
/-- src/ubigint/funcs/shift.rs 44-51 -/
def shift_left_mut (a : UBig) (n : Nat) : UBig :=
  if is_zero a then a else List.replicate n 0 ++ a
/-- src/ubigint/funcs/shift.rs 56-70 (the inline loop is that of `remove_suffix_0`) -/
def slice_right (a : UBig) (n : Nat) : M UBig :=
  if n = 0 then pure zero
  else do
    let r ← slice a 0 n
    pure (remove_suffix_0 r)
/-- src/ubigint/funcs/shift.rs 74-88 -/
def slice_right_mut (a : UBig) (n : Nat) : M UBig :=
  if n = 0 then pure zero
  else do
    let r ← slice a 0 n
    pure (remove_suffix_0 r)

/-! ### multiplication (src/ubigint/arith/mul.rs) -/

/-- Inner loop over `j` of `mul` (src/ubigint/arith/mul.rs 57-61) for a fixed
limb `x = self.0[i]`; the third argument is `result[i..]`. -/
def mulInner (x : Nat) : List Nat → List Nat → M (List Nat)
  | [], res => pure res
  | y :: ys, r0 :: r1 :: rs => do
    let curr ← u64Mul x y
    let r0' ← u64Add r0 (curr % B32)
    let r1' ← u64Add r1 (curr / B32)
    let t ← mulInner x ys (r1' :: rs)
    pure (r0' :: t)
  | _ :: _, _ => throw .index

/-- Outer loop over `i` of `mul` (src/ubigint/arith/mul.rs 56-62); the third
argument is `result[i..]`. -/
def mulOuter : List Nat → List Nat → List Nat → M (List Nat)
  | [], _, res => pure res
  | x :: xs, ys, res => do
    let res' ← mulInner x ys res
    match res' with
    | [] => pure []
    | r :: rs => do
      let t ← mulOuter xs ys rs
      pure (r :: t)

/-- The schoolbook branch (src/ubigint/arith/mul.rs 54-71). -/
def mulSchool (a b : UBig) : M UBig := do
  let r ← mulOuter a b (List.replicate (a.length + b.length) 0)
  let r ← v64_to_v32 r
  pure (remove_suffix_0 r)

/-- src/ubigint/arith/mul.rs 15-72 (`go_kara` is `true` outside of tests);
`KARATSUBA_THRES = 64` (line 4). -/
def mul (a b : UBig) : M UBig :=
  if a.length > 64 ∧ b.length > 64 then do
    let m := min (a.length / 2) (b.length / 2)
    let x1 := shift_right a m
    let x0 ← slice_right a m
    let y1 := shift_right b m
    let y0 ← slice_right b m
    let z2 ← mul x1 y1
    let z0 ← mul x0 y0
    let sx ← add x1 x0
    let sy ← add y1 y0
    let z1 ← mul sx sy
    let z1 ← sub z1 z2
    let z1 ← sub z1 z0
    let r ← add (shift_left z2 (2 * m)) (shift_left z1 m)
    add r z0
  else mulSchool a b
partial_fixpoint

/-- src/ubigint/arith/mul.rs 74-77 -/
def mul_mut (a b : UBig) : M UBig := mul a b

/-- Loop of `mul_u32_mut` (src/ubigint/arith/mul.rs 96-114). -/
def mulU32Loop (o : Nat) : List Nat → Nat → M (List Nat × Nat)
  | [], c => pure ([], c)
  | x :: xs, c =>
    if x * o < B32 then
      -- `Some(n)` with `n = x * o`
      if x * o + c % B32 < B32 then do
        let (t, c') ← mulU32Loop o xs 0
        pure ((x * o + c % B32) :: t, c')
      else do
        let s ← u64Add (x * o) c
        let (t, c') ← mulU32Loop o xs (s / B32)
        pure (s % B32 % B32 :: t, c')
    else do
      let p ← u64Mul x o
      let s ← u64Add p c
      let (t, c') ← mulU32Loop o xs (s / B32)
      pure (s % B32 % B32 :: t, c')

/-- src/ubigint/arith/mul.rs 93-122 -/
def mul_u32_mut (a : UBig) (o : Nat) : M UBig := do
  let (t, c) ← mulU32Loop o a 0
  if c > 0 then pure (remove_suffix_0 (t ++ [c % B32]))
  else pure (remove_suffix_0 t)

/-- src/ubigint/arith/mul.rs 80-91 -/
def mul_u32 (a : UBig) (o : Nat) : M UBig := mul_u32_mut a o

/-- src/ubigint/arith/mul.rs 136-142 (`1 << (exp % 32)` is a `u32`) -/
def mul_pow2_mut (a : UBig) (e : Nat) : M UBig := do
  let small ← uShl 32 1 (e % 32)
  let r ← mul_u32_mut a small
  pure (shift_left_mut r (e / 32))

/-- src/ubigint/arith/mul.rs 127-132 -/
def mul_pow2 (a : UBig) (e : Nat) : M UBig := mul_pow2_mut a e

/-! ### division (src/ubigint/arith/div.rs) -/

/-- Loop of `div_u32_mut` (src/ubigint/arith/div.rs 142-146) over the limbs from
the top; the result is again from the top.  `carry` is already shifted left by 32. -/
def divU32Loop (o : Nat) : List Nat → Nat → M (List Nat)
  | [], _ => pure []
  | x :: xs, c => do
    let curr ← u64Add x c
    let q ← uDiv curr o
    let r ← uRem curr o
    let c' ← uShl 64 r 32
    let t ← divU32Loop o xs c'
    pure (q % B32 :: t)

/-- src/ubigint/arith/div.rs 138-151 -/
def div_u32_mut (a : UBig) (o : Nat) : M UBig := do
  let r ← divU32Loop o a.reverse 0
  pure (remove_suffix_0 r.reverse)

/-- src/ubigint/arith/div.rs 123-136 -/
def div_u32 (a : UBig) (o : Nat) : M UBig := div_u32_mut a o

/-- src/ubigint/arith/div.rs 154-163 -/
def div_approx (divend : List Nat) (divisor : Nat) : M UBig := do
  let d4 ← idx divend 4
  let d3 ← idx divend 3
  let d2 ← idx divend 2
  let d4' ← uShl 128 d4 64
  let d3' ← uShl 128 d3 32
  let curr ← u128Add d4' d3'
  let curr ← u128Add curr d2
  let q1 ← uDiv curr divisor
  let quotient1 := q1 % B64
  let curr ← uRem curr divisor
  let curr ← uShl 128 curr 64
  let d1 ← idx divend 1
  let d0 ← idx divend 0
  let d1' ← uShl 128 d1 32
  let lo ← u128Add d1' d0
  let curr ← u128Add curr lo
  let q2 ← uDiv curr divisor
  let quotient2 := q2 % B64
  v64_to_v32 [quotient2, 0, quotient1]

/-- The two most significant limbs as a `u64`
(src/ubigint/arith/div.rs 22, 91, 92). -/
def top2 (a : UBig) : M Nat := do
  let i ← uSub a.length 1
  let x ← idx a i
  let j ← uSub a.length 2
  let y ← idx a j
  let x' ← uShl 64 x 32
  u64Add x' y

/-- The `let approx1 = if … else …` of `div` (src/ubigint/arith/div.rs 25-29). -/
def divApprox1 (self_approx : List Nat) (other_approx : Nat) : M UBig :=
  if other_approx = U64MAX then slice self_approx 2 self_approx.length
  else do
    let d ← u64Add other_approx 1
    div_approx self_approx d

/-- src/ubigint/arith/div.rs 8-115 -/
def div (a b : UBig) : M UBig :=
  if a.length < b.length then pure zero
  else if a.length < 5 ∧ b.length < 5 then do
    let x ← to_u128 a
    let x ← unwrapR x
    let y ← to_u128 b
    let y ← unwrapR y
    let q ← uDiv x y
    pure (from_u128 q)
  else if b.length = 1 then do
    let y ← idx b 0
    div_u32 a y
  else if a.length > b.length then do
    let other_approx ← top2 b
    let k ← uSub a.length 5
    let self_approx ← slice a k a.length
    let approx1 ← divApprox1 self_approx other_approx
    if a.length - b.length < 3 then do
      let approx := shift_right approx1 (3 + b.length - a.length)
      let t ← mul b approx
      let t ← sub a t
      let t ← div t b
      add approx t
    else if b.length = 2 then do
      let approx := shift_left approx1 (a.length - b.length - 3)
      let t ← mul b approx1
      let t ← sub a (shift_left t (a.length - b.length - 3))
      let t ← div t b
      add approx t
    else do
      let approx2 ← div_approx self_approx other_approx
      if eq approx2 approx1 then do
        let approx := shift_left approx2 (a.length - b.length - 3)
        let t ← mul b approx2
        let t ← sub a (shift_left t (a.length - b.length - 3))
        let t ← div t b
        add approx t
      else do
        let l ← uSub b.length 3
        let y ← idx b l
        let y' ← uShr 64 y 24
        let ratio ← u64Add y' 1
        let ratio := ratio % B32
        let p ← mul_u32 approx1 ratio
        let inv ← uSub 256 ratio
        let q ← mul_u32 approx2 inv
        let s ← add p q
        let approx3 ← div_u32 s 256
        let approx := shift_left approx3 (a.length - b.length - 3)
        let tmp ← mul b approx3
        let tmp := shift_left tmp (a.length - b.length - 3)
        if geq a tmp then do
          let t ← sub a tmp
          let tmp2 ← div t b
          add approx tmp2
        else do
          let t ← sub tmp a
          let tmp2 ← div t b
          let approx4 ← sub approx tmp2
          let p ← mul approx4 b
          if leq p a then pure approx4
          else sub_u32 approx4 1
  else do
    let self_approx ← top2 a
    let other_approx ← top2 b
    if self_approx < other_approx then pure zero
    else if self_approx > other_approx then do
      let d ← u64Add other_approx 1
      let q ← uDiv self_approx d
      let approx := from_u64 q
      let t ← mul b approx
      let t ← sub a t
      let t ← div t b
      add approx t
    else if gt b a then pure zero
    else pure one
partial_fixpoint

/-- src/ubigint/arith/div.rs 117-120 -/
def div_mut (a b : UBig) : M UBig := div a b

/-! ### remainder (src/ubigint/arith/rem.rs) -/

/-- src/ubigint/arith/rem.rs 7-13 -/
def rem (a b : UBig) : M UBig := do
  let q ← div a b
  let sdo ← mul q b
  sub a sdo

/-- src/ubigint/arith/rem.rs 15-21 -/
def rem_mut (a b : UBig) : M UBig := do
  let q ← div a b
  let sdo ← mul q b
  sub_mut a sdo

/-- Loop of `rem_u32` (src/ubigint/arith/rem.rs 30-34), all in `u64`. -/
def remU32Loop (o unit : Nat) : List Nat → Nat → Nat → M Nat
  | [], _, result => pure result
  | d :: ds, power, result => do
    let t ← uRem d o
    let t ← u64Mul t power
    let t ← uRem t o
    let result ← u64Add result t
    let power ← u64Mul power unit
    let power ← uRem power o
    remU32Loop o unit ds power result

/-- src/ubigint/arith/rem.rs 24-45 -/
def rem_u32 (a : UBig) (o : Nat) : M UBig := do
  let unit ← uRem B32 o
  let r ← remU32Loop o unit a 1 0
  let r ← uRem r o
  pure (from_u32 (r % B32))

/-- Loop of `rem_u32_mut` (src/ubigint/arith/rem.rs 52-56), all in `u32`. -/
def remU32MutLoop (o unit : Nat) : List Nat → Nat → Nat → M Nat
  | [], _, result => pure result
  | d :: ds, power, result => do
    let t ← uRem d o
    let t ← u32Mul t power
    let t ← uRem t o
    let result ← u32Add result t
    let power ← u32Mul power unit
    let power ← uRem power o
    remU32MutLoop o unit ds power result

/-- src/ubigint/arith/rem.rs 47-58 -/
def rem_u32_mut (a : UBig) (o : Nat) : M UBig := do
  let unit ← uRem B32 o
  let unit := unit % B32
  let r ← remU32MutLoop o unit a 1 0
  let r ← uRem r o
  pure (from_u32 r)

/-- src/ubigint/arith/rem.rs 69-78 -/
def rem_pow2 (a : UBig) (o : Nat) : M UBig := do
  let x ← idx a 0
  let r ← uRem x o
  pure (from_u32 r)

/-! ### powers (src/ubigint/arith/pow.rs, src/ubigint/funcs/exp.rs) -/

/-- First loop of `pow_u32` (src/ubigint/arith/pow.rs 28-31).  `powers` is the
stack with its top first. -/
def powUp (exp : Nat) (powers : List UBig) (curr : Nat) : M (List UBig × Nat) := do
  let c2 ← u32Mul curr 2
  if c2 ≤ exp then do
    let top ← idx powers 0
    let sq ← mul top top
    powUp exp (sq :: powers) c2
  else pure (powers, curr)
partial_fixpoint

/-- Second loop of `pow_u32` (src/ubigint/arith/pow.rs 37-46). -/
def powDown (result : UBig) (powers : List UBig) (exp curr : Nat) : M UBig :=
  if curr > 0 then
    match powers with
    | [] => throw .unwrap
    | l :: powers =>
      if curr ≤ exp then do
        let result ← mul_mut result l
        let exp ← uSub exp curr
        powDown result powers exp (curr / 2)
      else powDown result powers exp (curr / 2)
  else pure result
partial_fixpoint

/-- src/ubigint/arith/pow.rs 8-51 -/
def pow_u32 (a : UBig) (exp : Nat) : M UBig :=
  if exp < 3 then
    if exp = 0 then pure one
    else if exp = 1 then pure a
    else mul a a
  else do
    let (powers, curr) ← powUp exp [a] 1
    match powers with
    | [] => throw .unwrap
    | result :: powers => do
      let exp ← uSub exp curr
      powDown result powers exp (curr / 2)

/-- src/ubigint/arith/pow.rs 53-56 -/
def pow_u32_mut (a : UBig) (exp : Nat) : M UBig := pow_u32 a exp

/-- src/ubigint/arith/pow.rs 60-67 -/
def pow2 (exp : Nat) : M UBig := do
  let t ← uShl 32 1 (exp % 32)
  pure (List.replicate (exp / 32) 0 ++ [t])

/-- src/ubigint/funcs/exp.rs 6-8 -/
def exp2 (n : Nat) : M UBig := do
  let t ← uShl 32 1 (n % 32 % B32)
  pure (shift_left (from_u32 t) (n / 32))

/-! ### logarithm (src/ubigint/funcs/log.rs) -/

/-- src/ubigint/funcs/log.rs 41-43; `ilog2` of a nonzero word is `Nat.log2`. -/
def log2_u32 (n : Nat) : Nat := if n = 0 then 0 else Nat.log2 n

/-- src/ubigint/funcs/log.rs 7-10 (`self.len() as u64` keeps the value) -/
def log2 (a : UBig) : M UBig := do
  let l ← uSub a.length 1
  let t ← u64Mul l 32
  let x ← idx a l
  let r ← u64Add t (log2_u32 x)
  pure (from_u64 r)

/-! ### gcd (src/ubigint/funcs.rs) -/

/-- Loop of `gcd_ubi` (src/ubigint/funcs.rs 381-385). -/
def gcdLoop (a b : UBig) : M UBig :=
  if !is_zero a then do
    let r ← rem b a
    gcdLoop r a
  else pure b
partial_fixpoint

/-- src/ubigint/funcs.rs 372-388 -/
def gcd_ubi (a b : UBig) : M UBig :=
  if is_zero a then pure b
  else do
    let r ← rem b a
    gcdLoop r a

end UBig
end Hmath
