import Verif.Prim

namespace Hmath

/-- src/utils.rs 1-5 `v32_to_v64`: `as u64` does not change the value. -/
def v32_to_v64 (v : List Nat) : List Nat := v

/-- src/utils.rs 7-27 `v64_to_v32`.  The index loop over `0..len-1` followed by
the treatment of the last element is a structural recursion; the element `v[i+1]`
updated in iteration `i` is passed on.  An empty vector panics (`len() - 1`).
The final `as u32` of every element is `% 2^32`. -/
def v64_to_v32 : List Nat → M (List Nat)
  | [] => throw .overflow
  | [x] => if x ≥ B32 then pure [x % B32 % B32, x / B32 % B32] else pure [x % B32]
  | x :: y :: r =>
    if x ≥ B32 then do
      let y' ← u64Add y (x / B32)
      let t ← v64_to_v32 (y' :: r)
      pure (x % B32 % B32 :: t)
    else do
      let t ← v64_to_v32 (y :: r)
      pure (x % B32 :: t)
termination_by l => l.length

/-- the `while` loop of `remove_suffix_0` on the reversed vector -/
def dropZerosRev : List Nat → List Nat
  | [] => []
  | [x] => [x]
  | x :: y :: r => if x = 0 then dropZerosRev (y :: r) else x :: y :: r

/-- src/utils.rs 29-33 `remove_suffix_0`: pop trailing zeros while `len > 1`. -/
def remove_suffix_0 (v : List Nat) : List Nat := (dropZerosRev v.reverse).reverse

end Hmath
