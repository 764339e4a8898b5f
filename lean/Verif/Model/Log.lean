import Verif.Model.Funcs
import Verif.Model.BigInt

/-!
# `log2_accurate` (src/ubigint/funcs/log.rs 12-37)
-/

namespace Hmath
namespace UBig

/-- src/ubigint/funcs/log.rs 16-21 -/
def logInit (a : UBig) : M (UBig × Nat) :=
  if a.length > 8 then do
    let k ← uSub a.length 8
    let t ← u64Mul k 32
    let r ← u64Add 0 t
    pure (shift_right a k, r)
  else pure (a, 0)

/-- src/ubigint/funcs/log.rs 28-31 -/
def logCut (x : UBig) (result : Nat) : M (UBig × Nat) :=
  if x.length > 6 then do
    let k ← uSub x.length 6
    let t ← u64Mul k 32
    let r ← u64Add result t
    pure (shift_right_mut x k, r)
  else pure (x, result)

/-- the `for` loop (src/ubigint/funcs/log.rs 23-33) with `k` iterations left -/
def logLoop : Nat → UBig → Nat → M (UBig × Nat)
  | 0, x, result => pure (x, result)
  | k + 1, x, result => do
    let x ← mul x x
    let x ← mul x x
    let result ← u64Mul result 4
    let p ← logCut x result
    logLoop k p.1 p.2

/-- src/ubigint/funcs/log.rs 14-37 -/
def log2_accurate (a : UBig) : M UBig := do
  let p ← logInit a
  let p ← logLoop 16 p.1 p.2
  let l ← uSub p.1.length 1
  let t ← u64Mul l 32
  let x ← idx p.1 l
  let t ← u64Add t (log2_u32 x)
  let r ← u64Add p.2 t
  pure (from_u64 r)

end UBig

/-- src/bigint/funcs.rs 22-26 -/
def BigI.log2_accurate (a : BigI) : M BigI := do
  let m ← UBig.log2_accurate a.mag
  pure (BigI.from_ubi m false)

end Hmath
