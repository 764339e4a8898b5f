import Verif.Model.Funcs
import Verif.Model.Ieee
import Verif.Model.Poly
import Verif.Model.Matrix
import Verif.Model.Convert

/-!
# Sums and products, random numbers, and functions of `BigInt` and `Polynomial` that only pass on to others

The random number generator is outside the library.  Its answers are a parameter: `src i` is the `i`th `u32` that is drawn.
-/

namespace Hmath

namespace UBig

/-- `Sum` for `UBigInt` (src/ubigint/arith.rs 11-19) -/
def sumLoop : List UBig → UBig → M UBig
  | [], result => pure result
  | n :: iter, result => do
    let result ← add_mut result n
    sumLoop iter result

/-- src/ubigint/arith.rs 11-19 -/
def sum (iter : List UBig) : M UBig := sumLoop iter zero

/-- the loop of `Product` for `UBigInt` (src/ubigint/arith.rs 23-31) -/
def productLoop : List UBig → UBig → M UBig
  | [], result => pure result
  | n :: iter, result => do
    let result ← mul_mut result n
    productLoop iter result

/-- src/ubigint/arith.rs 23-31 -/
def product (iter : List UBig) : M UBig := productLoop iter one

/-- src/ubigint/funcs.rs 283-293 -/
def random (src : Nat → Nat) (scale : Nat) : UBig :=
  if scale = 0 then zero else (List.range scale).map fun i => max (src i) 1

end UBig

namespace BigI

/-- src/bigint/funcs.rs 56-58 -/
def is_prime (a : BigI) : M Bool := UBig.is_prime a.mag

/-- src/bigint/funcs.rs 61-65 -/
def prime_factorial (a : BigI) : M (List BigI) := do
  let l ← UBig.prime_factorial a.mag
  pure (l.map fun n => from_ubi n false)

/-- src/bigint/funcs.rs 71-73 -/
def fibonacci (n : Nat) : M BigI := do
  let f ← UBig.fibonacci n
  pure (from_ubi f false)

/-- src/bigint/funcs.rs 121-129; `b` is the random `bool` -/
def random (src : Nat → Nat) (b : Bool) (scale : Nat) : BigI :=
  if scale = 0 then zero else from_ubi (UBig.random src scale) b

end BigI

namespace Ratio

/-- src/ratio/funcs.rs 195-211 (`from_raw` is src/ratio.rs 27-29) -/
def random (src : Nat → Nat) : M Ratio :=
  fit ⟨⟨[0, 0, 0, 0, 1], false⟩, ⟨(List.range 4).map fun i => max (src i) 1, false⟩⟩

end Ratio

namespace Mat

/-- src/matrix.rs 234-244; each entry draws four numbers -/
def random (src : Nat → Nat) (cols rows : Nat) : M Mat := do
  let d ← (List.range rows).mapM (fun i => (List.range cols).mapM (fun j =>
    Ratio.random (fun k => src (4 * (i * cols + j) + k))))
  pure (from_raw d cols rows)

end Mat

namespace Poly

/-- `to_vec_f32` and `to_vec_f64`, by format (src/poly.rs 46-53) -/
def to_vec_float (f : Ratio.Fmt) (p : Poly) : M (List Nat) :=
  p.coeffs.mapM fun n => do
    match ← Ratio.to_ieee754 f n with
    | .ok b => pure b
    | .error _ => throw .unwrap

end Poly

namespace Complex

/-- src/complex/convert.rs 4-11; the arguments are the results of the two `try_from`s, which are called in this order -/
def try_from_real_and_imag {ε : Type} (real imag : M (Except ε Ratio)) : M (Except ε Complex) := do
  match ← real with
  | .error e => pure (.error e)
  | .ok r =>
    match ← imag with
    | .error e => pure (.error e)
    | .ok i => pure (.ok ⟨r, i⟩)

end Complex
end Hmath
