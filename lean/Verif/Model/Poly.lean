import Verif.Model.Matrix
import Verif.Model.Casts

/-!
# Model of `Polynomial` (src/poly.rs, src/poly/from_points.rs)

`add`, `add_mut`, `mul`, `mul_mut` are `todo!()` in the source and not modelled.
-/

namespace Hmath

/-- src/poly.rs 9-11 `pub struct Polynomial { coeffs: Vec<Ratio> }`, highest power first -/
structure Poly where
  coeffs : List Ratio
  deriving DecidableEq, Repr

namespace Poly

/-- the `while let` loop of `from_vec`: index of the first nonzero entry (src/poly.rs 15-23) -/
def firstNonZero : List Ratio → Nat
  | [] => 0
  | n :: ns => if n.is_zero then firstNonZero ns + 1 else 0

/-- src/poly.rs 14-33 -/
def from_vec (coeffs : List Ratio) : Poly :=
  let i := firstNonZero coeffs
  let coeffs := if i ≠ 0 then coeffs.drop i else coeffs
  let coeffs := if coeffs.isEmpty then [Ratio.zero] else coeffs
  ⟨coeffs⟩

/-- src/poly.rs 35-39; `into` is the conversion of the element type to `Ratio` -/
def from_vec_generic {α : Type} (into : α → M Ratio) (coeffs : List α) : M Poly :=
  if coeffs.isEmpty then pure (from_vec [])
  else do
    let l ← coeffs.mapM into
    pure ⟨l⟩

/-- src/poly.rs 65-80 (with `k` already converted) -/
def mul_k (p : Poly) (k : Ratio) : M Poly := do
  let l ← p.coeffs.mapM (fun n => n.mul k)
  pure (from_vec l)

/-- src/poly.rs 82-93 (with `k` already converted) -/
def mul_k_mut (p : Poly) (k : Ratio) : M Poly :=
  if k.is_zero then pure (from_vec [])
  else do
    let l ← p.coeffs.mapM (fun n => n.mul_mut k)
    pure ⟨l⟩

/-- `result.pop().unwrap(); if result.is_empty() { result.push(Ratio::zero()) }`
(src/poly.rs 112-116, 135-139) -/
def popZero (l : List Ratio) : M (List Ratio) :=
  if l.isEmpty then throw .unwrap
  else
    let l := l.dropLast
    if l.isEmpty then pure [Ratio.zero] else pure l

/-- src/poly.rs 105-128 -/
def differentiate (p : Poly) : M Poly := do
  let l ← p.coeffs.reverse.zipIdx.reverse.mapM (fun q => q.1.mul_i32 (asI32 q.2))
  let l ← popZero l
  pure (from_vec l)

/-- src/poly.rs 130-140 -/
def differentiate_mut (p : Poly) : M Poly := do
  let l ← p.coeffs.reverse.zipIdx.mapM (fun q => q.1.mul_i32_mut (asI32 q.2))
  let l ← popZero l.reverse
  pure ⟨l⟩

/-- `calc` (src/poly.rs 143-152; `calc` is a keyword of Lean) -/
def calc_at (p : Poly) (x : Ratio) : M Ratio :=
  p.coeffs.foldlM (fun result coeff => do
    let result ← result.mul_mut x
    result.add_mut coeff) Ratio.zero

/-- `f'(x)` in `newton_method` (src/poly.rs 156-162) -/
def primeAt (p : Poly) (x : Ratio) (prime : Option Poly) : M Ratio :=
  match prime with
  | some q => q.calc_at x
  | none => do
    let fp ← p.differentiate
    fp.calc_at x

/-- src/poly.rs 155-165 -/
def newton_method (p : Poly) (x : Ratio) (prime : Option Poly) : M Ratio := do
  let fpx ← primeAt p x prime
  let fx ← p.calc_at x
  let d ← fx.div fpx
  x.sub d

/-! ## src/poly/from_points.rs -/

/-- the inner loop (src/poly/from_points.rs 16-19) -/
def powersRow (A : Mat) (n i : Nat) (x : Ratio) : M Mat := do
  let p ← (List.range' 1 n).foldlM (fun (s : Mat × Ratio) j => do
    let k ← uSub n j
    let A ← s.1.set i k s.2
    let curr ← s.2.mul_mut x
    pure (A, curr)) (A, Ratio.one)
  pure p.1

/-- the outer loop (src/poly/from_points.rs 13-22) -/
def pointMatrices (p : List (Ratio × Ratio)) : M (Mat × Mat) := do
  let mat1 ← Mat.zeros p.length p.length
  let mat2 ← Mat.zeros 1 p.length
  (List.range p.length).foldlM (fun (s : Mat × Mat) i => do
    let q ← idx p i
    let mat1 ← powersRow s.1 p.length i q.1
    let mat2 ← s.2.set i 0 q.2
    pure (mat1, mat2)) (mat1, mat2)

/-- `mat_inv.mul(&mat2).unwrap()` and the first column of the result as a polynomial
(src/poly/from_points.rs 31-33, 112-119, 155-161) -/
def solveColumn (inv mat2 : Mat) (n : Nat) : M Poly := do
  let R ← inv.mul mat2
  let R ← unwrapR R
  let l ← (List.range n).mapM (fun i => R.get i 0)
  pure (from_vec l)

/-- src/poly/from_points.rs 9-60 -/
def from_points (p : List (Ratio × Ratio)) : M (Except MatErr Poly) := do
  let m ← pointMatrices p
  let inv ← m.1.inverse
  match inv with
  | .error _ => pure (.error .zeroDeterminant)
  | .ok inv => do
    let r ← solveColumn inv m.2 p.length
    pure (.ok r)

/-- src/poly/from_points.rs 63-67 -/
def from_points_generic {α : Type} (into : α → M Ratio) (p : List (α × α)) :
    M (Except MatErr Poly) := do
  let l ← p.mapM (fun q => do
    let x ← into q.1
    let y ← into q.2
    pure (x, y))
  from_points l

/-- the 4 × 4 system of `cubic_2_points` (src/poly/from_points.rs 92-100) -/
def cubicSystem (a b : Ratio) : M Mat := do
  let aa ← a.mul a
  let bb ← b.mul b
  let aaa ← aa.mul a
  let bbb ← bb.mul b
  let aa3 ← aa.mul_i32 3
  let a2 ← a.mul_i32 2
  let bb3 ← bb.mul_i32 3
  let b2 ← b.mul_i32 2
  unwrapR (Mat.from_vec [[aaa, aa, a, Ratio.one], [bbb, bb, b, Ratio.one],
    [aa3, a2, Ratio.one, Ratio.zero], [bb3, b2, Ratio.one, Ratio.zero]])

/-- src/poly/from_points.rs 71-120 -/
def cubic_2_points (a b v1 v2 v3 v4 : Ratio) : M Poly := do
  let mat1 ← unwrapR (Mat.from_vec [[v1], [v2], [v3], [v4]])
  let sys ← cubicSystem a b
  let inv ← sys.inverse
  match inv with
  | .ok mat2 => solveColumn mat2 mat1 4
  | .error _ =>
    if a = b then do
      let t ← a.mul v3
      let c ← v1.sub t
      pure (from_vec [v3, c])
    else throw .unreachable

/-- `tan` (src/poly/from_points.rs 169-173) -/
def slope (a b v1 v2 : Ratio) : M Ratio :=
  if a = b then pure Ratio.zero
  else do
    let n ← v2.sub v1
    let d ← b.sub a
    n.div d

/-- src/poly/from_points.rs 166-178 -/
def linear_2_points (a b v1 v2 : Ratio) : M Poly := do
  let tan ← slope a b v1 v2
  let t ← a.mul tan
  let c ← v1.sub t
  pure (from_vec [tan, c])

/-- the 3 × 3 system of `quadratic_3_points` (src/poly/from_points.rs 142-146) -/
def quadraticSystem (a b c : Ratio) : M Mat := do
  let aa ← a.mul a
  let bb ← b.mul b
  let cc ← c.mul c
  unwrapR (Mat.from_vec [[aa, a, Ratio.one], [bb, b, Ratio.one], [cc, c, Ratio.one]])

/-- src/poly/from_points.rs 124-162 -/
def quadratic_3_points (a b c v1 v2 v3 : Ratio) : M Poly := do
  let mat1 ← unwrapR (Mat.from_vec [[v1], [v2], [v3]])
  let sys ← quadraticSystem a b c
  let inv ← sys.inverse
  match inv with
  | .ok mat2 => solveColumn mat2 mat1 3
  | .error _ =>
    if a = b then linear_2_points a c v1 v3 else linear_2_points a b v1 v2

end Poly
end Hmath
