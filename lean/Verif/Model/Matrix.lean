import Verif.Model.Ratio

/-!
# Model of `Matrix` (src/matrix.rs, src/matrix/det.rs, inv.rs, utils.rs, err.rs)

`get_mut` is modelled by `Mat.set` / `Mat.modify`, which return the updated matrix.
`for` loops over index ranges are `foldlM` over the list of indices.
-/

namespace Hmath

/-- src/matrix.rs 11-16 `pub struct Matrix { data: Vec<Vec<Ratio>>, cols: usize, rows: usize }` -/
structure Mat where
  data : List (List Ratio)
  cols : Nat
  rows : Nat
  deriving DecidableEq, Repr

/-- src/matrix/err.rs 2-17 -/
inductive MatErr where
  | wrongDimension (expected got : Nat × Nat)
  | inconsistentRow
  | notSquare (cols rows : Nat)
  | emptyMatrix
  | zeroDeterminant
  deriving DecidableEq, Repr

namespace Mat

/-- src/matrix.rs 68-70 -/
def empty : Mat := ⟨[], 0, 0⟩

/-- src/matrix.rs 19-34 -/
def from_vec (data : List (List Ratio)) : Except MatErr Mat :=
  match data with
  | [] => .ok empty
  | row :: _ =>
    if data.all (fun r => r.length = row.length) then .ok ⟨data, row.length, data.length⟩
    else .error .inconsistentRow

/-- src/matrix.rs 36-44; `into` is the conversion of the element type to `Ratio` -/
def from_vec_generic {α : Type} (into : α → M Ratio) (data : List (List α)) :
    M (Except MatErr Mat) := do
  let d ← data.mapM (fun row => row.mapM into)
  pure (from_vec d)

/-- src/matrix.rs 46-54 (the check is compiled for tests only) -/
def from_raw (data : List (List Ratio)) (cols rows : Nat) : Mat := ⟨data, cols, rows⟩

/-- src/matrix.rs 57-66 -/
def generate (cols rows : Nat) (f : Nat → Nat → M Ratio) : M Mat := do
  let d ← (List.range rows).mapM (fun i => (List.range cols).mapM (fun j => f i j))
  pure ⟨d, cols, rows⟩

/-- src/matrix.rs 72-77; `0.into()` is `Ratio::from_i32(0)` -/
def zeros (cols rows : Nat) : M Mat := do
  let z ← Ratio.from_i32 0
  pure ⟨List.replicate rows (List.replicate cols z), cols, rows⟩

/-- src/matrix.rs 95-97 -/
def get (A : Mat) (i j : Nat) : M Ratio := do
  let r ← idx A.data i
  idx r j

/-- assignment `*self.get_mut(i, j) = x` (src/matrix.rs 101-103) -/
def set (A : Mat) (i j : Nat) (x : Ratio) : M Mat := do
  let r ← idx A.data i
  let _ ← idx r j
  pure { A with data := A.data.set i (r.set j x) }

/-- update of `*self.get_mut(i, j)` by a mutating method `f` (src/matrix.rs 101-103) -/
def modify (A : Mat) (i j : Nat) (f : Ratio → M Ratio) : M Mat := do
  let x ← get A i j
  let y ← f x
  set A i j y

/-- src/matrix.rs 79-87 -/
def identity (n : Nat) : M Mat := do
  let A ← zeros n n
  (List.range n).foldlM (fun A i => A.set i i Ratio.one) A

/-- src/matrix.rs 89-91 -/
def is_square (A : Mat) : Bool := A.cols == A.rows

/-- src/matrix.rs 106-130 -/
def add (A B : Mat) : M (Except MatErr Mat) :=
  if (A.cols, A.rows) ≠ (B.cols, B.rows) then
    pure (.error (.wrongDimension (A.cols, A.rows) (B.cols, B.rows)))
  else do
    let d ← A.data.zipIdx.mapM (fun p => p.1.zipIdx.mapM (fun q => do
      let y ← B.get p.2 q.2
      q.1.add y))
    pure (.ok (from_raw d A.cols A.rows))

/-- src/matrix.rs 132-147; the new value of `self` is returned -/
def add_mut (A B : Mat) : M (Except MatErr Mat) :=
  if (A.cols, A.rows) ≠ (B.cols, B.rows) then
    pure (.error (.wrongDimension (A.cols, A.rows) (B.cols, B.rows)))
  else do
    let R ← (List.range A.rows).foldlM (fun R i =>
      (List.range A.cols).foldlM (fun R j =>
        R.modify i j (fun x => do let y ← B.get i j; x.add_mut y)) R) A
    pure (.ok R)

/-- src/matrix.rs 150-169 (with `k` already converted) -/
def mul_k (A : Mat) (k : Ratio) : M Mat := do
  let d ← A.data.mapM (fun row => row.mapM (fun n => n.mul k))
  pure (from_raw d A.cols A.rows)

/-- src/matrix.rs 171-179 (with `k` already converted) -/
def mul_k_mut (A : Mat) (k : Ratio) : M Mat :=
  (List.range A.rows).foldlM (fun R i =>
    (List.range A.cols).foldlM (fun R j => R.modify i j (fun x => x.mul_mut k)) R) A

/-- src/matrix.rs 182-201 -/
def mul (A B : Mat) : M (Except MatErr Mat) :=
  if A.cols ≠ B.rows then
    pure (.error (.wrongDimension (B.cols, A.cols) (B.cols, B.rows)))
  else do
    let Z ← zeros B.cols A.rows
    let R ← (List.range A.rows).foldlM (fun R i =>
      (List.range B.cols).foldlM (fun R j =>
        (List.range A.cols).foldlM (fun R k =>
          R.modify i j (fun r => do
            let x ← A.get i k
            let y ← B.get k j
            let t ← x.mul y
            r.add_mut t)) R) R) Z
    pure (.ok R)

/-- src/matrix.rs 204-213 -/
def transpose (A : Mat) : M Mat := do
  let d ← (List.range A.cols).mapM (fun i => (List.range A.rows).mapM (fun j => A.get j i))
  pure (from_raw d A.rows A.cols)

/-- src/matrix.rs 215-218 -/
def transpose_mut (A : Mat) : M Mat := transpose A

/-! ## determinant -/

/-- `determinant_hack!(a, b, c, d)` (src/matrix/det.rs 15-17) -/
def hack2 (a b c d : Ratio) : M Ratio := do
  let ad ← a.mul d
  let bc ← b.mul c
  ad.sub bc

/-- `determinant_hack!(-, a, b, c, d)` (src/matrix/det.rs 20-22) -/
def hack2n (a b c d : Ratio) : M Ratio := do
  let bc ← b.mul c
  let ad ← a.mul d
  bc.sub ad

/-- `$x.mul(&$y.mul($z))` -/
def mul3 (x y z : Ratio) : M Ratio := do
  let t ← y.mul z
  x.mul t

/-- `determinant_hack!(a, b, c, d, e, f, g, h, i)` (src/matrix/det.rs 25-37) -/
def hack3 (a b c d e f g h i : Ratio) : M Ratio := do
  let r ← mul3 a e i
  let t ← mul3 b f g
  let r ← r.add t
  let t ← mul3 c d h
  let r ← r.add t
  let t ← mul3 c e g
  let r ← r.sub t
  let t ← mul3 b d i
  let r ← r.sub t
  let t ← mul3 a f h
  r.sub t

/-- `determinant_hack!(-, a, b, c, d, e, f, g, h, i)` (src/matrix/det.rs 40-52) -/
def hack3n (a b c d e f g h i : Ratio) : M Ratio := do
  let r ← mul3 c e g
  let t ← mul3 b d i
  let r ← r.add t
  let t ← mul3 a f h
  let r ← r.add t
  let t ← mul3 a e i
  let r ← r.sub t
  let t ← mul3 b f g
  let r ← r.sub t
  let t ← mul3 c d h
  r.sub t

/-- src/matrix/det.rs 91-98 -/
def determinant_2_by_2 (A : Mat) : M Ratio := do
  let a ← A.get 0 0
  let b ← A.get 0 1
  let c ← A.get 1 0
  let d ← A.get 1 1
  hack2 a b c d

/-- src/matrix/det.rs 101-113 -/
def determinant_3_by_3 (A : Mat) : M Ratio := do
  let a ← A.get 0 0
  let b ← A.get 0 1
  let c ← A.get 0 2
  let d ← A.get 1 0
  let e ← A.get 1 1
  let f ← A.get 1 2
  let g ← A.get 2 0
  let h ← A.get 2 1
  let i ← A.get 2 2
  hack3 a b c d e f g h i

/-- src/matrix/det.rs 116-157 -/
def determinant_4_by_4 (A : Mat) : M Ratio := do
  let a00 ← A.get 0 0
  let a01 ← A.get 0 1
  let a02 ← A.get 0 2
  let a03 ← A.get 0 3
  let a10 ← A.get 1 0
  let a11 ← A.get 1 1
  let a12 ← A.get 1 2
  let a13 ← A.get 1 3
  let a20 ← A.get 2 0
  let a21 ← A.get 2 1
  let a22 ← A.get 2 2
  let a23 ← A.get 2 3
  let a30 ← A.get 3 0
  let a31 ← A.get 3 1
  let a32 ← A.get 3 2
  let a33 ← A.get 3 3
  let result ← hack3 a11 a12 a13 a21 a22 a23 a31 a32 a33
  let result ← result.mul_mut a00
  let d ← hack3n a10 a12 a13 a20 a22 a23 a30 a32 a33
  let d ← d.mul_mut a01
  let result ← result.add_mut d
  let d ← hack3 a10 a11 a13 a20 a21 a23 a30 a31 a33
  let d ← d.mul_mut a02
  let result ← result.add_mut d
  let d ← hack3n a10 a11 a12 a20 a21 a22 a30 a31 a32
  let d ← d.mul_mut a03
  result.add_mut d

/-- the submatrix built by `minor` (src/matrix/utils.rs 17-25) -/
def subMat (A : Mat) (i j : Nat) : M Mat := do
  let r ← uSub A.rows 1
  let c ← uSub A.cols 1
  let Z ← zeros r c
  let rows := List.range i ++ List.range' (i + 1) (A.rows - (i + 1))
  let cols := List.range j ++ List.range' (j + 1) (A.cols - (j + 1))
  rows.zipIdx.foldlM (fun R p =>
    cols.zipIdx.foldlM (fun R q => do
      let x ← A.get p.1 q.1
      R.set p.2 q.2 x) R) Z

mutual
/-- src/matrix/det.rs 56-88 -/
def determinant (A : Mat) : M (Except MatErr Ratio) :=
  if !A.is_square then pure (.error (.notSquare A.cols A.rows))
  else
    if A.cols < 5 then
      if A.cols < 3 then
        if A.cols = 0 then pure (.error .emptyMatrix)
        else if A.cols = 1 then do let x ← A.get 0 0; pure (.ok x)
        else do let x ← A.determinant_2_by_2; pure (.ok x)
      else
        if A.cols = 3 then do let x ← A.determinant_3_by_3; pure (.ok x)
        else do let x ← A.determinant_4_by_4; pure (.ok x)
    else do
      let r ← (List.range A.cols).foldlM (fun acc j => do
        let x ← A.get 0 j
        let c ← cofactor A 0 j
        let t ← x.mul c
        acc.add_mut t) Ratio.zero
      pure (.ok r)
partial_fixpoint
/-- src/matrix/utils.rs 5-13 -/
def cofactor (A : Mat) (i j : Nat) : M Ratio := do
  let c ← minor A i j
  if (i + j) % 2 = 1 then pure c.negate_mut else pure c
partial_fixpoint
/-- src/matrix/utils.rs 16-30 -/
def minor (A : Mat) (i j : Nat) : M Ratio := do
  let R ← subMat A i j
  let d ← determinant R
  unwrapR d
partial_fixpoint
end

/-! ## inverse -/

/-- src/matrix/inv.rs 26-33 -/
def adjugate_2_by_2 (A : Mat) : M Mat := do
  let d ← A.get 1 1
  let b ← A.get 0 1
  let c ← A.get 1 0
  let a ← A.get 0 0
  pure (from_raw [[d, b.negate], [c.negate, a]] 2 2)

/-- src/matrix/inv.rs 46-67 -/
def adjugate_3_by_3 (A : Mat) : M Mat := do
  let a00 ← A.get 0 0
  let a01 ← A.get 0 1
  let a02 ← A.get 0 2
  let a10 ← A.get 1 0
  let a11 ← A.get 1 1
  let a12 ← A.get 1 2
  let a20 ← A.get 2 0
  let a21 ← A.get 2 1
  let a22 ← A.get 2 2
  let b00 ← hack2 a11 a12 a21 a22
  let b01 ← hack2n a01 a02 a21 a22
  let b02 ← hack2 a01 a02 a11 a12
  let b10 ← hack2n a10 a12 a20 a22
  let b11 ← hack2 a00 a02 a20 a22
  let b12 ← hack2n a00 a02 a10 a12
  let b20 ← hack2 a10 a11 a20 a21
  let b21 ← hack2n a00 a01 a20 a21
  let b22 ← hack2 a00 a01 a10 a11
  pure (from_raw [[b00, b01, b02], [b10, b11, b12], [b20, b21, b22]] 3 3)

/-- src/matrix/inv.rs 69-119 -/
def adjugate_4_by_4 (A : Mat) : M Mat := do
  let a00 ← A.get 0 0
  let a01 ← A.get 0 1
  let a02 ← A.get 0 2
  let a03 ← A.get 0 3
  let a10 ← A.get 1 0
  let a11 ← A.get 1 1
  let a12 ← A.get 1 2
  let a13 ← A.get 1 3
  let a20 ← A.get 2 0
  let a21 ← A.get 2 1
  let a22 ← A.get 2 2
  let a23 ← A.get 2 3
  let a30 ← A.get 3 0
  let a31 ← A.get 3 1
  let a32 ← A.get 3 2
  let a33 ← A.get 3 3
  let b00 ← hack3 a11 a12 a13 a21 a22 a23 a31 a32 a33
  let b01 ← hack3n a01 a02 a03 a21 a22 a23 a31 a32 a33
  let b02 ← hack3 a01 a02 a03 a11 a12 a13 a31 a32 a33
  let b03 ← hack3n a01 a02 a03 a11 a12 a13 a21 a22 a23
  let b10 ← hack3n a10 a12 a13 a20 a22 a23 a30 a32 a33
  let b11 ← hack3 a00 a02 a03 a20 a22 a23 a30 a32 a33
  let b12 ← hack3n a00 a02 a03 a10 a12 a13 a30 a32 a33
  let b13 ← hack3 a00 a02 a03 a10 a12 a13 a20 a22 a23
  let b20 ← hack3 a10 a11 a13 a20 a21 a23 a30 a31 a33
  let b21 ← hack3n a00 a01 a03 a20 a21 a23 a30 a31 a33
  let b22 ← hack3 a00 a01 a03 a10 a11 a13 a30 a31 a33
  let b23 ← hack3n a00 a01 a03 a10 a11 a13 a20 a21 a23
  let b30 ← hack3n a10 a11 a12 a20 a21 a22 a30 a31 a32
  let b31 ← hack3 a00 a01 a02 a20 a21 a22 a30 a31 a32
  let b32 ← hack3n a00 a01 a02 a10 a11 a12 a30 a31 a32
  let b33 ← hack3 a00 a01 a02 a10 a11 a12 a20 a21 a22
  pure (from_raw [[b00, b01, b02, b03], [b10, b11, b12, b13], [b20, b21, b22, b23],
    [b30, b31, b32, b33]] 4 4)

/-- src/matrix/inv.rs 16-42 -/
def adjugate (A : Mat) : M Mat :=
  if A.cols < 5 then
    if A.cols < 2 then pure A
    else if A.cols = 2 then adjugate_2_by_2 A
    else if A.cols = 3 then adjugate_3_by_3 A
    else adjugate_4_by_4 A
  else generate A.cols A.rows (fun i j => cofactor A j i)

/-- src/matrix/inv.rs 4-14 -/
def inverse (A : Mat) : M (Except MatErr Mat) := do
  let det ← determinant A
  match det with
  | .error e => pure (.error e)
  | .ok det =>
    if det.is_zero then pure (.error .zeroDeterminant)
    else do
      let R ← adjugate A
      let k ← det.reci
      let R ← mul_k_mut R k
      pure (.ok R)

end Mat
end Hmath
