import Verif.Proofs.Matrix

/-!
# Matrices (C34, C35, C36)

`B.det`, `B⁻¹`, `B * C` are Mathlib's determinant (the Leibniz sum, `Matrix.det_apply`), inverse
and product; `IsMat A B` says that the Rust value `A` denotes the mathematical matrix `B`.
-/

namespace Hmath
namespace Props
open Mat

/-- the integer `n` as a `Ratio` -/
def rn (n : Nat) (neg : Bool := false) : Ratio := ⟨⟨[1], false⟩, ⟨[n], neg⟩⟩

/-- `[[1, 2], [3, 4]]` -/
def exA : Mat := ⟨[[rn 1, rn 2], [rn 3, rn 4]], 2, 2⟩
/-- a 5 × 5 matrix -/
def exC : Mat := ⟨[[rn 1, rn 0, rn 0, rn 0, rn 7], [rn 3, rn 4, rn 5, rn 6, rn 7],
  [rn 1, rn 2, rn 9, rn 4, rn 5], [rn 1 true, rn 2, rn 3, rn 4, rn 0], [rn 1, rn 2, rn 3, rn 4, rn 8]], 5, 5⟩
/-- a 2 × 3 matrix -/
def exB : Mat := ⟨[[rn 1, rn 2, rn 3], [rn 4, rn 5, rn 6]], 3, 2⟩

/-- every well-formed matrix denotes the matrix of its entries -/
theorem isMat_self {A : Mat} (h : MValid A) :
    IsMat A (fun (i : Fin A.rows) (j : Fin A.cols) => entry A i j) :=
  ⟨h, rfl, rfl, fun _ _ => rfl⟩

theorem exA_isMat : IsMat exA !![1, 2; 3, 4] := by
  refine ⟨by decide, rfl, rfl, ?_⟩
  intro i j
  fin_cases i <;> fin_cases j <;> decide +kernel

theorem exB_isMat : IsMat exB !![1, 2, 3; 4, 5, 6] := by
  refine ⟨by decide, rfl, rfl, ?_⟩
  intro i j
  fin_cases i <;> fin_cases j <;> decide +kernel

/-! ## C34 determinant -/

theorem C34_determinant {n : Nat} (hn : 1 ≤ n) {A : Mat} {B : Matrix (Fin n) (Fin n) ℚ}
    (h : IsMat A B) : ∃ d, determinant A = pure (.ok d) ∧ RValid d ∧ rval d = B.det := by
  obtain ⟨e1, e2⟩ := isMat_eq h
  rw [e1, e2]
  exact ⟨_, determinant_c n hn _, rvalid_ofRat _, rval_ofRat _⟩

example : ∃ d, determinant exA = pure (.ok d) ∧ RValid d ∧ rval d = -2 := by
  obtain ⟨d, h1, h2, h3⟩ := C34_determinant (by decide) exA_isMat
  refine ⟨d, h1, h2, ?_⟩
  rw [h3, Matrix.det_fin_two]
  norm_num

example : ∃ d, determinant exC = pure (.ok d) ∧ RValid d ∧
    rval d = Matrix.det (fun (i : Fin 5) (j : Fin 5) => entry exC i j) :=
  C34_determinant (by decide) (isMat_self (A := exC) (by decide))

theorem C34_determinant_empty {A : Mat} (hA : MValid A) (hr : A.rows = 0) (hc : A.cols = 0) :
    determinant A = pure (.error .emptyMatrix) := by
  have := eq_ofFun hA
  rw [hr, hc] at this
  rw [this]
  exact determinant_empty

example : determinant ⟨[], 0, 0⟩ = pure (.error .emptyMatrix) := C34_determinant_empty (by decide) rfl rfl

theorem C34_determinant_not_square {A : Mat} (hA : MValid A) (h : A.rows ≠ A.cols) :
    determinant A = pure (.error (.notSquare A.cols A.rows)) := by
  rw [eq_ofFun hA]
  exact determinant_nonsquare h

example : determinant exB = pure (.error (.notSquare 3 2)) :=
  C34_determinant_not_square (by decide) (by decide)

/-! ## C35 inverse

The claim is false for 1 × 1 matrices: `adjugate` returns the matrix itself there, so the inverse
of `[[a]]` comes out as `[[1]]`. -/

/-- Full statement: for every `n ≥ 1`.  Missing: `n = 1`, where it is false
(`C35_one_by_one_counterexample`). -/
theorem C35_inverse_partial {n : Nat} (hn : 2 ≤ n) {A : Mat} {B : Matrix (Fin n) (Fin n) ℚ}
    (h : IsMat A B) (hd : B.det ≠ 0) :
    ∃ (C : Mat) (D : Matrix (Fin n) (Fin n) ℚ), inverse A = pure (.ok C) ∧ IsMat C D ∧
      B * D = 1 ∧ D * B = 1 := by
  obtain ⟨e1, e2⟩ := isMat_eq h
  rw [e2] at hd
  have hu : IsUnit (mat (entry A) n n).det := isUnit_iff_ne_zero.2 hd
  refine ⟨_, (mat (entry A) n n)⁻¹, by rw [e1]; exact inverse_c hn hd, ?_, ?_, ?_⟩
  · have := isMat_ofFun (F := ext0 (mat (entry A) n n)⁻¹) (r := n) (c := n)
    rwa [mat_ext0] at this
  · rw [e2]; exact Matrix.mul_nonsing_inv _ hu
  · rw [e2]; exact Matrix.nonsing_inv_mul _ hu

example : ∃ (C : Mat) (D : Matrix (Fin 2) (Fin 2) ℚ), inverse exA = pure (.ok C) ∧ IsMat C D ∧
    !![1, 2; 3, 4] * D = 1 ∧ D * !![1, 2; 3, 4] = 1 :=
  C35_inverse_partial (by decide) exA_isMat (by rw [Matrix.det_fin_two]; norm_num)

/-- singular matrices of every size are reported -/
theorem C35_inverse_singular {n : Nat} (hn : 1 ≤ n) {A : Mat} {B : Matrix (Fin n) (Fin n) ℚ}
    (h : IsMat A B) (hd : B.det = 0) : inverse A = pure (.error .zeroDeterminant) := by
  obtain ⟨e1, e2⟩ := isMat_eq h
  rw [e2] at hd
  rw [e1]
  exact inverse_zero hn hd

example : inverse ⟨[[rn 1, rn 2], [rn 2, rn 4]], 2, 2⟩ = pure (.error .zeroDeterminant) := by
  refine C35_inverse_singular (B := !![1, 2; 2, 4]) (by decide) ⟨by decide, rfl, rfl, ?_⟩ ?_
  · intro i j
    fin_cases i <;> fin_cases j <;> decide +kernel
  · rw [Matrix.det_fin_two]; norm_num

theorem C35_inverse_error {A : Mat} (hA : MValid A) (h : A.rows ≠ A.cols ∨ A.rows = 0) :
    ∃ e, inverse A = pure (.error e) := by
  by_cases hs : A.rows = A.cols
  · refine ⟨.emptyMatrix, ?_⟩
    rw [inverse, C34_determinant_empty hA (by omega) (by omega)]
    rfl
  · refine ⟨.notSquare A.cols A.rows, ?_⟩
    rw [inverse, C34_determinant_not_square hA hs]
    rfl

example : ∃ e, inverse exB = pure (.error e) := C35_inverse_error (by decide) (Or.inl (by decide))

/-- the inverse of every invertible 1 × 1 matrix `[[a]]` is given as `[[1]]` -/
theorem C35_one_by_one {A : Mat} {B : Matrix (Fin 1) (Fin 1) ℚ} (h : IsMat A B) (ha : B 0 0 ≠ 0) :
    ∃ C : Mat, inverse A = pure (.ok C) ∧ IsMat C (1 : Matrix (Fin 1) (Fin 1) ℚ) := by
  obtain ⟨e1, e2⟩ := isMat_eq h
  rw [e2] at ha
  refine ⟨_, by rw [e1]; exact inverse_one ha, ?_⟩
  have := isMat_ofFun (F := fun _ _ => 1) (r := 1) (c := 1)
  have e : mat (fun _ _ => 1) 1 1 = (1 : Matrix (Fin 1) (Fin 1) ℚ) := by
    ext i j
    rw [Subsingleton.elim i j, Matrix.one_apply_eq]
    rfl
  rwa [e] at this

/-- The inverse of the matrix (5) comes out as (1). -/
example : ∃ C : Mat, inverse ⟨[[rn 5]], 1, 1⟩ = pure (.ok C) ∧ IsMat C (1 : Matrix (Fin 1) (Fin 1) ℚ) := by
  refine C35_one_by_one (B := !![5]) ⟨by decide, rfl, rfl, ?_⟩ (by norm_num)
  intro i j
  fin_cases i
  fin_cases j
  decide +kernel

/-- hence the claim fails for the invertible matrix `[[2]]` -/
theorem C35_one_by_one_counterexample :
    ¬ ∀ {n : Nat} (_ : 1 ≤ n) {A : Mat} {B : Matrix (Fin n) (Fin n) ℚ}, IsMat A B → B.det ≠ 0 →
      ∃ (C : Mat) (D : Matrix (Fin n) (Fin n) ℚ), inverse A = pure (.ok C) ∧ IsMat C D ∧
        B * D = 1 := by
  intro H
  have h2 : IsMat ⟨[[rn 2]], 1, 1⟩ !![2] := by
    refine ⟨by decide, rfl, rfl, ?_⟩
    intro i j
    fin_cases i; fin_cases j; decide +kernel
  obtain ⟨C, D, h3, h4, h5⟩ := H (le_refl 1) h2 (by rw [Matrix.det_fin_one]; norm_num)
  obtain ⟨C', h6, h7⟩ := C35_one_by_one h2 (by norm_num)
  rw [h6] at h3
  have hC : C' = C := by
    have := pure_inj'.1 h3
    injection this
  subst hC
  have hD : D = 1 := by
    ext i j
    rw [← h4.val i j, h7.val i j]
  rw [hD, Matrix.mul_one] at h5
  have := congrFun (congrFun h5 0) 0
  norm_num at this

/-! ## C36 matrix algebra -/

variable {r c m : Nat} {A A' A'' : Mat}

theorem computesMat_ofFun {F : Nat → Nat → ℚ} {B : Matrix (Fin r) (Fin c) ℚ}
    (h : ∀ (i : Fin r) (j : Fin c), F i j = B i j) : IsMat (ofFun F r c) B := by
  have := isMat_ofFun (F := F) (r := r) (c := c)
  have e : mat F r c = B := by ext i j; exact h i j
  rwa [e] at this

theorem C36_add {B C : Matrix (Fin r) (Fin c) ℚ} (h : IsMat A B) (h' : IsMat A' C) :
    ComputesMat (add A A') (B + C) := by
  refine ⟨_, by rw [(isMat_eq h).1, (isMat_eq h').1]; exact add_c, computesMat_ofFun fun i j => ?_⟩
  rw [h.val, h'.val, Matrix.add_apply]

theorem C36_add_mut {B C : Matrix (Fin r) (Fin c) ℚ} (h : IsMat A B) (h' : IsMat A' C) :
    ComputesMat (add_mut A A') (B + C) := by
  refine ⟨_, by rw [(isMat_eq h).1, (isMat_eq h').1]; exact add_mut_c,
    computesMat_ofFun fun i j => ?_⟩
  rw [h.val, h'.val, Matrix.add_apply]

example : ComputesMat (add exB exB) (!![1, 2, 3; 4, 5, 6] + !![1, 2, 3; 4, 5, 6]) :=
  C36_add exB_isMat exB_isMat

theorem C36_add_error (h : (A.cols, A.rows) ≠ (A'.cols, A'.rows)) :
    add A A' = pure (.error (.wrongDimension (A.cols, A.rows) (A'.cols, A'.rows))) ∧
    add_mut A A' = pure (.error (.wrongDimension (A.cols, A.rows) (A'.cols, A'.rows))) :=
  ⟨if_pos h, if_pos h⟩

example : add exA exB = pure (.error (.wrongDimension (2, 2) (3, 2))) := (C36_add_error (A := exA) (A' := exB) (by decide)).1

theorem C36_mul_k {B : Matrix (Fin r) (Fin c) ℚ} (h : IsMat A B) {k : Ratio} (hk : RValid k) :
    ComputesMat' (mul_k A k) (rval k • B) ∧ ComputesMat' (mul_k_mut A k) (rval k • B) := by
  have hv : IsMat (ofFun (fun i j => entry A i j * rval k) r c) (rval k • B) :=
    computesMat_ofFun fun i j => by
      rw [h.val, Matrix.smul_apply, smul_eq_mul, mul_comm]
  constructor
  · refine ⟨_, ?_, hv⟩
    rw [(isMat_eq h).1, hk.eq_ofRat, mul_k_c, rval_ofRat, ← (isMat_eq h).1]
  · refine ⟨_, ?_, hv⟩
    rw [(isMat_eq h).1, hk.eq_ofRat, mul_k_mut_c, rval_ofRat, ← (isMat_eq h).1]

example : ComputesMat' (mul_k_mut exB (rn 7 true)) (rval (rn 7 true) • !![1, 2, 3; 4, 5, 6]) :=
  (C36_mul_k exB_isMat (by decide)).2

theorem C36_mul {B : Matrix (Fin r) (Fin m) ℚ} {C : Matrix (Fin m) (Fin c) ℚ} (h : IsMat A B)
    (h' : IsMat A' C) : ComputesMat (mul A A') (B * C) := by
  refine ⟨_, by rw [(isMat_eq h).1, (isMat_eq h').1]; exact mul_c, computesMat_ofFun fun i j => ?_⟩
  rw [Matrix.mul_apply, Finset.sum_range]
  exact Finset.sum_congr rfl fun k _ => by rw [h.val, h'.val]

example : ComputesMat (mul exA exB) !![9, 12, 15; 19, 26, 33] := by
  have := C36_mul exA_isMat exB_isMat
  have e : (!![1, 2; 3, 4] : Matrix (Fin 2) (Fin 2) ℚ) * (!![1, 2, 3; 4, 5, 6] : Matrix (Fin 2) (Fin 3) ℚ)
      = !![9, 12, 15; 19, 26, 33] := by
    ext i j
    fin_cases i <;> fin_cases j <;> norm_num [Matrix.mul_apply, Fin.sum_univ_succ]
  rwa [e] at this

theorem C36_mul_error (h : A.cols ≠ A'.rows) :
    mul A A' = pure (.error (.wrongDimension (A'.cols, A.cols) (A'.cols, A'.rows))) := if_pos h

example : mul exB exA = pure (.error (.wrongDimension (2, 3) (2, 2))) := C36_mul_error (A := exB) (A' := exA) (by decide)

theorem C36_transpose {B : Matrix (Fin r) (Fin c) ℚ} (h : IsMat A B) :
    ComputesMat' (transpose A) B.transpose ∧ ComputesMat' (transpose_mut A) B.transpose := by
  have : ComputesMat' (transpose A) B.transpose := by
    refine ⟨_, by rw [(isMat_eq h).1]; exact transpose_c, computesMat_ofFun fun i j => ?_⟩
    rw [h.val, Matrix.transpose_apply]
  exact ⟨this, this⟩

example : ComputesMat' (transpose exB) (!![1, 2, 3; 4, 5, 6] : Matrix (Fin 2) (Fin 3) ℚ).transpose := (C36_transpose exB_isMat).1

theorem C36_zeros : ComputesMat' (zeros c r) (0 : Matrix (Fin r) (Fin c) ℚ) :=
  ⟨_, zeros_c, computesMat_ofFun fun _ _ => rfl⟩

theorem C36_identity (n : Nat) : ComputesMat' (identity n) (1 : Matrix (Fin n) (Fin n) ℚ) :=
  ⟨_, identity_c n, computesMat_ofFun fun i j => by
    rw [Matrix.one_apply]
    simp only [Fin.ext_iff]⟩

theorem C36_generate {f : Nat → Nat → M Ratio} {B : Matrix (Fin r) (Fin c) ℚ}
    (h : ∀ (i : Fin r) (j : Fin c), ComputesR (f i j) (B i j)) :
    ComputesMat' (generate c r f) B := by
  refine ⟨_, generate_c (F := ext0 B) ?_, ?_⟩
  · intro i hi j hj
    obtain ⟨x, h1, h2, h3⟩ := h ⟨i, hi⟩ ⟨j, hj⟩
    rw [ext0, dif_pos ⟨hi, hj⟩, ← h3, ← h2.eq_ofRat]
    exact h1
  · have := isMat_ofFun (F := ext0 B) (r := r) (c := c)
    rwa [mat_ext0] at this

example : ComputesMat' (generate 2 3 fun i j => pure (ofRat (i + 10 * j))) (fun (i : Fin 3) (j : Fin 2) => ((i : ℕ) + 10 * (j : ℕ) : ℚ)) :=
  C36_generate fun _ _ => ⟨_, rfl, rvalid_ofRat _, rval_ofRat _⟩

/-- `from_vec` accepts exactly the rectangular vectors -/
theorem C36_from_vec {data : List (List Ratio)} (h : ∀ row ∈ data, ∀ x ∈ row, RValid x) :
    (∀ A, from_vec data = .ok A → MValid A ∧ A.data = data) ∧
    ((∃ A, from_vec data = .ok A) ↔ ∃ c, ∀ row ∈ data, row.length = c) ∧
    ((¬ ∃ c, ∀ row ∈ data, row.length = c) → from_vec data = .error .inconsistentRow) := by
  cases data with
  | nil =>
    refine ⟨?_, ⟨fun _ => ⟨0, by simp⟩, fun _ => ⟨_, rfl⟩⟩, fun h => absurd ⟨0, by simp⟩ h⟩
    intro A hA
    have : A = empty := by injection hA with hA; exact hA.symm
    rw [this]
    exact ⟨by decide, rfl⟩
  | cons row l =>
    by_cases hall : ((row :: l).all fun r => decide (r.length = row.length)) = true
    · have e : from_vec (row :: l) = .ok ⟨row :: l, row.length, (row :: l).length⟩ := if_pos hall
      have hlen : ∀ r ∈ row :: l, r.length = row.length := by
        intro r hr
        have := List.all_eq_true.1 hall r hr
        simpa using this
      refine ⟨?_, ⟨fun _ => ⟨_, hlen⟩, fun _ => ⟨_, e⟩⟩, fun h => absurd ⟨_, hlen⟩ h⟩
      intro A hA
      rw [e] at hA
      injection hA with hA
      subst hA
      exact ⟨⟨rfl, hlen, h⟩, rfl⟩
    · have e : from_vec (row :: l) = .error .inconsistentRow := if_neg hall
      have hno : ¬ ∃ c, ∀ r ∈ row :: l, r.length = c := by
        rintro ⟨c, hc⟩
        apply hall
        rw [List.all_eq_true]
        intro r hr
        simp [hc r hr, hc row (by simp)]
      refine ⟨?_, ⟨?_, fun h => absurd h hno⟩, fun _ => e⟩
      · intro A hA; rw [e] at hA; cases hA
      · rintro ⟨A, hA⟩; rw [e] at hA; cases hA

example : from_vec [[rn 1, rn 2], [rn 3]] = .error .inconsistentRow := by
  refine (C36_from_vec (by decide)).2.2 ?_
  rintro ⟨c, hc⟩
  have h1 := hc [rn 1, rn 2] (by simp)
  have h2 := hc [rn 3] (by simp)
  simp at h1 h2
  omega

/-! Laws between calls of the code; `mulM x y` runs `mul` on two results. -/

/-- run `mul` on the results of two calls, unwrapping them -/
def mulM (x y : M (Except MatErr Mat)) : M (Except MatErr Mat) := do
  let a ← x
  let a ← unwrapR a
  let b ← y
  let b ← unwrapR b
  mul a b

/-- run `transpose` on the result of a call -/
def transM (x : M (Except MatErr Mat)) : M (Except MatErr Mat) := do
  let a ← x
  let a ← unwrapR a
  let t ← transpose a
  pure (.ok t)

/-- wrap a value as a call result -/
def okM (A : Mat) : M (Except MatErr Mat) := pure (.ok A)

theorem mulM_ok (A B : Mat) : mulM (okM A) (okM B) = mul A B := by
  simp only [mulM, okM, pure_bind, unwrapR_ok]

theorem C36_mul_assoc {q : Nat} {B : Matrix (Fin r) (Fin m) ℚ} {C : Matrix (Fin m) (Fin c) ℚ}
    {D : Matrix (Fin c) (Fin q) ℚ} (h : IsMat A B) (h' : IsMat A' C) (h'' : IsMat A'' D) :
    mulM (mul A A') (okM A'') = mulM (okM A) (mul A' A'') ∧
      Returns (mulM (mul A A') (okM A'')) := by
  obtain ⟨x, e1, hx⟩ := C36_mul h h'
  obtain ⟨y, e2, hy⟩ := C36_mul h' h''
  obtain ⟨z, e3, hz⟩ := C36_mul hx h''
  obtain ⟨w, e4, hw⟩ := C36_mul h hy
  have e5 : mulM (mul A A') (okM A'') = pure (.ok z) := by
    rw [e1]; exact (mulM_ok _ _).trans e3
  have e6 : mulM (okM A) (mul A' A'') = pure (.ok w) := by
    rw [e2]; exact (mulM_ok _ _).trans e4
  rw [e5, e6]
  rw [Matrix.mul_assoc] at hz
  rw [isMat_unique hz hw]
  exact ⟨rfl, _, rfl⟩

example : mulM (mul exA exA) (okM exB) = mulM (okM exA) (mul exA exB) :=
  (C36_mul_assoc exA_isMat exA_isMat exB_isMat).1

theorem C36_identity_neutral {B : Matrix (Fin r) (Fin c) ℚ} (h : IsMat A B) :
    (do let I ← identity r; mul I A) = okM A ∧ (do let I ← identity c; mul A I) = okM A := by
  obtain ⟨I, e1, h1⟩ := C36_identity r
  obtain ⟨J, e2, h2⟩ := C36_identity c
  obtain ⟨x, e3, hx⟩ := C36_mul h1 h
  obtain ⟨y, e4, hy⟩ := C36_mul h h2
  rw [Matrix.one_mul] at hx
  rw [Matrix.mul_one] at hy
  rw [e1, e2, pure_bind, pure_bind, e3, e4, isMat_unique hx h, isMat_unique hy h]
  exact ⟨rfl, rfl⟩

example : (do let I ← identity 2; mul I exB) = okM exB := (C36_identity_neutral exB_isMat).1

theorem C36_transpose_involution {B : Matrix (Fin r) (Fin c) ℚ} (h : IsMat A B) :
    (do let T ← transpose A; transpose T) = pure A := by
  obtain ⟨T, e1, h1⟩ := (C36_transpose h).1
  obtain ⟨U, e2, h2⟩ := (C36_transpose h1).1
  rw [e1, pure_bind, e2]
  rw [Matrix.transpose_transpose] at h2
  rw [isMat_unique h2 h]

example : (do let T ← transpose exB; transpose T) = pure exB := C36_transpose_involution exB_isMat

theorem C36_transpose_mul {B : Matrix (Fin r) (Fin m) ℚ} {C : Matrix (Fin m) (Fin c) ℚ}
    (h : IsMat A B) (h' : IsMat A' C) :
    transM (mul A A') = mulM (transM (okM A')) (transM (okM A)) ∧
      Returns (transM (mul A A')) := by
  obtain ⟨x, e1, hx⟩ := C36_mul h h'
  obtain ⟨t, e2, ht⟩ := (C36_transpose hx).1
  obtain ⟨u, e3, hu⟩ := (C36_transpose h).1
  obtain ⟨v, e4, hv⟩ := (C36_transpose h').1
  obtain ⟨w, e5, hw⟩ := C36_mul hv hu
  rw [Matrix.transpose_mul] at ht
  have a1 : transM (mul A A') = pure (.ok t) := by
    simp only [transM, e1, pure_bind, unwrapR_ok, e2]
  have a2 : transM (okM A') = okM v := by simp only [transM, okM, pure_bind, unwrapR_ok, e4]
  have a3 : transM (okM A) = okM u := by simp only [transM, okM, pure_bind, unwrapR_ok, e3]
  rw [a1, a2, a3, mulM_ok, e5, isMat_unique ht hw]
  exact ⟨rfl, _, rfl⟩

example : transM (mul exA exB) = mulM (transM (okM exB)) (transM (okM exA)) :=
  (C36_transpose_mul exA_isMat exB_isMat).1

end Props
end Hmath
