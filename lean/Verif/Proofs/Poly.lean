import Mathlib.Algebra.Polynomial.Eval.Defs
import Mathlib.Algebra.Polynomial.Derivative
import Mathlib.LinearAlgebra.Vandermonde
import Mathlib.Tactic.LinearCombination
import Verif.Proofs.Matrix
import Verif.Spec.Poly

/-!
# Polynomials in canonical form
-/

namespace Hmath
namespace Poly
open Ratio Polynomial

/-- the polynomial value with coefficients `L` -/
def ofList (L : List ℚ) : Poly := ⟨L.map ofRat⟩

theorem pvalid_ofList (L : List ℚ) : PValid (ofList L) := by
  intro x hx
  obtain ⟨q, _, rfl⟩ := List.mem_map.1 hx
  exact rvalid_ofRat q

theorem pval_ofList (L : List ℚ) : pval (ofList L) = polyOf L := by
  unfold pval ofList
  rw [List.map_map]
  congr 1
  conv_rhs => rw [← List.map_id L]
  exact List.map_congr_left fun q _ => rval_ofRat q

theorem eq_ofList {p : Poly} (h : PValid p) : p = ofList (p.coeffs.map rval) := by
  obtain ⟨l⟩ := p
  simp only [ofList, List.map_map, Poly.mk.injEq]
  conv_lhs => rw [← List.map_id l]
  exact List.map_congr_left fun x hx => (h x hx).eq_ofRat

/-- drop leading zeros -/
def strip (L : List ℚ) : List ℚ := if L.dropWhile (· = 0) = [] then [0] else L.dropWhile (· = 0)

theorem drop_first (L : List ℚ) :
    (L.map ofRat).drop (firstNonZero (L.map ofRat)) = (L.dropWhile (· = 0)).map ofRat := by
  induction L with
  | nil => rfl
  | cons q L ih =>
    rw [List.map_cons, firstNonZero, is_zero_c]
    by_cases h : q = 0
    · rw [if_pos (by simp [h]), List.drop_succ_cons, ih, List.dropWhile_cons_of_pos (by simp [h])]
    · rw [if_neg (by simp [h]), List.dropWhile_cons_of_neg (by simp [h])]
      rfl

theorem from_vec_c (L : List ℚ) : from_vec (L.map ofRat) = ofList (strip L) := by
  have h1 : (if firstNonZero (L.map ofRat) ≠ 0 then (L.map ofRat).drop (firstNonZero (L.map ofRat))
      else L.map ofRat) = (L.dropWhile (· = 0)).map ofRat := by
    rw [← drop_first]
    split
    · rfl
    · rename_i h
      rw [not_not.1 h, List.drop_zero]
  rw [from_vec]
  simp only [h1]
  unfold strip ofList
  by_cases h : L.dropWhile (· = 0) = []
  · rw [if_pos h, h]
    simp [zero_c]
  · rw [if_neg h, if_neg (by simpa using h)]

theorem polyOf_dropWhile (L : List ℚ) : polyOf (L.dropWhile (· = 0)) = polyOf L := by
  induction L with
  | nil => rfl
  | cons q L ih =>
    by_cases h : q = 0
    · rw [List.dropWhile_cons_of_pos (by simp [h]), ih, polyOf, h]
      simp
    · rw [List.dropWhile_cons_of_neg (by simp [h])]

theorem polyOf_strip (L : List ℚ) : polyOf (strip L) = polyOf L := by
  unfold strip
  split
  · rename_i h
    rw [← polyOf_dropWhile L, h]
    simp [polyOf]
  · exact polyOf_dropWhile L

theorem strip_head (L : List ℚ) (h : 2 ≤ (strip L).length) : ∀ q, (strip L).head? = some q → q ≠ 0 := by
  intro q hq
  unfold strip at h hq
  split at h
  · simp at h
  · rename_i hne
    rw [if_neg hne] at hq
    have := List.head?_dropWhile_not (· = (0 : ℚ)) L
    rw [hq] at this
    simpa using this

theorem pnormal_strip (L : List ℚ) : PNormal (ofList (strip L)) := by
  constructor
  · unfold ofList strip
    split
    · simp
    · rename_i h; simpa using h
  · intro h x hx
    simp only [ofList, List.length_map, List.head?_map] at h hx
    cases hq : (strip L).head? with
    | none => rw [hq] at hx; cases hx
    | some q =>
      rw [hq] at hx
      injection hx with hx
      rw [← hx, rval_ofRat]
      exact strip_head L h q hq

theorem computesP_strip {m : M Poly} {L : List ℚ} (h : m = pure (from_vec (L.map ofRat))) :
    ComputesP m (polyOf L) := by
  rw [from_vec_c] at h
  exact ⟨_, h, pvalid_ofList _, pnormal_strip L, by rw [pval_ofList, polyOf_strip]⟩

/-! ## evaluation -/

theorem horner (x : ℚ) (L : List ℚ) : ∀ a : ℚ,
    L.foldl (fun r c => r * x + c) a = a * x ^ L.length + (polyOf L).eval x := by
  induction L with
  | nil => intro a; simp [polyOf]
  | cons c L ih =>
    intro a
    rw [List.foldl_cons, ih, polyOf, List.length_cons]
    simp
    ring

theorem calc_fold (x : ℚ) (L : List ℚ) : ∀ a : ℚ,
    (L.map ofRat).foldlM (fun (result : Ratio) (coeff : Ratio) => do
      let result ← result.mul_mut (ofRat x)
      result.add_mut coeff) (ofRat a)
    = pure (ofRat (L.foldl (fun r c => r * x + c) a)) := by
  induction L with
  | nil => intro a; rfl
  | cons c L ih =>
    intro a
    rw [List.map_cons, List.foldlM_cons, Ratio.mul_mut_c, pure_bind, Ratio.add_mut_c, pure_bind, ih,
      List.foldl_cons]

theorem calc_c (x : ℚ) (L : List ℚ) :
    calc_at (ofList L) (ofRat x) = pure (ofRat ((polyOf L).eval x)) := by
  rw [calc_at, zero_c]
  show (L.map ofRat).foldlM _ _ = _
  rw [calc_fold, horner]
  simp

/-! ## derivative -/

/-- coefficients multiplied by their exponents -/
def scaled (L : List ℚ) : List ℚ := (L.reverse.zipIdx.reverse).map (fun p => p.1 * (p.2 : ℚ))

theorem rev_zipIdx_cons {α : Type} (c : α) (L : List α) :
    (c :: L).reverse.zipIdx.reverse = (c, L.length) :: L.reverse.zipIdx.reverse := by
  rw [List.reverse_cons, List.zipIdx_append]
  simp

theorem scaled_cons (c : ℚ) (L : List ℚ) : scaled (c :: L) = c * (L.length : ℚ) :: scaled L := by
  rw [scaled, rev_zipIdx_cons]; rfl

theorem scaled_length (L : List ℚ) : (scaled L).length = L.length := by simp [scaled]

theorem polyOf_scaled (L : List ℚ) :
    polyOf (scaled L).dropLast = derivative (polyOf L) := by
  induction L with
  | nil => simp [scaled, polyOf]
  | cons c L ih =>
    rw [scaled_cons]
    cases L with
    | nil => simp [scaled, polyOf]
    | cons d L =>
      have hne : scaled (d :: L) ≠ [] := by rw [scaled_cons]; simp
      rw [List.dropLast_cons_of_ne_nil hne, polyOf, ih, show polyOf (c :: d :: L) = C c * X ^ (d :: L).length + polyOf (d :: L) from rfl, derivative_add,
        List.length_dropLast, scaled_length]
      simp
      ring

theorem asI32_eq {n : Nat} (h : n < 2147483648) : asI32 n = n := by
  unfold asI32; omega

theorem isI32_nat {n : Nat} (h : n < 2147483648) : IsI32 (n : Int) := by unfold IsI32; omega

theorem mul_asI32 (q : ℚ) {n : Nat} (h : n < 2147483648) :
    (ofRat q).mul_i32 (asI32 n) = pure (ofRat (q * (n : ℚ))) := by
  rw [asI32_eq h, mul_i32_c q (isI32_nat h) (by omega), Int.cast_natCast]

theorem mul_asI32_mut (q : ℚ) {n : Nat} (h : n < 2147483648) :
    (ofRat q).mul_i32_mut (asI32 n) = pure (ofRat (q * (n : ℚ))) := by
  rw [asI32_eq h, mul_i32_mut_c q (isI32_nat h) (by omega), Int.cast_natCast]

theorem mem_zipIdx_lt {α : Type} {L : List α} {p : α × Nat} (h : p ∈ L.zipIdx) : p.2 < L.length := by
  have := List.snd_lt_of_mem_zipIdx h
  simpa using this

theorem zipIdx_map' {α β : Type} (f : α → β) (L : List α) :
    (L.map f).zipIdx = L.zipIdx.map (fun p => (f p.1, p.2)) := by
  apply List.ext_getElem
  · simp
  · intro i h1 h2; simp

theorem popZero_c {L : List ℚ} (h : L ≠ []) : ∃ L', popZero (L.map ofRat) = pure (L'.map ofRat) ∧
    polyOf L' = polyOf L.dropLast ∧ (L' = L.dropLast ∨ L' = [0]) ∧ L' ≠ [] := by
  rw [popZero, if_neg (by simpa using h)]
  by_cases hd : L.dropLast = []
  · refine ⟨[0], ?_, by rw [hd]; simp [polyOf], Or.inr rfl, by simp⟩
    rw [← List.map_dropLast, hd]
    simp [zero_c]
  · refine ⟨L.dropLast, ?_, rfl, Or.inl rfl, hd⟩
    have hd' : ((L.map ofRat).dropLast).isEmpty = false := by
      rw [← List.map_dropLast]
      cases hL : L.dropLast with
      | nil => exact absurd hL hd
      | cons x l => rfl
    simp only [hd', Bool.false_eq_true, if_false]
    rw [List.map_dropLast]

theorem mapM_scale {op : Ratio → Nat → M Ratio} {N : Nat}
    (hop : ∀ (q : ℚ) (n : Nat), n < N → op (ofRat q) n = pure (ofRat (q * (n : ℚ))))
    (X : List (ℚ × Nat)) (h : ∀ p ∈ X, p.2 < N) :
    (X.map (fun p => (ofRat p.1, p.2))).mapM (fun q => op q.1 q.2)
      = pure ((X.map (fun p => p.1 * (p.2 : ℚ))).map ofRat) := by
  rw [List.mapM_map, mapM_pure' (g := fun p => ofRat (p.1 * (p.2 : ℚ))), List.map_map]
  · rfl
  · intro p hp
    exact hop p.1 p.2 (h p hp)

theorem differentiate_c {L : List ℚ} (h : L ≠ []) (hl : L.length ≤ 2147483648) :
    ComputesP (differentiate (ofList L)) (derivative (polyOf L)) := by
  have e : (ofList L).coeffs.reverse.zipIdx.reverse
      = (L.reverse.zipIdx.reverse).map (fun p => (ofRat p.1, p.2)) := by
    show (L.map ofRat).reverse.zipIdx.reverse = _
    rw [← List.map_reverse, zipIdx_map', ← List.map_reverse]
  have hm : (ofList L).coeffs.reverse.zipIdx.reverse.mapM (fun q => q.1.mul_i32 (asI32 q.2))
      = pure ((scaled L).map ofRat) := by
    rw [e]
    refine mapM_scale (op := fun r n => r.mul_i32 (asI32 n)) (fun q n hn => mul_asI32 q hn) _ ?_
    intro p hp
    have hp2 := mem_zipIdx_lt (List.mem_reverse.1 hp)
    rw [List.length_reverse] at hp2
    exact lt_of_lt_of_le hp2 hl
  have hs : scaled L ≠ [] := by
    intro h0
    have := scaled_length L
    rw [h0] at this
    exact h (List.length_eq_zero_iff.1 this.symm)
  obtain ⟨L', h1, h2, _, _⟩ := popZero_c hs
  rw [← polyOf_scaled, ← h2]
  refine computesP_strip ?_
  rw [differentiate, hm, pure_bind, h1, pure_bind]

theorem differentiate_mut_c {L : List ℚ} (h : L ≠ []) (hl : L.length ≤ 2147483648) :
    ∃ L', differentiate_mut (ofList L) = pure (ofList L') ∧ polyOf L' = derivative (polyOf L) ∧
      (L' = (scaled L).dropLast ∨ L' = [0]) ∧ L' ≠ [] := by
  have e : (ofList L).coeffs.reverse.zipIdx
      = (L.reverse.zipIdx).map (fun p => (ofRat p.1, p.2)) := by
    show (L.map ofRat).reverse.zipIdx = _
    rw [← List.map_reverse, zipIdx_map']
  have hm : (ofList L).coeffs.reverse.zipIdx.mapM (fun q => q.1.mul_i32_mut (asI32 q.2))
      = pure ((scaled L).reverse.map ofRat) := by
    rw [e, scaled, ← List.map_reverse, List.reverse_reverse]
    refine mapM_scale (op := fun r n => r.mul_i32_mut (asI32 n)) (fun q n hn => mul_asI32_mut q hn) _ ?_
    intro p hp
    have hp2 := mem_zipIdx_lt hp
    rw [List.length_reverse] at hp2
    exact lt_of_lt_of_le hp2 hl
  have hs : scaled L ≠ [] := by
    intro h0
    have := scaled_length L
    rw [h0] at this
    exact h (List.length_eq_zero_iff.1 this.symm)
  obtain ⟨L', h1, h2, h3, h4⟩ := popZero_c hs
  refine ⟨L', ?_, by rw [h2, polyOf_scaled], h3, h4⟩
  rw [differentiate_mut, hm, pure_bind, ← List.map_reverse, List.reverse_reverse, h1, pure_bind]
  rfl

/-! ## scaling -/

theorem polyOf_scale (k : ℚ) (L : List ℚ) : polyOf (L.map (· * k)) = C k * polyOf L := by
  induction L with
  | nil => simp [polyOf]
  | cons c L ih =>
    rw [List.map_cons, polyOf, ih, polyOf, List.length_map, C_mul]
    ring

theorem mul_k_c (k : ℚ) (L : List ℚ) :
    mul_k (ofList L) (ofRat k) = pure (from_vec ((L.map (· * k)).map ofRat)) := by
  rw [mul_k]
  show ((L.map ofRat).mapM _ >>= _) = _
  rw [List.mapM_map, mapM_pure' (g := fun q => ofRat (q * k)), pure_bind, List.map_map]
  · rfl
  · intro q _; exact Ratio.mul_c _ _

theorem mul_k_mut_c (k : ℚ) (hk : k ≠ 0) (L : List ℚ) :
    mul_k_mut (ofList L) (ofRat k) = pure (ofList (L.map (· * k))) := by
  rw [mul_k_mut, is_zero_c, if_neg (by simp [hk])]
  show ((L.map ofRat).mapM _ >>= _) = _
  rw [List.mapM_map, mapM_pure' (g := fun q => ofRat (q * k)), pure_bind, ofList, List.map_map]
  · rfl
  · intro q _; exact Ratio.mul_mut_c _ _

/-! ## interpolation -/

theorem eval_range (n : Nat) (f : Nat → ℚ) (x : ℚ) : ∀ k ≤ n,
    (polyOf ((List.range' (n - k) k).map f)).eval x = ∑ j ∈ Finset.range k, f (n - 1 - j) * x ^ j := by
  intro k
  induction k with
  | zero => intro _; simp [polyOf]
  | succ k ih =>
    intro hk
    rw [List.range'_succ, List.map_cons, polyOf, show n - (k + 1) + 1 = n - k by omega, eval_add,
      ih (by omega), Finset.sum_range_succ, show n - 1 - k = n - (k + 1) by omega]
    simp
    ring

theorem eval_range_full (n : Nat) (f : Nat → ℚ) (x : ℚ) :
    (polyOf ((List.range n).map f)).eval x = ∑ j ∈ Finset.range n, f j * x ^ (n - 1 - j) := by
  have := eval_range n f x n (le_refl n)
  rw [Nat.sub_self, ← List.range_eq_range'] at this
  rw [this, ← Finset.sum_range_reflect]
  refine Finset.sum_congr rfl fun j hj => ?_
  rw [Finset.mem_range] at hj
  rw [show n - 1 - (n - 1 - j) = j by omega]

/-- the matrix of powers -/
def powFun (n : Nat) (x : Nat → ℚ) : Nat → Nat → ℚ := fun i j => x i ^ (n - 1 - j)

theorem powersRow_c {n i r : Nat} (F : Nat → Nat → ℚ) (x : ℚ) (hi : i < r) :
    powersRow (Mat.ofFun F r n) n i (ofRat x)
      = pure (Mat.ofFun (fun a b => if a = i then x ^ (n - 1 - b) else F a b) r n) := by
  rw [powersRow, List.range'_eq_map_range, List.foldlM_map]
  have key := foldlM_range (fun t => ((Mat.ofFun (fun a b => if a = i ∧ n - t ≤ b then
      x ^ (n - 1 - b) else F a b) r n, ofRat (x ^ t)) : Mat × Ratio))
    (fun s t => do
      let k ← uSub n (1 + t)
      let A ← s.1.set i k s.2
      let curr ← s.2.mul_mut (ofRat x)
      pure (A, curr)) n ?_
  · have e : ((Mat.ofFun F r n, Ratio.one) : Mat × Ratio) = (Mat.ofFun (fun a b =>
        if a = i ∧ n - 0 ≤ b then x ^ (n - 1 - b) else F a b) r n, ofRat (x ^ 0)) := by
      rw [one_c, pow_zero]
      refine congrArg (fun m => (m, ofRat 1)) (Mat.ofFun_congr fun a _ b hb => ?_)
      rw [if_neg (by omega)]
    rw [e, key, pure_bind]
    refine congrArg pure (Mat.ofFun_congr fun a _ b hb => ?_)
    simp
  · intro t ht
    simp only []
    rw [uSub_eq (by omega), pure_bind, Mat.set_ofFun hi (by omega), pure_bind, Ratio.mul_mut_c,
      pure_bind, ← pow_succ]
    refine congrArg (fun m => pure (m, ofRat (x ^ (t + 1)))) (Mat.ofFun_congr fun a _ b hb => ?_)
    simp only [Mat.upd]
    by_cases h1 : a = i ∧ b = n - (1 + t)
    · rw [if_pos h1, if_pos (by omega), h1.2]
      congr 1
      omega
    · rw [if_neg h1]
      congr 1
      exact propext ⟨by omega, by omega⟩

theorem pointMatrices_c (P : List (ℚ × ℚ)) :
    pointMatrices (P.map fun p => (ofRat p.1, ofRat p.2))
      = pure (Mat.ofFun (powFun P.length (fun i => (P.getD i (0, 0)).1)) P.length P.length,
          Mat.ofFun (fun i _ => (P.getD i (0, 0)).2) P.length 1) := by
  set n := P.length with hn
  rw [pointMatrices, List.length_map, ← hn, Mat.zeros_c, pure_bind, Mat.zeros_c, pure_bind]
  have key := foldlM_range (fun t => ((Mat.ofFun (fun a b => if a < t then
        powFun n (fun i => (P.getD i (0, 0)).1) a b else 0) n n,
      Mat.ofFun (fun a _ => if a < t then (P.getD a (0, 0)).2 else 0) n 1) : Mat × Mat))
    (fun s i => do
      let q ← idx (P.map fun p => (ofRat p.1, ofRat p.2)) i
      let mat1 ← powersRow s.1 n i q.1
      let mat2 ← s.2.set i 0 q.2
      pure (mat1, mat2)) n ?_
  · simp only [Nat.not_lt_zero, if_false] at key
    rw [key]
    refine congrArg pure (Prod.ext ?_ ?_)
    · exact Mat.ofFun_congr fun a ha b _ => if_pos ha
    · exact Mat.ofFun_congr fun a ha b _ => if_pos ha
  · intro i hi
    have hi' : i < P.length := by omega
    have hg : P.getD i (0, 0) = P[i] := by simp [hi']
    simp only []
    rw [idx_some (x := (ofRat P[i].1, ofRat P[i].2)) (by simp [hi']), pure_bind]
    simp only []
    rw [powersRow_c _ _ hi, pure_bind, Mat.set_ofFun hi (by omega), pure_bind]
    refine congrArg pure (Prod.ext ?_ ?_)
    · refine Mat.ofFun_congr fun a ha b _ => ?_
      by_cases h : a = i
      · rw [if_pos h, if_pos (by omega), powFun, h, hg]
      · rw [if_neg h]
        congr 1
        exact propext ⟨by omega, by omega⟩
    · refine Mat.ofFun_congr fun a ha b hb => ?_
      simp only [Mat.upd]
      by_cases h : a = i
      · rw [if_pos ⟨h, by omega⟩, if_pos (by omega), h, hg]
      · rw [if_neg (by omega)]
        congr 1
        exact propext ⟨by omega, by omega⟩

theorem powFun_det (n : Nat) (x : Nat → ℚ) :
    (Mat.mat (powFun n x) n n).det ≠ 0 ↔ ∀ i < n, ∀ j < n, x i = x j → i = j := by
  have e : Mat.mat (powFun n x) n n = (Matrix.vandermonde (fun i : Fin n => x i)).submatrix id
      (Fin.revPerm : Equiv.Perm (Fin n)) := by
    ext i j
    simp only [Mat.mat, powFun, Matrix.submatrix_apply, Matrix.vandermonde_apply, id,
      Fin.revPerm_apply, Fin.val_rev]
    congr 1
    omega
  rw [e, Matrix.det_permute']
  have hs : ((Equiv.Perm.sign (Fin.revPerm : Equiv.Perm (Fin n)) : ℤ) : ℚ) ≠ 0 := by
    exact_mod_cast (Units.ne_zero _)
  rw [mul_ne_zero_iff, Matrix.det_vandermonde_ne_zero_iff]
  constructor
  · rintro ⟨_, h⟩ i hi j hj hx
    have := h (a₁ := ⟨i, hi⟩) (a₂ := ⟨j, hj⟩) hx
    exact congrArg Fin.val this
  · intro h
    exact ⟨hs, fun i j hx => Fin.ext (h i i.2 j j.2 hx)⟩

theorem solveColumn_c {n : Nat} (D : Nat → Nat → ℚ) (y : Nat → ℚ) :
    solveColumn (Mat.ofFun D n n) (Mat.ofFun (fun i _ => y i) n 1) n
      = pure (from_vec (((List.range n).map (fun i => ∑ k ∈ Finset.range n, D i k * y k)).map ofRat)) := by
  rw [solveColumn, Mat.mul_c, pure_bind, unwrapR_ok, pure_bind,
    mapM_pure' (g := fun i => ofRat (∑ k ∈ Finset.range n, D i k * y k)), pure_bind, List.map_map]
  · rfl
  · intro i hi
    rw [Mat.get_ofFun (List.mem_range.1 hi) (by omega)]

/-- the inverse of an invertible system solves it -/
theorem solve_eval {n : Nat} {F : Nat → Nat → ℚ} {D : Matrix (Fin n) (Fin n) ℚ}
    (hD : Mat.mat F n n * D = 1) (y : Nat → ℚ) (i : Nat) (hi : i < n) :
    ∑ j ∈ Finset.range n, F i j * (∑ k ∈ Finset.range n, Mat.ext0 D j k * y k) = y i := by
  have h1 : ∀ j : Fin n, ∑ k ∈ Finset.range n, Mat.ext0 D j k * y k = (D.mulVec fun k => y k) j := by
    intro j
    rw [Finset.sum_range]
    simp only [Matrix.mulVec, dotProduct]
    refine Finset.sum_congr rfl fun k _ => ?_
    rw [Mat.ext0, dif_pos ⟨j.2, k.2⟩]
  rw [Finset.sum_range]
  have h2 : ∑ j : Fin n, F i j * (∑ k ∈ Finset.range n, Mat.ext0 D j k * y k)
      = ((Mat.mat F n n).mulVec (D.mulVec fun k => y k)) ⟨i, hi⟩ := by
    simp only [Matrix.mulVec, dotProduct]
    refine Finset.sum_congr rfl fun j _ => ?_
    rw [h1 j]
    rfl
  rw [h2, Matrix.mulVec_mulVec, hD, Matrix.one_mulVec]

theorem inverse_pow {n : Nat} (hn : 1 ≤ n) (x : Nat → ℚ)
    (hx : ∀ i < n, ∀ j < n, x i = x j → i = j) :
    ∃ D : Matrix (Fin n) (Fin n) ℚ, Mat.inverse (Mat.ofFun (powFun n x) n n)
      = pure (.ok (Mat.ofFun (Mat.ext0 D) n n)) ∧ Mat.mat (powFun n x) n n * D = 1 := by
  by_cases h1 : n = 1
  · subst h1
    refine ⟨1, ?_, ?_⟩
    · rw [Mat.inverse_one (by simp [powFun])]
      refine congrArg (fun A => pure (Except.ok A)) (Mat.ofFun_congr fun i hi j hj => ?_)
      obtain rfl : i = 0 := by omega
      obtain rfl : j = 0 := by omega
      simp [Mat.ext0]
    · rw [Matrix.mul_one]
      ext i j
      rw [Subsingleton.elim i j, Matrix.one_apply_eq]
      simp [Mat.mat, powFun]
  · have hd := (powFun_det n x).2 hx
    exact ⟨_, Mat.inverse_c (by omega) hd, Matrix.mul_nonsing_inv _ (isUnit_iff_ne_zero.2 hd)⟩

theorem from_points_c (P : List (ℚ × ℚ)) (hP : P ≠ [])
    (hx : ∀ i < P.length, ∀ j < P.length, (P.getD i (0, 0)).1 = (P.getD j (0, 0)).1 → i = j) :
    ∃ L : List ℚ, from_points (P.map fun p => (ofRat p.1, ofRat p.2))
        = pure (.ok (from_vec (L.map ofRat))) ∧ L.length = P.length ∧
      ∀ i < P.length, (polyOf L).eval (P.getD i (0, 0)).1 = (P.getD i (0, 0)).2 := by
  have hn : 1 ≤ P.length := List.length_pos_iff.2 hP
  obtain ⟨D, h1, h2⟩ := inverse_pow hn (fun i => (P.getD i (0, 0)).1) hx
  refine ⟨(List.range P.length).map (fun i => ∑ k ∈ Finset.range P.length,
    Mat.ext0 D i k * (P.getD k (0, 0)).2), ?_, by simp, ?_⟩
  · rw [from_points, pointMatrices_c, pure_bind]
    simp only []
    rw [h1, pure_bind]
    simp only []
    rw [List.length_map, solveColumn_c, pure_bind]
  · intro i hi
    rw [eval_range_full, ← solve_eval h2 (fun i => (P.getD i (0, 0)).2) i hi]
    refine Finset.sum_congr rfl fun j _ => ?_
    rw [powFun, mul_comm]

theorem from_points_dup (P : List (ℚ × ℚ)) (i j : Nat) (hi : i < P.length) (hj : j < P.length)
    (hij : i ≠ j) (hx : (P.getD i (0, 0)).1 = (P.getD j (0, 0)).1) :
    from_points (P.map fun p => (ofRat p.1, ofRat p.2)) = pure (.error .zeroDeterminant) := by
  have hd : (Mat.mat (powFun P.length (fun i => (P.getD i (0, 0)).1)) P.length P.length).det = 0 := by
    by_contra h
    exact hij ((powFun_det _ _).1 h i hi j hj hx)
  rw [from_points, pointMatrices_c, pure_bind]
  simp only []
  rw [Mat.inverse_zero (by omega) hd, pure_bind]

theorem from_points_nil : from_points [] = pure (.error .zeroDeterminant) := by
  have h := pointMatrices_c []
  rw [from_points]
  rw [List.map_nil] at h
  rw [h, pure_bind]
  simp only [List.length_nil]
  rw [Mat.inverse, Mat.determinant_empty]
  rfl

theorem ofRat_inj {p q : ℚ} : ofRat p = ofRat q ↔ p = q :=
  ⟨fun h => by rw [← rval_ofRat p, h, rval_ofRat], fun h => by rw [h]⟩

theorem linear_c (a b v1 v2 : ℚ) :
    linear_2_points (ofRat a) (ofRat b) (ofRat v1) (ofRat v2)
      = pure (from_vec ([(v2 - v1) / (b - a), v1 - a * ((v2 - v1) / (b - a))].map ofRat)) := by
  have hs : slope (ofRat a) (ofRat b) (ofRat v1) (ofRat v2)
      = pure (ofRat ((v2 - v1) / (b - a))) := by
    rw [slope]
    by_cases h : a = b
    · rw [if_pos (by rw [h]), zero_c, h]
      simp
    · rw [if_neg (by rw [ofRat_inj]; exact h), Ratio.sub_c, pure_bind, Ratio.sub_c, pure_bind,
        Ratio.div_c (sub_ne_zero.2 (Ne.symm h))]
  rw [linear_2_points, hs, pure_bind, Ratio.mul_c, pure_bind, Ratio.sub_c, pure_bind]
  rfl

/-- a list of rows as a function -/
def rowsFun (L : List (List ℚ)) : Nat → Nat → ℚ := fun i j => (L.getD i []).getD j 0

theorem from_vec_rows (L : List (List ℚ)) (r c : Nat) (hr : L.length = r + 1)
    (hc : ∀ l ∈ L, l.length = c) :
    Mat.from_vec (L.map (·.map ofRat)) = .ok (Mat.ofFun (rowsFun L) (r + 1) c) := by
  cases L with
  | nil => simp at hr
  | cons l L =>
    have hl := hc l (by simp)
    rw [List.map_cons, Mat.from_vec, if_pos]
    · refine congrArg Except.ok ?_
      simp only [Mat.ofFun, List.length_map, hl, List.length_cons, Mat.mk.injEq, true_and]
      refine ⟨?_, by simpa using hr⟩
      rw [← List.map_cons (f := fun l : List ℚ => l.map ofRat)]
      apply List.ext_getElem
      · simpa using hr
      · intro i h1 h2
        rw [List.length_map] at h1
        rw [List.getElem_map, List.getElem_map, List.getElem_range]
        apply List.ext_getElem
        · simpa using hc _ (List.getElem_mem h1)
        · intro j h3 h4
          rw [List.length_map] at h3
          rw [List.getElem_map, List.getElem_map, List.getElem_range, rowsFun,
            List.getD_eq_getElem?_getD, List.getD_eq_getElem?_getD, List.getElem?_eq_getElem h1,
            Option.getD_some, List.getElem?_eq_getElem h3, Option.getD_some]
    · rw [List.all_eq_true]
      intro x hx
      rw [← List.map_cons (f := fun l : List ℚ => l.map ofRat)] at hx
      obtain ⟨l', hl', rfl⟩ := List.mem_map.1 hx
      simp [hl, hc l' hl']

theorem quadraticSystem_c (a b c : ℚ) :
    quadraticSystem (ofRat a) (ofRat b) (ofRat c)
      = pure (Mat.ofFun (rowsFun [[a * a, a, 1], [b * b, b, 1], [c * c, c, 1]]) 3 3) := by
  rw [quadraticSystem, Ratio.mul_c, pure_bind, Ratio.mul_c, pure_bind, Ratio.mul_c, pure_bind, one_c]
  have := from_vec_rows [[a * a, a, 1], [b * b, b, 1], [c * c, c, 1]] 2 3 rfl (by simp)
  simp only [List.map_cons, List.map_nil] at this
  rw [this, unwrapR_ok]

theorem quad_det (a b c : ℚ) :
    (Mat.mat (rowsFun [[a * a, a, 1], [b * b, b, 1], [c * c, c, 1]]) 3 3).det
      = (a - b) * (a - c) * (b - c) := by
  rw [Matrix.det_fin_three]
  simp [Mat.mat, rowsFun]
  ring

theorem column3_c (v1 v2 v3 : ℚ) : Mat.from_vec [[ofRat v1], [ofRat v2], [ofRat v3]]
    = .ok (Mat.ofFun (fun i _ => [v1, v2, v3].getD i 0) 3 1) := rfl

theorem column4_c (v1 v2 v3 v4 : ℚ) : Mat.from_vec [[ofRat v1], [ofRat v2], [ofRat v3], [ofRat v4]]
    = .ok (Mat.ofFun (fun i _ => [v1, v2, v3, v4].getD i 0) 4 1) := rfl

theorem quadratic_c {a b c : ℚ} (hab : a ≠ b) (hac : a ≠ c) (hbc : b ≠ c) (v1 v2 v3 : ℚ) :
    ∃ L : List ℚ, quadratic_3_points (ofRat a) (ofRat b) (ofRat c) (ofRat v1) (ofRat v2) (ofRat v3)
        = pure (from_vec (L.map ofRat)) ∧ L.length = 3 ∧
      (polyOf L).eval a = v1 ∧ (polyOf L).eval b = v2 ∧ (polyOf L).eval c = v3 := by
  set F := rowsFun [[a * a, a, 1], [b * b, b, 1], [c * c, c, 1]] with hF
  have hd : (Mat.mat F 3 3).det ≠ 0 := by
    rw [hF, quad_det]
    exact mul_ne_zero (mul_ne_zero (sub_ne_zero.2 hab) (sub_ne_zero.2 hac)) (sub_ne_zero.2 hbc)
  have hinv := Matrix.mul_nonsing_inv _ (isUnit_iff_ne_zero.2 hd)
  refine ⟨(List.range 3).map (fun i => ∑ k ∈ Finset.range 3,
    Mat.ext0 (Mat.mat F 3 3)⁻¹ i k * [v1, v2, v3].getD k 0), ?_, by simp, ?_⟩
  · rw [quadratic_3_points, column3_c, unwrapR_ok, pure_bind, quadraticSystem_c, pure_bind, ← hF,
      Mat.inverse_c (by decide) hd, pure_bind]
    exact solveColumn_c (n := 3) _ (fun i => [v1, v2, v3].getD i 0)
  · have hs := solve_eval hinv (fun i => [v1, v2, v3].getD i 0)
    have h0 := hs 0 (by decide)
    have h1 := hs 1 (by decide)
    have h2 := hs 2 (by decide)
    simp only [eval_range_full]
    generalize (fun i => ∑ k ∈ Finset.range 3,
      Mat.ext0 (Mat.mat F 3 3)⁻¹ i k * [v1, v2, v3].getD k 0) = g at *
    simp [hF, rowsFun, Finset.sum_range_succ] at h0 h1 h2
    simp [Finset.sum_range_succ]
    refine ⟨?_, ?_, ?_⟩
    · linear_combination h0
    · linear_combination h1
    · linear_combination h2

theorem quadratic_degenerate {a b c : ℚ} (h : a = b ∨ a = c ∨ b = c) (v1 v2 v3 : ℚ) :
    quadratic_3_points (ofRat a) (ofRat b) (ofRat c) (ofRat v1) (ofRat v2) (ofRat v3)
      = if a = b then linear_2_points (ofRat a) (ofRat c) (ofRat v1) (ofRat v3)
        else linear_2_points (ofRat a) (ofRat b) (ofRat v1) (ofRat v2) := by
  have hd : (Mat.mat (rowsFun [[a * a, a, 1], [b * b, b, 1], [c * c, c, 1]]) 3 3).det = 0 := by
    rw [quad_det]
    rcases h with h | h | h <;> rw [h] <;> ring
  rw [quadratic_3_points, column3_c, unwrapR_ok, pure_bind, quadraticSystem_c, pure_bind,
    Mat.inverse_zero (by decide) hd, pure_bind]
  simp only [ofRat_inj]

theorem cubicSystem_c (a b : ℚ) :
    cubicSystem (ofRat a) (ofRat b) = pure (Mat.ofFun (rowsFun [[a * a * a, a * a, a, 1],
      [b * b * b, b * b, b, 1], [a * a * (3 : ℤ), a * (2 : ℤ), 1, 0],
      [b * b * (3 : ℤ), b * (2 : ℤ), 1, 0]]) 4 4) := by
  have h3 : IsI32 3 := by unfold IsI32; omega
  simp only [cubicSystem, Ratio.mul_c, pure_bind, one_c, zero_c,
    mul_i32_c _ isI32_two (by omega : (2 : Int) ≠ -2147483648),
    mul_i32_c _ h3 (by omega : (3 : Int) ≠ -2147483648)]
  have := from_vec_rows [[a * a * a, a * a, a, 1], [b * b * b, b * b, b, 1],
    [a * a * (3 : ℤ), a * (2 : ℤ), 1, 0], [b * b * (3 : ℤ), b * (2 : ℤ), 1, 0]] 3 4 rfl (by simp)
  simp only [List.map_cons, List.map_nil] at this
  rw [this, unwrapR_ok]

theorem cubic_det (a b : ℚ) :
    (Mat.mat (rowsFun [[a * a * a, a * a, a, 1], [b * b * b, b * b, b, 1],
      [a * a * (3 : ℤ), a * (2 : ℤ), 1, 0], [b * b * (3 : ℤ), b * (2 : ℤ), 1, 0]]) 4 4).det
      = -(a - b) ^ 4 := by
  rw [Matrix.det_succ_row_zero]
  simp only [Fin.sum_univ_four, Matrix.det_fin_three, Matrix.submatrix_apply, Mat.mat, rowsFun]
  simp [Fin.succAbove, Fin.lt_def]
  ring

theorem derivative_eval4 (f : Nat → ℚ) (x : ℚ) :
    (derivative (polyOf ((List.range 4).map f))).eval x = 3 * f 0 * x ^ 2 + 2 * f 1 * x + f 2 := by
  simp [polyOf, List.range_succ]
  ring

theorem cubic_c {a b : ℚ} (hab : a ≠ b) (v1 v2 v3 v4 : ℚ) :
    ∃ L : List ℚ, cubic_2_points (ofRat a) (ofRat b) (ofRat v1) (ofRat v2) (ofRat v3) (ofRat v4)
        = pure (from_vec (L.map ofRat)) ∧ L.length = 4 ∧
      (polyOf L).eval a = v1 ∧ (polyOf L).eval b = v2 ∧
      (derivative (polyOf L)).eval a = v3 ∧ (derivative (polyOf L)).eval b = v4 := by
  set F := rowsFun [[a * a * a, a * a, a, 1], [b * b * b, b * b, b, 1],
      [a * a * (3 : ℤ), a * (2 : ℤ), 1, 0], [b * b * (3 : ℤ), b * (2 : ℤ), 1, 0]] with hF
  have hd : (Mat.mat F 4 4).det ≠ 0 := by
    rw [hF, cubic_det]
    exact neg_ne_zero.2 (pow_ne_zero 4 (sub_ne_zero.2 hab))
  have hinv := Matrix.mul_nonsing_inv _ (isUnit_iff_ne_zero.2 hd)
  refine ⟨(List.range 4).map (fun i => ∑ k ∈ Finset.range 4,
    Mat.ext0 (Mat.mat F 4 4)⁻¹ i k * [v1, v2, v3, v4].getD k 0), ?_, by simp, ?_⟩
  · rw [cubic_2_points, column4_c, unwrapR_ok, pure_bind, cubicSystem_c, pure_bind, ← hF,
      Mat.inverse_c (by decide) hd, pure_bind]
    exact solveColumn_c (n := 4) _ (fun i => [v1, v2, v3, v4].getD i 0)
  · have hs := solve_eval hinv (fun i => [v1, v2, v3, v4].getD i 0)
    have h0 := hs 0 (by decide)
    have h1 := hs 1 (by decide)
    have h2 := hs 2 (by decide)
    have h3 := hs 3 (by decide)
    simp only [eval_range_full, derivative_eval4]
    generalize (fun i => ∑ k ∈ Finset.range 4,
      Mat.ext0 (Mat.mat F 4 4)⁻¹ i k * [v1, v2, v3, v4].getD k 0) = g at *
    simp [hF, rowsFun, Finset.sum_range_succ] at h0 h1 h2 h3
    simp [Finset.sum_range_succ]
    refine ⟨?_, ?_, ?_, ?_⟩
    · linear_combination h0
    · linear_combination h1
    · linear_combination h2
    · linear_combination h3

theorem cubic_degenerate (a v1 v2 v3 v4 : ℚ) :
    cubic_2_points (ofRat a) (ofRat a) (ofRat v1) (ofRat v2) (ofRat v3) (ofRat v4)
      = pure (from_vec ([v3, v1 - a * v3].map ofRat)) := by
  have hd : (Mat.mat (rowsFun [[a * a * a, a * a, a, 1], [a * a * a, a * a, a, 1],
      [a * a * (3 : ℤ), a * (2 : ℤ), 1, 0], [a * a * (3 : ℤ), a * (2 : ℤ), 1, 0]]) 4 4).det = 0 := by
    rw [cubic_det]; ring
  rw [cubic_2_points, column4_c, unwrapR_ok, pure_bind, cubicSystem_c, pure_bind,
    Mat.inverse_zero (by decide) hd, pure_bind]
  simp only []
  rw [if_pos trivial, Ratio.mul_c, pure_bind, Ratio.sub_c, pure_bind]
  rfl

end Poly
end Hmath
