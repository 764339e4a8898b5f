import Verif.Proofs.Fp192Acc
import Mathlib.Analysis.SpecialFunctions.Trigonometric.Bounds

/-!
# 192-bit floating point numbers: sine and cosine
-/

namespace Hmath
namespace F192

open Props

/-! ### constants -/

theorem pi_val : fval PI = 267257146016241686964920093290467695825 / 2 ^ 126 ∧ fval PI_OVER_2 = fval PI / 2 ∧ fval PI_OVER_4 = fval PI / 4 := by
  have key : ∀ k : ℕ, k < 281474976710656 → fval ⟨97115962555772455233232789574583590097, 281474976710656 - k⟩ = 267257146016241686964920093290467695825 / 2 ^ k := by
    intro k hk
    have := fval_mk (s := false) (m := 267257146016241686964920093290467695825) (e := 281474976710656 - k) ⟨by norm_num, by norm_num⟩ (nz_exp (by omega))
    rw [mg_coeff_sub (by omega), sgn_false, one_mul] at this
    exact this
  have h1 := key 126 (by norm_num)
  have h2 := key 127 (by norm_num)
  have h3 := key 128 (by norm_num)
  refine ⟨h1, ?_, ?_⟩
  · exact h2.trans (by rw [show fval PI = _ from h1]; norm_num)
  · exact h3.trans (by rw [show fval PI = _ from h1]; norm_num)

theorem pi_err : |((fval PI : ℚ) : ℝ) - Real.pi| ≤ 1 / 2 ^ 127 := by
  obtain ⟨g1, g2⟩ := pi_rat (a := (267257146016241686964920093290467695825 - 1 / 2 : ℚ) / 2 ^ 126) (b := (267257146016241686964920093290467695825 + 1 / 2 : ℚ) / 2 ^ 126)
    (by decide +kernel) (by decide +kernel)
  rw [pi_val.1, abs_le]
  push_cast at g1 g2 ⊢
  norm_num at g1 g2 ⊢
  constructor <;> linarith

theorem rsqrt_val : fval ONE_OVER_SQRT_2 = 240615969168004511545033772477625056927 / 2 ^ 128 := by
  have := fval_mk (s := false) (m := 240615969168004511545033772477625056927) (e := 281474976710656 - 128) ⟨by norm_num, by norm_num⟩ (nz_exp (by norm_num))
  rw [mg_coeff_sub (by norm_num), sgn_false, one_mul] at this
  exact this

theorem rsqrt_err : |((fval ONE_OVER_SQRT_2 : ℚ) : ℝ) - Real.sqrt 2 / 2| ≤ 1 / 2 ^ 128 := by
  have h1 : (2 * ((240615969168004511545033772477625056927 - 1) / 2 ^ 128) : ℝ) ≤ Real.sqrt 2 := Real.le_sqrt_of_sq_le (by norm_num)
  have h2 : Real.sqrt 2 ≤ (2 * ((240615969168004511545033772477625056927 + 1) / 2 ^ 128) : ℝ) := Real.sqrt_le_iff.2 ⟨by norm_num, by norm_num⟩
  rw [rsqrt_val, abs_le]
  push_cast
  norm_num at h1 h2 ⊢
  constructor <;> linarith

theorem rng_const {x : F192} (hx : FValid x) (h1 : 1 / 16 ≤ fval x) (h2 : fval x ≤ 16) : Rng 64 x := by
  refine ⟨hx, Or.inr ?_⟩
  rw [abs_of_nonneg (by linarith)]
  constructor
  · refine le_trans ?_ h1; norm_num
  · refine h2.trans ?_; norm_num

theorem pi_lo : 3141592653 / 1000000000 ≤ fval PI := by rw [pi_val.1]; norm_num
theorem pi_hi : fval PI ≤ 3141592654 / 1000000000 := by rw [pi_val.1]; norm_num
theorem rsqrt_lo : 707106781 / 1000000000 ≤ fval ONE_OVER_SQRT_2 := by rw [rsqrt_val]; norm_num
theorem rsqrt_hi : fval ONE_OVER_SQRT_2 ≤ 707106782 / 1000000000 := by rw [rsqrt_val]; norm_num

theorem Rng.neg {K : ℤ} {x : F192} (hx : Rng K x) (hK : K ≤ 2 ^ 40) : Rng K (F192.neg x) ∧ fval (F192.neg x) = -fval x := by
  have ht : x ≠ negTiny := by
    rintro rfl
    rcases hx.exp with h | h
    · exact absurd ((fval_eq_zero hx.1).1 h) (by decide)
    · have : negTiny.exp = 0 := rfl
      omega
  obtain ⟨-, -, v1, v2, -⟩ := C59_sign_partial hx.1 ht
  refine ⟨⟨v1, ?_⟩, v2⟩
  rw [v2, abs_neg, neg_eq_zero]
  exact hx.2

/-- a difference of numbers of about the same magnitude -/
theorem sub_near {x y : F192} (hx : Rng 1000000 x) (hy : Rng 1000000 y) {k : ℕ} (hk : k ≤ 200) (h1 : 2 ^ (127 - k : ℤ) ≤ fval x) (h2 : 2 ^ (127 - k : ℤ) ≤ fval y)
    (h : |fval x - fval y| < 2 ^ (128 - k : ℤ)) : ∃ z, F192.sub x y = pure z ∧ Rng 1000 z ∧ fval z = fval x - fval y := by
  have hp : (0 : ℚ) < 2 ^ (127 - k : ℤ) := zpow_pos (by norm_num) _
  have hp' : (0 : ℚ) < 2 ^ (-k : ℤ) := zpow_pos (by norm_num) _
  obtain ⟨N, hN⟩ := multiple hx.1 (k := k) (h1.trans (le_abs_self _))
  obtain ⟨M, hM⟩ := multiple hy.1 (k := k) (h2.trans (le_abs_self _))
  have e : fval x - fval y = (N - M : ℤ) * 2 ^ (-k : ℤ) := by rw [hN, hM]; push_cast; ring
  have hlt : |N - M| < 2 ^ 128 := by
    rw [e, abs_mul, abs_of_pos hp', show (128 - k : ℤ) = 128 + -k by ring, zpow_add₀ (by norm_num), mul_lt_mul_iff_of_pos_right hp'] at h
    rw [← Int.cast_abs] at h
    exact_mod_cast h
  obtain ⟨z, z1, z2, z3⟩ := sub_dyadic hx hy (by linarith) (by linarith) hlt (k := k) (by omega) e
  refine ⟨z, z1, ⟨z2, ?_⟩, z3⟩
  by_cases h0 : fval z = 0
  · exact Or.inl h0
  right
  rw [z3] at h0 ⊢
  constructor
  · rw [e, abs_mul, abs_of_pos hp']
    have : N - M ≠ 0 := by
      intro hc
      rw [e, hc, Int.cast_zero, zero_mul] at h0
      exact h0 rfl
    have h3 : (1 : ℚ) ≤ |((N - M : ℤ) : ℚ)| := by
      rw [← Int.cast_abs]
      exact_mod_cast Int.one_le_abs this
    refine le_trans ?_ ((one_mul _).ge.trans (mul_le_mul_of_nonneg_right h3 hp'.le))
    exact zpow_le_zpow_right₀ (by norm_num) (by omega)
  · refine h.le.trans ?_
    exact zpow_le_zpow_right₀ (by norm_num) (by omega)

theorem abs_le_add {a b c : ℚ} (h : |a - b| ≤ c) : |a| ≤ |b| + c := by
  have := abs_sub_abs_le_abs_sub a b
  linarith

/-! ### the polynomials -/

theorem near_poly (t : ℚ) : nearCoeffs.foldl (hval t) (-(11 + t)) = 39916800 * (cosSum 6 t + sinSum 6 t) := by
  simp only [nearCoeffs, List.foldl, hval, Lit.val, cosSum, sinSum, Finset.sum_range_succ, Finset.sum_range_zero, Nat.factorial]
  push_cast
  simp
  ring

theorem sin_poly (x : ℚ) : sinCoeffs.foldl (hval (x * x)) (342 - x * x) * x = 121645100408832000 * sinSum 10 x := by
  simp only [sinCoeffs, List.foldl, hval, Lit.val, sinSum, Finset.sum_range_succ, Finset.sum_range_zero, Nat.factorial]
  push_cast
  simp
  ring

theorem cos_poly (x : ℚ) : cosCoeffs.foldl (hval (x * x)) (x * x - 380) = 2432902008176640000 * cosSum 11 x := by
  simp only [cosCoeffs, List.foldl, hval, Lit.val, cosSum, Finset.sum_range_succ, Finset.sum_range_zero, Nat.factorial]
  push_cast
  simp
  ring

/-! ### the iterations -/

theorem near_c {x : F192} (hx : FValid x) (h1 : 707 / 1000 ≤ fval x) (h2 : fval x ≤ 8638 / 10000) :
    ∃ z, sin_near_pi_over_4 x = pure z ∧ Rng 200 z ∧ |((fval z : ℚ) : ℝ) - Real.sin ((fval x : ℚ) : ℝ)| ≤ 1 / 2 ^ 73 := by
  obtain ⟨-, -, p4⟩ := pi_val
  have plo := pi_lo
  have phi := pi_hi
  have rx : Rng 64 x := rng_const hx (by linarith) (by linarith)
  have rp : Rng 64 PI_OVER_4 := rng_const (by decide) (by rw [p4]; linarith) (by rw [p4]; linarith)
  obtain ⟨y, y1, y2, y3⟩ := sub_near (rx.mono (by norm_num)) (rp.mono (by norm_num)) (k := 128) (by norm_num) (by norm_num; linarith) (by rw [p4]; norm_num; linarith)
    (by rw [p4, abs_lt]; norm_num; constructor <;> linarith)
  have ht : |fval y| ≤ 785 / 10000 := by
    rw [y3, p4, abs_le]
    constructor <;> linarith
  obtain ⟨c, c1, c2, c3⟩ := Lit.into_c (c := Lit.i32 11) (by norm_num [Lit.val])
  have c3' : fval c = 11 := c3
  obtain ⟨t1, t2⟩ := abs_le.1 ht
  obtain ⟨a, a1, a2, a3⟩ := addR (c2.mono (show 64 ≤ 1000 by norm_num)) y2 (by norm_num) (by
    rw [c3']
    refine noCarry_between 3 ?_ ?_
    · rw [abs_of_nonneg (by linarith)]; norm_num; linarith
    · rw [abs_of_nonneg (by linarith)]; norm_num; linarith)
  rw [c3'] at a3
  have ha : |11 + fval y| ≤ 1108 / 100 := by rw [abs_of_nonneg (by linarith)]; linarith
  have a3' : |fval a - (11 + fval y)| ≤ 1108 / 100 / 2 ^ 123 := by
    refine a3.trans ((mul_le_mul_of_nonneg_left ha (by norm_num)).trans ?_)
    norm_num
  obtain ⟨u1, u2⟩ := abs_le.1 a3'
  have alo : 1 ≤ |fval a| := by
    refine le_trans ?_ (le_abs_self _)
    norm_num at u1
    linarith
  have ra : Rng 64 a := rng_mid a2 alo (by
    refine (abs_le_add a3').trans ((add_le_add_left ha _).trans ?_)
    norm_num)
  obtain ⟨n1, n2⟩ := ra.neg (by norm_num)
  obtain ⟨r, r1, r2, r3, r4, r5⟩ := horner_c (x := y) y2 (q := fval y) (Q := 785 / 10000) (by norm_num) (by norm_num) (by rw [sub_self, _root_.abs_zero]; positivity) ht
    nearCoeffs (neg a) (-(11 + fval y)) (1108 / 100) (by decide +kernel) n1.1 (by rw [n2, abs_neg]; exact alo) (by
      rw [n2, show -fval a - -(11 + fval y) = -(fval a - (11 + fval y)) by ring, abs_neg]; exact a3') (by rw [abs_neg]; exact ha) []
  rw [List.append_nil, horner] at r1
  have hb : hbd (785 / 10000) (1108 / 100) nearCoeffs ≤ 2 ^ 26 := by decide +kernel
  rw [near_poly] at r4 r5
  set P := cosSum 6 (fval y) + sinSum 6 (fval y) with hP
  have r4' : |fval r - 39916800 * P| ≤ 1 / 2 ^ 97 := by
    refine r4.trans ((div_le_div_of_nonneg_right hb (by norm_num)).trans ?_)
    norm_num
  have r5' : |39916800 * P| ≤ 2 ^ 26 := r5.trans hb
  have rr : |fval r| ≤ 2 ^ 27 := by
    refine (abs_le_add r4').trans ((add_le_add_left r5' _).trans ?_)
    norm_num
  have rs : Rng 64 ONE_OVER_SQRT_2 := rng_const (by decide) (by have := rsqrt_lo; linarith) (by have := rsqrt_hi; linarith)
  obtain ⟨m, m1, m2, m3, m4, -⟩ := mulR (rng_mid r2 r3 (rr.trans (by norm_num))) rs (by norm_num)
  obtain ⟨z, z1, z2, z3, -⟩ := divR m2 (a := 39916800) (by norm_num) (by norm_num) (by norm_num)
  have hA0 := rsqrt_lo
  have hA1 := rsqrt_hi
  have hz : |fval z - P * fval ONE_OVER_SQRT_2| ≤ 1 / 2 ^ 120 := by
    have e1 : |fval r * fval ONE_OVER_SQRT_2| ≤ 2 ^ 27 := by
      rw [abs_mul, abs_of_nonneg (show 0 ≤ fval ONE_OVER_SQRT_2 by linarith)]
      exact (mul_le_of_le_one_right (abs_nonneg _) (by linarith)).trans rr
    have e2 : |fval m - fval r * fval ONE_OVER_SQRT_2| ≤ 1 / 2 ^ 97 :=
      m3.trans ((mul_le_mul_of_nonneg_left e1 (by norm_num)).trans (by norm_num))
    have e3 : |fval r * fval ONE_OVER_SQRT_2 - 39916800 * P * fval ONE_OVER_SQRT_2| ≤ 1 / 2 ^ 97 := by
      rw [← sub_mul, abs_mul, abs_of_nonneg (show 0 ≤ fval ONE_OVER_SQRT_2 by linarith)]
      exact (mul_le_of_le_one_right (abs_nonneg _) (by linarith)).trans r4'
    have e4 : |fval m / (39916800 : ℤ)| ≤ 4 := by
      rw [abs_div, div_le_iff₀ (by norm_num)]
      refine (m4.trans e1).trans ?_
      norm_num
    have e5 : |fval z - fval m / (39916800 : ℤ)| ≤ 4 / 2 ^ 127 := z3.trans ((mul_le_mul_of_nonneg_left e4 (by norm_num)).trans (by norm_num))
    rw [abs_le] at e2 e3 e5 ⊢
    generalize fval ONE_OVER_SQRT_2 = A at *
    push_cast at e5
    norm_num at e2 e3 e5 ⊢
    constructor <;> linarith
  refine ⟨z, ?_, z2.mono (by norm_num), ?_⟩
  · rw [sin_near_pi_over_4, y1, pure_bind, c1, pure_bind, a1, pure_bind, r1, pure_bind, m1, pure_bind]
    exact z1
  -- the real function
  have hzr : |((fval z : ℚ) : ℝ) - ((P : ℚ) : ℝ) * ((fval ONE_OVER_SQRT_2 : ℚ) : ℝ)| ≤ 1 / 2 ^ 120 := by
    have := (Rat.cast_le (K := ℝ)).2 hz
    rw [Rat.cast_abs, Rat.cast_sub, Rat.cast_mul] at this
    refine this.trans (le_of_eq ?_)
    norm_num
  have htr : |((fval y : ℚ) : ℝ)| ≤ 785 / 10000 := by
    have := (Rat.cast_le (K := ℝ)).2 ht
    rw [Rat.cast_abs] at this
    refine this.trans (le_of_eq ?_)
    norm_num
  have s1 : |Real.sin ((fval y : ℚ) : ℝ) - ((sinSum 6 (fval y) : ℚ) : ℝ)| ≤ (785 / 10000) ^ 13 / ((13).factorial : ℝ) :=
    (RealSeries.sinSum_abs (n := 6) (by norm_num) (by decide) _).trans (div_le_div_of_nonneg_right (pow_le_pow_left₀ (abs_nonneg _) htr _) (by positivity))
  have s2 : |Real.cos ((fval y : ℚ) : ℝ) - ((cosSum 6 (fval y) : ℚ) : ℝ)| ≤ (785 / 10000) ^ 12 / ((12).factorial : ℝ) :=
    (RealSeries.cosSum_abs (n := 6) (by norm_num) (by decide) _).trans (div_le_div_of_nonneg_right (pow_le_pow_left₀ (abs_nonneg _) htr _) (by positivity))
  have s3 : |Real.sin (Real.pi / 4 + ((fval y : ℚ) : ℝ)) - Real.sin ((fval x : ℚ) : ℝ)| ≤ 1 / 2 ^ 127 := by
    refine (Real.abs_sin_sub_sin_le _ _).trans ?_
    have := pi_err
    rw [y3, p4]
    push_cast
    rw [abs_le] at this ⊢
    constructor <;> linarith
  rw [Real.sin_add, Real.sin_pi_div_four, Real.cos_pi_div_four] at s3
  have q := rsqrt_err
  have pb : |((P : ℚ) : ℝ)| ≤ 2 := by
    have : |P| ≤ 2 := by
      rw [abs_mul, abs_of_pos (show (0 : ℚ) < 39916800 by norm_num)] at r5'
      norm_num at r5'
      linarith
    have := (Rat.cast_le (K := ℝ)).2 this
    rw [Rat.cast_abs] at this
    refine this.trans (le_of_eq ?_)
    norm_num
  have q' : |((P : ℚ) : ℝ) * ((fval ONE_OVER_SQRT_2 : ℚ) : ℝ) - ((P : ℚ) : ℝ) * (Real.sqrt 2 / 2)| ≤ 2 * (1 / 2 ^ 128) := by
    rw [← mul_sub, abs_mul]
    exact mul_le_mul pb q (abs_nonneg _) (by norm_num)
  have q2 : |((P : ℚ) : ℝ) * (Real.sqrt 2 / 2) - (Real.sqrt 2 / 2 * Real.cos ((fval y : ℚ) : ℝ) + Real.sqrt 2 / 2 * Real.sin ((fval y : ℚ) : ℝ))| ≤ 7 / 2 ^ 76 := by
    have e : ((P : ℚ) : ℝ) * (Real.sqrt 2 / 2) - (Real.sqrt 2 / 2 * Real.cos ((fval y : ℚ) : ℝ) + Real.sqrt 2 / 2 * Real.sin ((fval y : ℚ) : ℝ)) =
        -(Real.sqrt 2 / 2) * ((Real.cos ((fval y : ℚ) : ℝ) - ((cosSum 6 (fval y) : ℚ) : ℝ)) + (Real.sin ((fval y : ℚ) : ℝ) - ((sinSum 6 (fval y) : ℚ) : ℝ))) := by
      rw [hP]; push_cast; ring
    have hs0 := Real.sqrt_nonneg 2
    have hs1 : Real.sqrt 2 / 2 ≤ 708 / 1000 := by
      have : Real.sqrt 2 ≤ 1416 / 1000 := Real.sqrt_le_iff.2 ⟨by norm_num, by norm_num⟩
      linarith
    rw [e, abs_mul, abs_neg, abs_of_nonneg (by positivity)]
    refine (mul_le_mul hs1 ((abs_add_le _ _).trans (add_le_add s2 s1)) (abs_nonneg _) (by norm_num)).trans ?_
    norm_num [Nat.factorial]
  rw [abs_le] at hzr q' q2 s3 ⊢
  generalize Real.sqrt 2 / 2 * Real.cos ((fval y : ℚ) : ℝ) = A at *
  generalize Real.sqrt 2 / 2 * Real.sin ((fval y : ℚ) : ℝ) = B at *
  generalize ((P : ℚ) : ℝ) * (Real.sqrt 2 / 2) = C at *
  generalize ((P : ℚ) : ℝ) * ((fval ONE_OVER_SQRT_2 : ℚ) : ℝ) = D at *
  norm_num at hzr q' q2 s3 ⊢
  constructor <;> linarith

theorem cast_abs_sub_le {a b c : ℚ} (h : |a - b| ≤ c) : |((a : ℚ) : ℝ) - ((b : ℚ) : ℝ)| ≤ ((c : ℚ) : ℝ) := by
  have := (Rat.cast_le (K := ℝ)).2 h
  rwa [Rat.cast_abs, Rat.cast_sub] at this

/-- the square of the argument -/
theorem sqr_c {K : ℤ} {x : F192} (rx : Rng K x) (hK' : K ≤ 2147483000) (h0 : 0 ≤ fval x) (hle : fval x ≤ fval ONE_OVER_SQRT_2) :
    ∃ q, F192.mul x x = pure q ∧ Rng (2 * K + 1) q ∧ |fval q - fval x * fval x| ≤ |fval x * fval x| / 2 ^ 124 ∧ |fval x * fval x| ≤ 50001 / 100000 ∧
      0 ≤ fval q ∧ fval q ≤ 50001 / 100000 := by
  obtain ⟨q, q1, q2, q3, q4, q5⟩ := mulR rx rx (by omega)
  have hs := rsqrt_hi
  have hx2 : |fval x * fval x| ≤ 50001 / 100000 := by
    rw [abs_of_nonneg (mul_nonneg h0 h0)]
    have := mul_le_mul (hle.trans hs) (hle.trans hs) h0 (by norm_num)
    norm_num at this
    linarith
  exact ⟨q, q1, q2, by rw [div_eq_inv_mul, ← one_div]; exact q3, hx2, q5 (mul_nonneg h0 h0), (le_abs_self _).trans (q4.trans hx2)⟩

theorem sin_iter_c {K : ℤ} {x : F192} (rx : Rng K x) (hK : 64 ≤ K) (hK' : K ≤ 2147483000) (h0 : 0 ≤ fval x) (h1 : fval x ≤ 786 / 1000) :
    ∃ z, sin_iter x = pure z ∧ Rng (2 * K + 100) z ∧ |((fval z : ℚ) : ℝ) - Real.sin ((fval x : ℚ) : ℝ)| ≤ ((fval x : ℚ) : ℝ) / 2 ^ 72 := by
  have hgt := (C39_ops rx.1 (show FValid ONE_OVER_SQRT_2 by decide)).2.1
  by_cases hg : gt x ONE_OVER_SQRT_2 = true
  · have hx := hgt.1 hg
    have hs := rsqrt_lo
    obtain ⟨z, z1, z2, z3⟩ := near_c rx.1 (by linarith) (by linarith)
    refine ⟨z, by rw [sin_iter, if_pos hg, z1], z2.mono (by omega), z3.trans ?_⟩
    have : ((1 / 2 : ℚ) : ℝ) ≤ ((fval x : ℚ) : ℝ) := Rat.cast_le.2 (by linarith)
    push_cast at this
    rw [le_div_iff₀ (by norm_num)]
    refine le_trans ?_ this
    norm_num
  · have hle : fval x ≤ fval ONE_OVER_SQRT_2 := by
      by_contra hc
      exact hg (hgt.2 (not_le.1 hc))
    obtain ⟨q, q1, q2, q3, hx2, q5, q6⟩ := sqr_c rx hK' h0 hle
    obtain ⟨c, c1, c2, c3⟩ := Lit.into_c (c := Lit.i32 (18 * 19)) (by norm_num [Lit.val])
    have c3' : fval c = 342 := by rw [c3]; norm_num [Lit.val]
    obtain ⟨a, a1, a2, a3⟩ := subR (c2.mono (show 64 ≤ 2 * K + 1 by omega)) q2 (by omega) (by
      rw [c3']
      refine noCarry_between 8 ?_ ?_
      · rw [abs_of_nonneg (by linarith)]; norm_num; linarith
      · rw [abs_of_nonneg (by linarith)]; norm_num; linarith)
    rw [c3'] at a3
    have hsq := mul_nonneg h0 h0
    have a3' : |fval a - (342 - fval x * fval x)| ≤ 342 / 2 ^ 123 := by
      have e1 : |342 - fval q| ≤ 342 := by rw [abs_of_nonneg (by linarith)]; linarith
      have e2 := a3.trans (mul_le_mul_of_nonneg_left e1 (by norm_num))
      have e3 := q3.trans (div_le_div_of_nonneg_right hx2 (by norm_num))
      rw [abs_le] at e2 e3 ⊢
      generalize fval x * fval x = v at *
      norm_num at e2 e3 ⊢
      constructor <;> linarith
    have hT : |342 - fval x * fval x| ≤ 342 := by
      rw [abs_of_nonneg hsq] at hx2
      rw [abs_of_nonneg (by linarith)]; linarith
    have alo : 1 ≤ |fval a| := by
      rw [abs_of_nonneg hsq] at hx2
      have := (abs_le.1 a3').1
      refine le_trans ?_ (le_abs_self _)
      norm_num at this
      linarith
    obtain ⟨r, r1, r2, r3, r4, r5⟩ := horner_c (x := q) q2 (q := fval x * fval x) (Q := 50001 / 100000) (by omega) (by omega) q3 hx2
      sinCoeffs a (342 - fval x * fval x) 342 (by decide +kernel) a2 alo a3' hT []
    rw [List.append_nil, horner] at r1
    have hb : hbd (50001 / 100000) 342 sinCoeffs ≤ 2 * 121645100408832000 := by decide +kernel
    have hpoly := sin_poly (fval x)
    set T := sinCoeffs.foldl (hval (fval x * fval x)) (342 - fval x * fval x)
    have r4' := r4.trans (div_le_div_of_nonneg_right hb (by norm_num))
    have r5' := r5.trans hb
    have rr : |fval r| ≤ 3 * 121645100408832000 := by
      refine (abs_le_add r4').trans ((add_le_add_left r5' _).trans ?_)
      norm_num
    obtain ⟨m, m1, m2, m3, m4, -⟩ := mulR ((rng_mid r2 r3 (rr.trans (by norm_num))).mono hK) rx (by omega)
    obtain ⟨s2, s3⟩ := shrR m2 (k := 16) (by norm_num) (by omega)
    obtain ⟨d, d1, d2, d3, d4, -⟩ := divR s2 (a := 820125) (by norm_num) (by norm_num) (by push_cast; omega)
    obtain ⟨z, z1, z2, z3, z4, -⟩ := divR d2 (a := 2263261) (by norm_num) (by norm_num) (by push_cast; omega)
    have hz : |fval z - sinSum 10 (fval x)| ≤ fval x / 2 ^ 119 := by
      have e0 : |fval r * fval x| ≤ 3 * 121645100408832000 * fval x := by
        rw [abs_mul, abs_of_nonneg h0]
        exact mul_le_mul_of_nonneg_right rr h0
      have e1 : |fval m - fval r * fval x| ≤ 3 * 121645100408832000 / 2 ^ 124 * fval x :=
        m3.trans ((mul_le_mul_of_nonneg_left e0 (by norm_num)).trans (by rw [← mul_assoc]; exact mul_le_mul_of_nonneg_right (by norm_num) h0))
      have e2 : |fval r * fval x - T * fval x| ≤ 2 * 121645100408832000 / 2 ^ 123 * fval x := by
        rw [← sub_mul, abs_mul, abs_of_nonneg h0]
        exact mul_le_mul_of_nonneg_right r4' h0
      rw [hpoly] at e2
      have e3 : |fval (m.shr 16) / (820125 : ℤ)| ≤ 3 * 2263261 * fval x := by
        rw [s3, abs_div, abs_div, div_le_iff₀ (by norm_num), div_le_iff₀ (by norm_num)]
        refine (m4.trans e0).trans (le_of_eq ?_)
        norm_num
        ring
      have e4 := d3.trans (mul_le_mul_of_nonneg_left e3 (by norm_num))
      have e5 : |fval d / (2263261 : ℤ)| ≤ 3 * fval x := by
        rw [abs_div, div_le_iff₀ (by norm_num)]
        refine (d4.trans e3).trans (le_of_eq ?_)
        norm_num
        ring
      have e6 := z3.trans (mul_le_mul_of_nonneg_left e5 (by norm_num))
      rw [s3] at e4
      rw [abs_le] at e1 e2 e4 e6 ⊢
      generalize sinSum 10 (fval x) = S at *
      generalize fval r * fval x = w at *
      generalize fval x = v at *
      push_cast at e4 e6
      norm_num at e1 e2 e4 e6 ⊢
      constructor <;> linarith
    refine ⟨z, ?_, z2.mono (by push_cast; omega), ?_⟩
    · rw [sin_iter, if_neg hg, q1, pure_bind, c1, pure_bind, a1, pure_bind, r1, pure_bind, m1, pure_bind]
      rw [show ((6561 * 125 : ℤ)) = 820125 by norm_num, d1, pure_bind]
      exact z1
    have hzr := cast_abs_sub_le hz
    have s1 := RealSeries.sinSum_abs (n := 10) (by norm_num) (by decide) (fval x)
    have hv0 : (0 : ℝ) ≤ ((fval x : ℚ) : ℝ) := by exact_mod_cast h0
    have hv1 : ((fval x : ℚ) : ℝ) ≤ 70711 / 100000 := by
      have := (Rat.cast_le (K := ℝ)).2 (hle.trans rsqrt_hi)
      push_cast at this
      linarith
    have s2 : |((fval x : ℚ) : ℝ)| ^ (2 * 10 + 1) / ((2 * 10 + 1).factorial : ℝ) ≤ ((fval x : ℚ) : ℝ) / 2 ^ 75 := by
      rw [abs_of_nonneg hv0]
      generalize ((fval x : ℚ) : ℝ) = v at *
      have e1 : v ^ 20 ≤ (70711 / 100000) ^ 20 := pow_le_pow_left₀ hv0 hv1 _
      rw [pow_succ, mul_comm, mul_div_assoc, div_eq_mul_inv v]
      refine mul_le_mul_of_nonneg_left ((div_le_div_of_nonneg_right e1 (by positivity)).trans ?_) hv0
      norm_num [Nat.factorial]
    have s3 := s1.trans s2
    push_cast at hzr
    rw [abs_le] at hzr s3 ⊢
    generalize ((fval x : ℚ) : ℝ) = v at *
    generalize Real.sin v = w at *
    norm_num at hzr s3 ⊢
    constructor <;> linarith

/-- the last step of the cosine rounds near this value -/
def cosGap : ℚ := 2 ^ 61 / 2432902008176640000

theorem cosSum_odd (y : ℚ) (h : 0 ≤ y) : |Real.cos y - ((cosSum 11 y : ℚ) : ℝ)| ≤ (y : ℝ) ^ 22 / ((22).factorial : ℝ) := by
  have h' : (0 : ℝ) ≤ y := by exact_mod_cast h
  have h1 := (RealSeries.trig_alt 10).1 y h'
  have h2 := (RealSeries.trig_alt 11).1 y h'
  rw [RealSeries.rcos, Finset.sum_range_succ, ← RealSeries.rcos] at h2
  rw [RealSeries.rcos_cast]
  norm_num only at h1 h2 ⊢
  rw [abs_le]
  have h3 : (0 : ℝ) ≤ (y : ℝ) ^ 22 / ((22).factorial : ℝ) := by positivity
  constructor <;> linarith

theorem cos_iter_c {K : ℤ} {x : F192} (rx : Rng K x) (hK : 64 ≤ K) (hK' : K ≤ 2147483000) (h0 : 0 ≤ fval x) (h1 : fval x ≤ 786 / 1000)
    (hg : fval x ≤ fval ONE_OVER_SQRT_2 → 1 / 2 ^ 74 ≤ |Real.cos ((fval x : ℚ) : ℝ) - ((cosGap : ℚ) : ℝ)|) :
    ∃ z, cos_iter x = pure z ∧ Rng (2 * K + 100) z ∧ |((fval z : ℚ) : ℝ) - Real.cos ((fval x : ℚ) : ℝ)| ≤ 1 / 2 ^ 72 := by
  have hgt := (C39_ops rx.1 (show FValid ONE_OVER_SQRT_2 by decide)).2.1
  obtain ⟨-, p2, -⟩ := pi_val
  have plo := pi_lo
  have phi := pi_hi
  by_cases hgg : gt x ONE_OVER_SQRT_2 = true
  · have hx := hgt.1 hgg
    have hs := rsqrt_lo
    have rp : Rng 64 PI_OVER_2 := rng_const (by decide) (by rw [p2]; linarith) (by rw [p2]; linarith)
    obtain ⟨y, y1, y2, y3⟩ := sub_near (rp.mono (by norm_num)) ((rng_const rx.1 (by linarith) (by linarith)).mono (show 64 ≤ 1000000 by norm_num)) (k := 128) (by norm_num)
      (by rw [p2]; norm_num; linarith) (by norm_num; linarith) (by rw [p2, abs_lt]; norm_num; constructor <;> linarith)
    obtain ⟨z, z1, z2, z3⟩ := near_c y2.1 (by rw [y3, p2]; linarith) (by rw [y3, p2]; linarith)
    refine ⟨z, by rw [cos_iter, if_pos hgg, y1, pure_bind, z1], z2.mono (by omega), ?_⟩
    have e1 : |Real.sin ((fval y : ℚ) : ℝ) - Real.sin (Real.pi / 2 - ((fval x : ℚ) : ℝ))| ≤ 1 / 2 ^ 127 := by
      refine (Real.abs_sin_sub_sin_le _ _).trans ?_
      have := pi_err
      rw [y3, p2]
      push_cast
      rw [abs_le] at this ⊢
      constructor <;> linarith
    rw [Real.sin_pi_div_two_sub] at e1
    have e2 := (abs_sub_le _ _ _).trans (add_le_add z3 e1)
    refine e2.trans ?_
    norm_num
  · have hle : fval x ≤ fval ONE_OVER_SQRT_2 := by
      by_contra hc
      exact hgg (hgt.2 (not_le.1 hc))
    have hg := hg hle
    obtain ⟨q, q1, q2, q3, hx2, q5, q6⟩ := sqr_c rx hK' h0 hle
    obtain ⟨c, c1, c2, c3⟩ := Lit.into_c (c := Lit.i32 (19 * 20)) (by norm_num [Lit.val])
    have c3' : fval c = 380 := by rw [c3]; norm_num [Lit.val]
    obtain ⟨a, a1, a2, a3⟩ := subR q2 (c2.mono (show 64 ≤ 2 * K + 1 by omega)) (by omega) (by
      rw [c3']
      refine noCarry_between 8 ?_ ?_
      · rw [abs_of_nonpos (by linarith)]; norm_num; linarith
      · rw [abs_of_nonpos (by linarith)]; norm_num; linarith)
    rw [c3'] at a3
    have hsq := mul_nonneg h0 h0
    have a3' : |fval a - (fval x * fval x - 380)| ≤ 380 / 2 ^ 123 := by
      have e1 : |fval q - 380| ≤ 380 := by rw [abs_of_nonpos (by linarith)]; linarith
      have e2 := a3.trans (mul_le_mul_of_nonneg_left e1 (by norm_num))
      have e3 := q3.trans (div_le_div_of_nonneg_right hx2 (by norm_num))
      rw [abs_le] at e2 e3 ⊢
      generalize fval x * fval x = v at *
      norm_num at e2 e3 ⊢
      constructor <;> linarith
    have hT : |fval x * fval x - 380| ≤ 380 := by
      rw [abs_of_nonneg hsq] at hx2
      rw [abs_of_nonpos (by linarith)]; linarith
    have alo : 1 ≤ |fval a| := by
      rw [abs_of_nonneg hsq] at hx2
      have := (abs_le.1 a3').2
      refine le_trans ?_ (neg_le_abs _)
      norm_num at this
      linarith
    -- the value
    have hv0 : (0 : ℝ) ≤ ((fval x : ℚ) : ℝ) := by exact_mod_cast h0
    have hv1 : ((fval x : ℚ) : ℝ) ≤ 70711 / 100000 := by
      have := (Rat.cast_le (K := ℝ)).2 (hle.trans rsqrt_hi)
      push_cast at this
      linarith
    have s1 : |Real.cos ((fval x : ℚ) : ℝ) - ((cosSum 11 (fval x) : ℚ) : ℝ)| ≤ 1 / 2 ^ 80 := by
      refine (cosSum_odd _ h0).trans ?_
      generalize ((fval x : ℚ) : ℝ) = v at *
      refine (div_le_div_of_nonneg_right (pow_le_pow_left₀ hv0 hv1 22) (by positivity)).trans ?_
      norm_num [Nat.factorial]
    have hS0 : 74 / 100 ≤ cosSum 11 (fval x) ∧ cosSum 11 (fval x) ≤ 1001 / 1000 := by
      have e1 := Real.one_sub_sq_div_two_le_cos (x := ((fval x : ℚ) : ℝ))
      have e2 := Real.cos_le_one ((fval x : ℚ) : ℝ)
      have e3 : ((fval x : ℚ) : ℝ) ^ 2 ≤ 49 / 98 + 1 / 1000 := (pow_le_pow_left₀ hv0 hv1 2).trans (by norm_num)
      rw [abs_le] at s1
      norm_num only at s1
      constructor
      · rw [← Rat.cast_le (K := ℝ)]
        push_cast
        linarith
      · rw [← Rat.cast_le (K := ℝ)]
        push_cast
        linarith
    have hgap : 1 / 2 ^ 75 ≤ |cosSum 11 (fval x) - cosGap| := by
      rw [← Rat.cast_le (K := ℝ), Rat.cast_abs]
      push_cast
      have e1 := abs_sub_le (Real.cos ((fval x : ℚ) : ℝ)) ((cosSum 11 (fval x) : ℚ) : ℝ) ((cosGap : ℚ) : ℝ)
      norm_num only at hg s1 ⊢
      linarith
    have hsplit : cosCoeffs = cosCoeffs.take 8 ++ [(true, Lit.u64 2432902008176640000)] := rfl
    have hpoly := cos_poly (fval x)
    rw [hsplit, List.foldl_append, List.foldl, List.foldl] at hpoly
    obtain ⟨r', r1', r2', r3', r4', r5'⟩ := horner_c (x := q) q2 (q := fval x * fval x) (Q := 50001 / 100000) (by omega) (by omega) q3 hx2
      (cosCoeffs.take 8) a (fval x * fval x - 380) 380 (by decide +kernel) a2 alo a3' hT [(true, Lit.u64 2432902008176640000)]
    have hb' : hbd (50001 / 100000) 380 (cosCoeffs.take 8) ≤ 13 / 10 * 10 ^ 18 := by decide +kernel
    set T' := (cosCoeffs.take 8).foldl (hval (fval x * fval x)) (fval x * fval x - 380)
    obtain ⟨r, r1, r2, r3, r4, r5⟩ := hstep q2 r2' (q := fval x * fval x) (Q := 50001 / 100000) (T := T') (B := 12 / 10 * 10 ^ 18 + 10 ^ 17) (by omega) (by omega) q3 hx2
      r3' (r4'.trans (div_le_div_of_nonneg_right (hb'.trans (by norm_num)) (by norm_num))) (r5'.trans (hb'.trans (by norm_num))) (by norm_num) (true, Lit.u64 2432902008176640000)
      (by norm_num [Lit.val]) (by norm_num [Lit.val]) (by
        intro v hv
        rw [hpoly] at hv
        have hv' : |v - 2432902008176640000 * cosSum 11 (fval x)| ≤ 1 / 2 ^ 55 := by
          refine hv.trans ?_
          norm_num [Lit.val]
        have hgap' : 1 / 2 ^ 14 ≤ |2432902008176640000 * cosSum 11 (fval x) - 2 ^ 61| := by
          have e : 2432902008176640000 * cosSum 11 (fval x) - 2 ^ 61 = 2432902008176640000 * (cosSum 11 (fval x) - cosGap) := by
            rw [cosGap]; ring
          rw [e, abs_mul, abs_of_pos (show (0 : ℚ) < 2432902008176640000 by norm_num)]
          refine le_trans ?_ (mul_le_mul_of_nonneg_left hgap (by norm_num))
          norm_num
        obtain ⟨b1, b2⟩ := hS0
        obtain ⟨d1, d2⟩ := abs_le.1 hv'
        generalize cosSum 11 (fval x) = S at *
        norm_num at d1 d2
        have hvp : 0 < v := by linarith
        rw [abs_of_pos hvp]
        refine ⟨?_, by linarith⟩
        rcases le_abs.1 hgap' with hc | hc
        · refine noCarry_between 61 ?_ ?_
          · rw [abs_of_pos hvp]
            norm_num at hc ⊢
            linarith
          · rw [abs_of_pos hvp]
            norm_num at hc ⊢
            linarith
        · refine noCarry_between 60 ?_ ?_
          · rw [abs_of_pos hvp]
            norm_num at hc ⊢
            linarith
          · rw [abs_of_pos hvp]
            norm_num at hc ⊢
            linarith) []
    rw [r1, horner, ← hsplit] at r1'
    rw [hpoly] at r4 r5
    have r4' : |fval r - 2432902008176640000 * cosSum 11 (fval x)| ≤ 2 * 2432902008176640000 / 2 ^ 123 := by
      refine r4.trans ?_
      norm_num [Lit.val]
    have rr : |fval r| ≤ 2 * 2432902008176640000 := by
      refine (abs_le_add r4').trans ?_
      rw [abs_of_nonneg (by linarith [hS0.1])]
      have := hS0.2
      norm_num
      linarith
    obtain ⟨s2, s3⟩ := shrR (rng_mid r2 r3 (rr.trans (by norm_num))) (k := 18) (by norm_num) (by norm_num)
    obtain ⟨d, d1, d2, d3, d4, -⟩ := divR s2 (a := 4100625) (by norm_num) (by norm_num) (by norm_num)
    obtain ⟨z, z1, z2, z3, z4, -⟩ := divR d2 (a := 2263261) (by norm_num) (by norm_num) (by norm_num)
    have hz : |fval z - cosSum 11 (fval x)| ≤ 1 / 2 ^ 119 := by
      have e3 : |fval (r.shr 18) / (4100625 : ℤ)| ≤ 2 * 2263261 := by
        rw [s3, abs_div, abs_div, div_le_iff₀ (by norm_num), div_le_iff₀ (by norm_num)]
        refine rr.trans (le_of_eq ?_)
        norm_num
      have e4 := d3.trans (mul_le_mul_of_nonneg_left e3 (by norm_num))
      have e5 : |fval d / (2263261 : ℤ)| ≤ 2 := by
        rw [abs_div, div_le_iff₀ (by norm_num)]
        refine (d4.trans e3).trans (le_of_eq ?_)
        norm_num
      have e6 := z3.trans (mul_le_mul_of_nonneg_left e5 (by norm_num))
      rw [s3] at e4
      rw [abs_le] at r4' e4 e6 ⊢
      generalize cosSum 11 (fval x) = S at *
      push_cast at e4 e6
      norm_num at r4' e4 e6 ⊢
      constructor <;> linarith
    refine ⟨z, ?_, z2.mono (by push_cast; omega), ?_⟩
    · rw [cos_iter, if_neg hgg, q1, pure_bind, c1, pure_bind, a1, pure_bind, r1', pure_bind]
      rw [show ((6561 * 625 : ℤ)) = 4100625 by norm_num, d1, pure_bind]
      exact z1
    have hzr := cast_abs_sub_le hz
    push_cast at hzr
    rw [abs_le] at hzr s1 ⊢
    norm_num at hzr s1 ⊢
    constructor <;> linarith

end F192
end Hmath
