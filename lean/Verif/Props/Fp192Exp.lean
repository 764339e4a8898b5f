import Verif.Proofs.Fp192Exp
import Verif.Proofs.Fp192Sm
import Verif.Props.Fp192Log
import Mathlib.Analysis.SpecialFunctions.Pow.Real

/-!
# C73: powers of two and general powers of 192-bit floating point numbers
-/

namespace Hmath
namespace Props

open F192 (Rng ZERO ONE rng_of_exp rng_const rng_of_near floorSub_c pow2Series_c scale_exp mulR2)

private theorem ln2_val : fval F192.LN_2 = ((2 ^ 127 + 65724579765044062406256839048270378671 : Nat) : ℚ) / 2 ^ 128 := by
  have := F192.fval_mk (s := false) (m := 2 ^ 127 + 65724579765044062406256839048270378671) (e := 281474976710656 - 128) ⟨by norm_num, by norm_num⟩ (F192.nz_exp (by norm_num))
  rw [F192.mg_coeff_sub (by norm_num), F192.sgn_false, one_mul] at this
  exact this

private theorem ln2_err : |((fval F192.LN_2 : ℚ) : ℝ) - Real.log 2| ≤ 1 / 2 ^ 128 := by
  obtain ⟨g1, g2⟩ := ln2_rat (a := ((2 ^ 127 + 65724579765044062406256839048270378671 : Nat) - 1 / 2 : ℚ) / 2 ^ 128)
    (b := ((2 ^ 127 + 65724579765044062406256839048270378671 : Nat) + 1 / 2 : ℚ) / 2 ^ 128) (by decide +kernel) (by decide +kernel)
  rw [ln2_val, abs_le]
  push_cast at g1 g2 ⊢
  norm_num at g1 g2 ⊢
  constructor <;> linarith

private theorem expSum_real (u : ℚ) (h0 : 0 ≤ u) (h1 : u ≤ 6932 / 10000) : |Real.exp u - ((expSum 15 u : ℚ) : ℝ)| ≤ 335 / 10 ^ 17 ∧
    ((expSum 15 u : ℚ) : ℝ) ≤ Real.exp u := by
  have e : ((expSum 15 u : ℚ) : ℝ) = ∑ m ∈ Finset.range 15, (u : ℝ) ^ m / (m.factorial : ℝ) := by
    rw [expSum]; push_cast; rfl
  have h0' : (0 : ℝ) ≤ u := by exact_mod_cast h0
  have h1' : (u : ℝ) ≤ 6932 / 10000 := by
    have := (Rat.cast_le (K := ℝ)).2 h1
    push_cast at this
    exact this
  have a := Real.exp_bound' h0' (by linarith) (n := 15) (by norm_num)
  have b := Real.sum_le_exp_of_nonneg h0' 15
  rw [← e] at a b
  refine ⟨?_, b⟩
  rw [abs_of_nonneg (by linarith)]
  have c : (u : ℝ) ^ 15 ≤ (6932 / 10000) ^ 15 := pow_le_pow_left₀ h0' h1' 15
  have d : (u : ℝ) ^ 15 * (15 + 1) / ((Nat.factorial 15 : ℝ) * 15) ≤ 335 / 10 ^ 17 := by
    rw [div_le_iff₀ (by positivity)]
    norm_num [Nat.factorial] at c ⊢
    linarith
  push_cast at a
  linarith

/-- `2^w` for `0 ≤ w < 1` from the series -/
private theorem frac_real {f u z φ : ℚ} (h0 : 0 ≤ φ) (h1 : φ < 1) (hf : |f - φ| ≤ 1 / 2 ^ 127 * φ) (u0 : 0 ≤ u)
    (hu : |u - f * fval F192.LN_2| ≤ 1 / 2 ^ 124 * |f * fval F192.LN_2|) (hz : |z - expSum 15 u| ≤ 1 / 2 ^ 119 * expSum 15 u) :
    |(z : ℝ) - (2 : ℝ) ^ (φ : ℝ)| ≤ (2 : ℝ) ^ (φ : ℝ) * (1 / 2 ^ 48) ∧ 1 / 2 ≤ z ∧ z ≤ 4 := by
  have l1 := Real.log_two_gt_d9
  have l2 := Real.log_two_lt_d9
  have L0 : 693147180 / 1000000000 ≤ fval F192.LN_2 := by rw [ln2_val]; norm_num
  have L1 : fval F192.LN_2 ≤ 693147181 / 1000000000 := by rw [ln2_val]; norm_num
  have hE := ln2_err
  set L := fval F192.LN_2 with hL
  -- the argument of the series
  have r1 := F192.rel_scale (a := L) (by linarith) hf
  have r2 := F192.rel_trans (mul_nonneg h0 (by linarith)) (by norm_num) hu r1
  have hpl : φ * L ≤ L := mul_le_of_le_one_left (by linarith) h1.le
  have r3 : |u - φ * L| ≤ 1 / 2 ^ 123 := by
    refine r2.trans ?_
    have : φ * L ≤ 1 := by linarith
    refine (mul_le_mul_of_nonneg_left this (by norm_num)).trans (by norm_num)
  have u1 : u ≤ 6932 / 10000 := by
    have := (abs_le.1 r3).2
    norm_num at this
    linarith
  obtain ⟨e1, e2⟩ := expSum_real u u0 u1
  have hw : |(u : ℝ) - Real.log 2 * φ| ≤ 1 / 2 ^ 122 := by
    have a := (Rat.cast_le (K := ℝ)).2 r3
    push_cast at a
    have p0 : (0 : ℝ) ≤ φ := by exact_mod_cast h0
    have p1 : (φ : ℝ) ≤ 1 := by exact_mod_cast h1.le
    have b : |(φ : ℝ) * (L : ℝ) - Real.log 2 * φ| ≤ 1 / 2 ^ 128 := by
      rw [mul_comm (Real.log 2), ← mul_sub, abs_mul, abs_of_nonneg p0]
      exact (mul_le_of_le_one_left (abs_nonneg _) p1).trans hE
    refine (abs_sub_le _ _ _).trans ((add_le_add a b).trans ?_)
    norm_num
  have hpow : (2 : ℝ) ^ (φ : ℝ) = Real.exp (Real.log 2 * φ) := Real.rpow_def_of_pos (by norm_num) _
  have E1 : 1 ≤ Real.exp (Real.log 2 * φ) := by
    refine Real.one_le_exp (mul_nonneg (by linarith) (by exact_mod_cast h0))
  have E2 : Real.exp (Real.log 2 * φ) ≤ 2 := by
    rw [← hpow]
    have : (φ : ℝ) ≤ 1 := by exact_mod_cast h1.le
    exact (Real.rpow_le_rpow_of_exponent_le (by norm_num) this).trans (le_of_eq (Real.rpow_one _))
  have e3 : |Real.exp u - Real.exp (Real.log 2 * φ)| ≤ Real.exp (Real.log 2 * φ) * (1 / 2 ^ 121) := by
    have : Real.exp u = Real.exp (Real.log 2 * φ) * Real.exp (u - Real.log 2 * φ) := by rw [← Real.exp_add]; congr 1; ring
    rw [this, ← mul_sub_one, abs_mul, Real.abs_exp]
    refine mul_le_mul_of_nonneg_left ?_ (Real.exp_pos _).le
    refine (Real.abs_exp_sub_one_le (hw.trans (by norm_num))).trans ?_
    refine (mul_le_mul_of_nonneg_left hw (by norm_num)).trans (by norm_num)
  have ez := (Rat.cast_le (K := ℝ)).2 hz
  push_cast at ez
  rw [hpow]
  have key : |(z : ℝ) - Real.exp (Real.log 2 * φ)| ≤ Real.exp (Real.log 2 * φ) * (1 / 2 ^ 48) := by
    generalize ((expSum 15 u : ℚ) : ℝ) = S at *
    generalize Real.exp (Real.log 2 * φ) = W at *
    generalize Real.exp u = V at *
    have t1 := (abs_le.1 e3).2
    have : |(z : ℝ) - W| ≤ |(z : ℝ) - S| + |V - S| + |V - W| := by
      refine (abs_sub_le _ S _).trans ?_
      rw [add_assoc]
      refine add_le_add le_rfl ((abs_sub_le _ V _).trans (add_le_add (abs_sub_comm _ _).le le_rfl))
    refine this.trans ((add_le_add (add_le_add ez e1) e3).trans ?_)
    norm_num at t1 ⊢
    linarith
  refine ⟨key, ?_, ?_⟩
  · have a := (abs_le.1 key).1
    have : ((1 / 2 : ℚ) : ℝ) ≤ z := by
      generalize Real.exp (Real.log 2 * φ) = W at *
      push_cast
      norm_num at a
      linarith
    exact_mod_cast this
  · have a := (abs_le.1 key).2
    have : (z : ℝ) ≤ ((4 : ℚ) : ℝ) := by
      generalize Real.exp (Real.log 2 * φ) = W at *
      push_cast
      norm_num at a
      linarith
    exact_mod_cast this

/-- `pow2` up to the last step -/
theorem pow2_core {K : ℤ} {x : F192} (rx : Rng K x) (hK : 130 ≤ K) (hK' : K ≤ 4294967000) (h1 : -2 ^ 63 ≤ fval x) (h2 : fval x < 2 ^ 63)
    (h3 : 0 ≤ fval x ∨ fval x < -1 / 2 ^ 129) : ∃ a, FValid a ∧ 1 / 2 ≤ fval a ∧ fval a ≤ 4 ∧
      |((fval a : ℚ) : ℝ) - (2 : ℝ) ^ ((Int.fract (fval x) : ℚ) : ℝ)| ≤ (2 : ℝ) ^ ((Int.fract (fval x) : ℚ) : ℝ) * (1 / 2 ^ 48) ∧
      F192.pow2 x = (do let e ← i64Chk (asI64 a.exp + ⌊fval x⌋); pure ⟨a.digits, asU64 e⟩) := by
  obtain ⟨t, f, t1, f1, t2, t3, f2, f3, f4⟩ := floorSub_c rx hK hK' h1 h2 h3
  have n1 : -2 ^ 63 ≤ ⌊fval x⌋ := by rw [Int.le_floor]; push_cast; exact h1
  have n2 : ⌊fval x⌋ < 2 ^ 63 := by rw [Int.floor_lt]; norm_num at h2 ⊢; exact h2
  have ht : truncQ (fval t) = ⌊fval x⌋ := by
    rw [t3, truncQ]
    split
    · exact Int.floor_intCast _
    · exact Int.ceil_intCast _
  have ti := C40_to_int_partial (lo := -9223372036854775808) (hi := 9223372036854775807) t2 (by norm_num) (by norm_num) (by norm_num) (by norm_num) (by
    rw [t3]
    by_cases h : ⌊fval x⌋ = 0
    · left; rw [h]; rfl
    · right
      rw [← Int.cast_abs]
      exact_mod_cast Int.one_le_abs h)
  rw [ht, if_pos (by omega)] at ti
  have L0 : 693147180 / 1000000000 ≤ fval F192.LN_2 := by rw [ln2_val]; norm_num
  have L1 : fval F192.LN_2 ≤ 693147181 / 1000000000 := by rw [ln2_val]; norm_num
  have rl : Rng 64 F192.LN_2 := rng_const (by decide) (by linarith) (by linarith)
  obtain ⟨u, u1, u2, u3, u4⟩ := mulR2 f2 rl (by omega) (by omega) (by norm_num)
  have u0 := u4 (mul_nonneg f3 (by linarith))
  obtain ⟨p, a, p1, a1, a2, a3⟩ := pow2Series_c u2 u0 (by omega) (by omega)
  obtain ⟨k1, k2, k3⟩ := frac_real (Int.fract_nonneg _) (Int.fract_lt_one _) f4 u0 u3 a3
  refine ⟨a, a2, k2, k3, k1, ?_⟩
  rw [F192.pow2, t1, pure_bind, f1, pure_bind, ti, pure_bind]
  dsimp only
  rw [u1, pure_bind, p1, pure_bind, a1, pure_bind]

private theorem pow2_c {K : ℤ} {x : F192} (rx : Rng K x) (hK : 130 ≤ K) (hK' : K ≤ 4294967000) (h1 : -2 ^ 48 + 129 ≤ fval x) (h2 : fval x < 2 ^ 63 - 2 ^ 48 + 125)
    (h3 : 0 ≤ fval x ∨ fval x < -1 / 2 ^ 129) : ∃ z, F192.pow2 x = pure z ∧ FValid z ∧
      |((fval z : ℚ) : ℝ) - (2 : ℝ) ^ ((fval x : ℚ) : ℝ)| ≤ (2 : ℝ) ^ ((fval x : ℚ) : ℝ) * (1 / 2 ^ 48) := by
  obtain ⟨a, a2, k2, k3, k1, hp⟩ := pow2_core rx hK hK' (by norm_num at h1 ⊢; linarith) (by norm_num at h2 ⊢; linarith) h3
  have n1 : -2 ^ 48 + 129 ≤ ⌊fval x⌋ := by rw [Int.le_floor]; push_cast; norm_num at h1 ⊢; exact h1
  have n2 : ⌊fval x⌋ < 2 ^ 63 - 2 ^ 48 + 125 := by rw [Int.floor_lt]; norm_num at h2 ⊢; exact h2
  obtain ⟨e, e1, e2, e3⟩ := scale_exp a2 k2 k3 n1 n2
  refine ⟨_, ?_, e2, ?_⟩
  · rw [hp, e1, pure_bind]
  · have hx : ((fval x : ℚ) : ℝ) = ((Int.fract (fval x) : ℚ) : ℝ) + (⌊fval x⌋ : ℝ) := by
      rw [← Rat.cast_intCast, ← Rat.cast_add, Int.fract_add_floor]
    rw [hx, Real.rpow_add (by norm_num), Real.rpow_intCast, e3, Rat.cast_mul, Rat.cast_zpow, Rat.cast_ofNat]
    rw [← sub_mul, abs_mul, abs_of_pos (show (0 : ℝ) < 2 ^ ⌊fval x⌋ from zpow_pos (by norm_num) _), mul_right_comm]
    exact mul_le_mul_of_nonneg_right k1 (zpow_pos (by norm_num) _).le

theorem exp_small {x : F192} (hx : FValid x) (h0 : fval x ≠ 0) (hb : |fval x| < 2 ^ 127) : x.exp < 2 ^ 48 + (2 ^ 31 : ℕ) := by
  obtain ⟨s, m, e, hm, he, hzz, rfl, hv⟩ := F192.mk_of_not_zero hx h0
  rw [F192.mk_exp]
  by_contra hc
  rw [hv, abs_mul, F192.abs_sgn, one_mul, abs_of_pos (F192.mg_pos hm), F192.mg_eq] at hb
  have hu : F192.ulp (2 ^ 48) ≤ F192.ulp e := F192.ulp_mono (by omega)
  have hu1 : F192.ulp (2 ^ 48) = 1 := by rw [F192.ulp]; norm_num
  have hm' : (2 ^ 127 : ℚ) ≤ m := by exact_mod_cast hm.1
  rw [hu1] at hu
  have : (2 ^ 127 : ℚ) * 1 ≤ m * F192.ulp e := mul_le_mul hm' hu (by norm_num) (by linarith)
  norm_num at this hb
  linarith

/-- the power of two of a tiny positive number -/
theorem pow2_tiny {x : F192} (hx : FValid x) (h0 : 0 < fval x) (he : x.exp + 255 ≤ 281474976710656) : F192.pow2 x = pure ONE := by
  obtain ⟨t, t1, t2, t3⟩ := C43_floor_partial hx (by omega)
  obtain ⟨s, m, e, hm, he', hzz, rfl, hv⟩ := F192.mk_of_not_zero hx h0.ne'
  have hp := F192.mg_pos (e := e) hm
  rw [F192.mk_exp] at he
  cases s
  · have hlt : F192.mg m e < 1 := by
      have := F192.mg_lt_of_exp (e₁ := e) (e₂ := 281474976710529) hm F192.nrm_S (by omega)
      rwa [F192.mg_one] at this
    have hf : ⌊fval (F192.mk' false m e)⌋ = 0 := by
      rw [hv, F192.sgn_false, one_mul, Int.floor_eq_zero_iff]
      exact ⟨hp.le, hlt⟩
    rw [hf, Int.cast_zero] at t3
    rw [(F192.fval_eq_zero t2).1 t3] at t1
    have sx : F192.Sm (281474976710656 - 255) (F192.mk' false m e) := F192.sm_of hm (by omega)
    have sl : F192.Sm 281474976710528 F192.LN_2 := by
      rw [show F192.LN_2 = F192.mk' false 235865763225513294137944142764154484399 281474976710528 by decide]
      exact F192.sm_of ⟨by norm_num, by norm_num⟩ (by norm_num)
    obtain ⟨u, u1, u2⟩ := F192.sm_mul sx sl (by norm_num)
    norm_num at u2
    obtain ⟨r, r1, r2⟩ := F192.pow2Loop_tiny u2 (by norm_num) 13 2 u (by norm_num) (by norm_num) u2
    have a1 : F192.add ONE r = pure ONE := F192.sm_add (m := 170141183460469231731687303715884105728) (e := 281474976710529) ⟨by norm_num, by norm_num⟩
      (F192.nz_exp (by norm_num)) r2 (by norm_num)
    have ti : F192.to_int (-9223372036854775808) 9223372036854775807 ZERO = pure (some 0) := rfl
    have hi : i64Chk (asI64 ONE.exp + 0) = pure 281474976710529 := by
      rw [show asI64 ONE.exp = 281474976710529 by decide, add_zero, i64Chk, if_pos (by norm_num)]
    rw [F192.pow2, t1, pure_bind, F192.sub_zero_right hm hzz hzz, pure_bind, ti, pure_bind]
    dsimp only
    rw [u1, pure_bind, r1, pure_bind]
    dsimp only
    rw [a1, pure_bind, hi, pure_bind]
    exact congrArg pure (by decide)
  · rw [hv, F192.sgn_true] at h0
    linarith

private theorem rpow_tiny {X : ℝ} (h0 : 0 ≤ X) (h1 : X ≤ 1 / 2 ^ 100) : |1 - (2 : ℝ) ^ X| ≤ (2 : ℝ) ^ X * (1 / 2 ^ 48) := by
  have l1 := Real.log_two_gt_d9
  have l2 := Real.log_two_lt_d9
  have b1 : (1 : ℝ) ≤ 2 ^ X := Real.one_le_rpow (by norm_num) h0
  have b2 : (2 : ℝ) ^ X ≤ 1 + 1 / 2 ^ 60 := by
    rw [Real.rpow_def_of_pos (by norm_num)]
    have g1 : |Real.log 2 * X| ≤ 1 / 2 ^ 100 := by
      rw [abs_of_nonneg (by positivity)]
      have := mul_le_mul_of_nonneg_right (show Real.log 2 ≤ 1 by linarith) h0
      rw [one_mul] at this
      exact this.trans h1
    have g2 := Real.abs_exp_sub_one_le (g1.trans (by norm_num))
    have g3 := le_abs_self (Real.exp (Real.log 2 * X) - 1)
    norm_num at g1 g2 g3 ⊢
    linarith
  rw [abs_sub_comm, abs_of_nonneg (by linarith)]
  norm_num at b2 ⊢
  linarith

/-- The power of two, relatively, for all exponents from `-2^48 + 129` up to `2^63 - 2^48 + 125`, with the exception of those from `-2^-129` to zero. Missing:
the negative exponents down to `-2^-129`, and those below and above; see `C73_pow2_below_zero`, `C73_pow2_wraps` and `C73_pow2_panics`. -/
theorem C73_pow2_partial {x : F192} (hx : FValid x) (h1 : -2 ^ 48 + 129 ≤ fval x) (h2 : fval x < 2 ^ 63 - 2 ^ 48 + 125)
    (h3 : 0 ≤ fval x ∨ fval x < -1 / 2 ^ 129) : ∃ z, F192.pow2 x = pure z ∧ FValid z ∧
      |((fval z : ℚ) : ℝ) - (2 : ℝ) ^ ((fval x : ℚ) : ℝ)| ≤ (2 : ℝ) ^ ((fval x : ℚ) : ℝ) * (1 / 2 ^ 48) := by
  by_cases ht : 0 < fval x ∧ x.exp + 255 ≤ 281474976710656
  · refine ⟨ONE, pow2_tiny hx ht.1 ht.2, by decide, ?_⟩
    have hs : fval x ≤ 1 / 2 ^ 100 := by
      obtain ⟨s, m, e, hm, he', hzz, rfl, hv⟩ := F192.mk_of_not_zero hx ht.1.ne'
      have g := F192.mg_lt_of_exp (e₁ := e) (e₂ := 281474976710656 - 230) (m₂ := 170141183460469231731687303715884105728) hm ⟨by norm_num, by norm_num⟩ (by
        have := ht.2
        rw [F192.mk_exp] at this
        omega)
      rw [F192.mg_coeff_sub (by norm_num)] at g
      have hp := F192.mg_pos (e := e) hm
      rw [hv]
      cases s
      · rw [F192.sgn_false, one_mul]
        generalize F192.mg m e = v at *
        norm_num at g ⊢
        linarith
      · rw [F192.sgn_true]
        generalize F192.mg m e = v at *
        norm_num
        linarith
    have hs' : ((fval x : ℚ) : ℝ) ≤ 1 / 2 ^ 100 := by
      have := (Rat.cast_le (K := ℝ)).2 hs
      push_cast at this
      exact this
    have h0' : (0 : ℝ) < ((fval x : ℚ) : ℝ) := by exact_mod_cast ht.1
    rw [show fval ONE = 1 from F192.fval_one false, Rat.cast_one]
    exact rpow_tiny h0'.le hs'
  refine pow2_c (K := (2 ^ 31 : ℕ) + 128) (rng_of_exp hx ?_ (by norm_num)) (by norm_num) (by norm_num) h1 h2 h3
  by_cases h0 : fval x = 0
  · exact Or.inl ((F192.fval_eq_zero hx).1 h0)
  right
  refine ⟨?_, ?_⟩
  · by_contra hc
    rcases h3 with h3 | h3
    · exact ht ⟨lt_of_le_of_ne h3 (Ne.symm h0), by omega⟩
    · obtain ⟨s, m, e, hm, he', hzz, rfl, hv⟩ := F192.mk_of_not_zero hx h0
      rw [F192.mk_exp] at hc
      have g := F192.mg_lt_of_exp (e₁ := e) (e₂ := 281474976710656 - 256) (m₂ := 170141183460469231731687303715884105728) hm ⟨by norm_num, by norm_num⟩ (by omega)
      rw [F192.mg_coeff_sub (by norm_num)] at g
      have hp := F192.mg_pos (e := e) hm
      rw [hv] at h3
      have h4 : -F192.mg m e ≤ F192.sgn s * F192.mg m e := by
        cases s
        · rw [F192.sgn_false]; linarith
        · rw [F192.sgn_true]; linarith
      generalize F192.sgn s * F192.mg m e = w at *
      generalize F192.mg m e = v at *
      have g' : v < 1 / 2 ^ 129 := lt_of_lt_of_le g (by norm_num)
      norm_num at g' h3
      linarith
  · exact exp_small hx h0 (by
      rw [abs_lt]
      norm_num at h1 h2 ⊢
      constructor <;> linarith)

private instance : DecidableEq (M F192) := inferInstanceAs (DecidableEq (Option (Except Panic F192)))

private theorem half_val : fval ⟨0, 281474976710528⟩ = 1 / 2 := by
  have := F192.fval_mk (s := false) (m := 170141183460469231731687303715884105728) (e := 281474976710656 - 128) ⟨by norm_num, by norm_num⟩ (F192.nz_exp (by omega))
  rw [F192.mg_coeff_sub (by omega), F192.sgn_false, one_mul] at this
  exact this.trans (by norm_num)

/-- one half -/
example : FValid ⟨0, 281474976710528⟩ ∧ -2 ^ 48 + 129 ≤ fval ⟨0, 281474976710528⟩ ∧
    fval ⟨0, 281474976710528⟩ < 2 ^ 63 - 2 ^ 48 + 125 ∧ 0 ≤ fval ⟨0, 281474976710528⟩ := by
  refine ⟨by decide, ?_⟩
  rw [half_val]
  norm_num

theorem pow2_wit : F192.pow2E ⟨170141183460469231731687303715884105728, 281474976710400⟩ = pure ⟨70474785707535279845185036742912847704, 281474976710527⟩ := by
  decide +kernel

private theorem pow2_big_wit : F192.pow2E ⟨170141183460469231731687303715884105728, 281474976710578⟩ = pure ⟨0, 18446462598732840833⟩ := by
  decide +kernel

/-- `2^(-2^-129)` comes out as about 0.35 and not as about 1: the difference of the number and its floor rounds to one, which is mistaken for -1/2. -/
theorem C73_small_counterexample : ∃ x z, FValid x ∧ fval x = -1 / 2 ^ 129 ∧ F192.pow2 x = pure z ∧ fval z ≤ 354 / 1000 ∧
    1 / 2 ≤ (2 : ℝ) ^ ((fval x : ℚ) : ℝ) := by
  have hx : fval ⟨170141183460469231731687303715884105728, 281474976710400⟩ = -1 / 2 ^ 129 := by
    have := F192.fval_mk (s := true) (m := 170141183460469231731687303715884105728) (e := 281474976710656 - 256) ⟨by norm_num, by norm_num⟩ (F192.nz_exp (by omega))
    rw [F192.mg_coeff_sub (by omega), F192.sgn_true] at this
    exact this.trans (by norm_num)
  have hz : fval ⟨70474785707535279845185036742912847704, 281474976710527⟩ = 240615969168004511576872340458796953432 / 2 ^ 129 := by
    have := F192.fval_mk (s := false) (m := 240615969168004511576872340458796953432) (e := 281474976710656 - 129) ⟨by norm_num, by norm_num⟩ (F192.nz_exp (by omega))
    rw [F192.mg_coeff_sub (by omega), F192.sgn_false, one_mul] at this
    exact this.trans (by norm_num)
  refine ⟨_, _, by decide, hx, (F192.pow2E_c _).ret pow2_wit, by rw [hz]; norm_num, ?_⟩
  have h1 : ((-1 : ℚ) : ℝ) ≤ ((fval ⟨170141183460469231731687303715884105728, 281474976710400⟩ : ℚ) : ℝ) := Rat.cast_le.2 (by rw [hx]; norm_num)
  push_cast at h1
  have h2 := Real.rpow_le_rpow_of_exponent_le (x := 2) (by norm_num) h1
  rw [Real.rpow_neg_one] at h2
  norm_num at h2 ⊢
  exact h2

/-- `2^(-2^49)` comes out as a huge number: the exponent field wraps. -/
theorem C73_wrap_counterexample : ∃ x z, FValid x ∧ fval x = -2 ^ 49 ∧ F192.pow2 x = pure z ∧ 1 ≤ fval z ∧ (2 : ℝ) ^ ((fval x : ℚ) : ℝ) ≤ 1 / 2 := by
  have hx : fval ⟨170141183460469231731687303715884105728, 281474976710578⟩ = -2 ^ 49 := by
    have := F192.fval_mk (s := true) (m := 170141183460469231731687303715884105728) (e := 281474976710656 - 78) ⟨by norm_num, by norm_num⟩ (F192.nz_exp (by omega))
    rw [F192.mg_coeff_sub (by omega), F192.sgn_true] at this
    exact this.trans (by norm_num)
  have hz := F192.fval_mk (s := false) (m := 170141183460469231731687303715884105728) (e := 18446462598732840833) ⟨by norm_num, by norm_num⟩ (F192.nz_exp (by norm_num))
  rw [F192.sgn_false, one_mul, F192.mg_eq] at hz
  have hu : F192.ulp (2 ^ 48) ≤ F192.ulp 18446462598732840833 := F192.ulp_mono (by norm_num)
  have hu1 : F192.ulp (2 ^ 48) = 1 := by rw [F192.ulp]; norm_num
  rw [hu1] at hu
  refine ⟨_, _, by decide, hx, (F192.pow2E_c _).ret pow2_big_wit, ?_, ?_⟩
  · refine le_trans ?_ hz.ge
    generalize F192.ulp 18446462598732840833 = w at *
    push_cast
    linarith
  · have h1 : ((fval ⟨170141183460469231731687303715884105728, 281474976710578⟩ : ℚ) : ℝ) ≤ ((-1 : ℚ) : ℝ) := Rat.cast_le.2 (by rw [hx]; norm_num)
    push_cast at h1
    have h2 := Real.rpow_le_rpow_of_exponent_le (x := 2) (by norm_num) h1
    rw [Real.rpow_neg_one] at h2
    norm_num at h2 ⊢
    exact h2

/-! ### general powers -/

private theorem rpow_near {p L d : ℝ} (h : |p - L| ≤ d) (hd : d ≤ 1 / 4) : |(2 : ℝ) ^ p - (2 : ℝ) ^ L| ≤ (2 : ℝ) ^ L * (3 / 2 * d) := by
  have l1 := Real.log_two_gt_d9
  have l2 := Real.log_two_lt_d9
  have e : (2 : ℝ) ^ p = (2 : ℝ) ^ L * Real.exp (Real.log 2 * (p - L)) := by
    rw [← Real.rpow_def_of_pos (by norm_num), ← Real.rpow_add (by norm_num)]; congr 1; ring
  rw [e, ← mul_sub_one, abs_mul, abs_of_pos (Real.rpow_pos_of_pos (by norm_num) _)]
  refine mul_le_mul_of_nonneg_left ?_ (Real.rpow_pos_of_pos (by norm_num) _).le
  have h0 := abs_nonneg (p - L)
  have h1 : |Real.log 2 * (p - L)| ≤ 7 / 10 * d := by
    rw [abs_mul, abs_of_pos (by linarith)]
    exact mul_le_mul (by linarith) h h0 (by norm_num)
  refine (Real.abs_exp_sub_one_le (h1.trans (by linarith))).trans ?_
  linarith

private theorem pow2_zero : F192.pow2E ZERO = pure ONE := by
  decide +kernel

private theorem abs_tiny {y : F192} (hy : FValid y) (h0 : fval y ≠ 0) (h : y.exp ≤ 2 ^ 48 - 2 ^ 31) : |fval y| ≤ 1 / 2 ^ 129 * (1 / 2 ^ 70) := by
  obtain ⟨s, m, e, hm, he, hz, rfl, hv⟩ := F192.mk_of_not_zero hy h0
  rw [F192.mk_exp] at h
  have g := F192.mg_lt_of_exp (e₁ := e) (e₂ := 281474976710656 - 326) (m₂ := 170141183460469231731687303715884105728) hm ⟨by norm_num, by norm_num⟩ (by omega)
  rw [F192.mg_coeff_sub (by norm_num)] at g
  rw [hv, abs_mul, F192.abs_sgn, one_mul, abs_of_pos (F192.mg_pos hm)]
  refine g.le.trans ?_
  rw [show (2 : ℚ) ^ 326 = 2 ^ 127 * 2 ^ 199 by rw [← pow_add]]
  norm_num

/-- the product with a tiny number of the same sign, and its power of two -/
private theorem mul_tiny {y l : F192} (hy : FValid y) (hy0 : fval y ≠ 0) (hr : y.exp ≤ 2 ^ 48 - 2 ^ 31) (rl : Rng 130 l) (h : 0 ≤ fval y * fval l) :
    ∃ p, F192.mul y l = pure p ∧ F192.pow2 p = pure ONE := by
  by_cases hl0 : fval l = 0
  · refine ⟨ZERO, ?_, (F192.pow2E_c _).ret pow2_zero⟩
    rw [(F192.fval_eq_zero rl.1).1 hl0, F192.mul, show F192.is_zero ZERO = true from rfl, Bool.or_true, if_pos rfl]
  have hle : (l.exp : ℤ) ≤ 281474976710656 + 1000 := by
    rcases rl.exp with g | g
    · exact absurd g hl0
    · omega
  obtain ⟨s, m, e, hm, he, hz, rfl, hv⟩ := F192.mk_of_not_zero hy hy0
  obtain ⟨t, n, f, hn, hf, hz', rfl, hv'⟩ := F192.mk_of_not_zero rl.1 hl0
  rw [F192.mk_exp] at hr hle
  have hst : s = t := by
    have p1 := mul_pos (F192.mg_pos (e := e) hm) (F192.mg_pos (e := f) hn)
    rw [hv, hv'] at h
    cases s <;> cases t <;> simp [F192.sgn] at h ⊢ <;> linarith
  subst hst
  by_cases hE : 281474976710656 ≤ e + f
  · obtain ⟨k, i, a1, a5, a6, a4, a2, a3, -⟩ := F192.mul_c (a := s) (b := s) hm hn hz hz' hE (show e + f < 18446744073709551616 by omega)
    refine ⟨_, a3, ?_⟩
    rw [bne_self_eq_false]
    have hzi : ¬F192.Z false k i := F192.nz_exp a6
    refine pow2_tiny (F192.valid_mk a1 a5) ?_ (by rw [F192.mk_exp]; omega)
    rw [F192.fval_mk a1 hzi, F192.sgn_false, one_mul]
    exact F192.mg_pos a1
  · exact ⟨ZERO, (F192.mul_flush hm hn hz hz' (by omega)).1, (F192.pow2E_c _).ret pow2_zero⟩

/-- The power `x^y`, relatively, for positive `x` away from one. -/
theorem C73_pow_partial {x y : F192} (hx : FValid x) (hy : FValid y) (h0 : 0 < fval x) (hb : x.exp < 2 ^ 63)
    (h : 1 / 2 ^ 127 ≤ fval x ∨ ¬NearNegPow (Real.logb 2 ((fval x : ℚ) : ℝ))) (hl : 1 / 2 ^ 115 ≤ |Real.logb 2 ((fval x : ℚ) : ℝ)|)
    (hy' : |fval y| ≤ 2 ^ 110)
    (h1 : -2 ^ 48 + 2 ^ 8 ≤ ((fval y : ℚ) : ℝ) * Real.logb 2 ((fval x : ℚ) : ℝ)) (h2 : ((fval y : ℚ) : ℝ) * Real.logb 2 ((fval x : ℚ) : ℝ) ≤ 2 ^ 63 - 2 ^ 48)
    (h3 : 0 ≤ ((fval y : ℚ) : ℝ) * Real.logb 2 ((fval x : ℚ) : ℝ) ∨ ((fval y : ℚ) : ℝ) * Real.logb 2 ((fval x : ℚ) : ℝ) ≤ -1 / 2 ^ 127) :
    ∃ z, F192.pow x y = pure z ∧ FValid z ∧ |((fval z : ℚ) : ℝ) - ((fval x : ℚ) : ℝ) ^ ((fval y : ℚ) : ℝ)| ≤ ((fval x : ℚ) : ℝ) ^ ((fval y : ℚ) : ℝ) *
      (1 / 2 ^ 48 + |((fval y : ℚ) : ℝ)| / 2 ^ 116 + |((fval y : ℚ) : ℝ) * Real.logb 2 ((fval x : ℚ) : ℝ)| / 2 ^ 121) := by
  obtain ⟨l, l1, l2, l3, l4, l5⟩ := log2_main hx h0 hb h
  have rl : Rng 130 l := by
    refine ⟨l2, ?_⟩
    by_cases hl0 : fval l = 0
    · exact Or.inl hl0
    · refine Or.inr ⟨le_trans ?_ (l4 hl0), l5.le.trans ?_⟩ <;> norm_num
  have hX : (0 : ℝ) < ((fval x : ℚ) : ℝ) := by exact_mod_cast h0
  have hpow : ((fval x : ℚ) : ℝ) ^ ((fval y : ℚ) : ℝ) = (2 : ℝ) ^ (((fval y : ℚ) : ℝ) * Real.logb 2 ((fval x : ℚ) : ℝ)) := by
    rw [mul_comm, Real.rpow_mul (by norm_num), Real.rpow_logb (by norm_num) (by norm_num) hX]
  have a1 : |((fval l : ℚ) : ℝ) - Real.logb 2 ((fval x : ℚ) : ℝ)| ≤ |Real.logb 2 ((fval x : ℚ) : ℝ)| / 4 := by
    refine l3.trans ?_
    norm_num at hl ⊢
    linarith
  by_cases hr : fval y ≠ 0 ∧ y.exp ≤ 2 ^ 48 - 2 ^ 31
  · -- a tiny exponent
    obtain ⟨hy0, hr⟩ := hr
    have hyt := abs_tiny hy hy0 hr
    have hyt' : |((fval y : ℚ) : ℝ)| ≤ 1 / 2 ^ 129 * (1 / 2 ^ 70) := by
      have := (Rat.cast_le (K := ℝ)).2 hyt
      push_cast at this
      exact this
    have hlb : |Real.logb 2 ((fval x : ℚ) : ℝ)| ≤ 2 ^ 66 := by
      have g1 := (Rat.cast_lt (K := ℝ)).2 l5
      push_cast at g1
      have g2 := abs_sub_abs_le_abs_sub (Real.logb 2 ((fval x : ℚ) : ℝ)) ((fval l : ℚ) : ℝ)
      rw [abs_sub_comm] at g2
      norm_num at g1 ⊢
      linarith
    have hw : |((fval y : ℚ) : ℝ) * Real.logb 2 ((fval x : ℚ) : ℝ)| ≤ 1 / 2 ^ 128 := by
      rw [abs_mul]
      refine (mul_le_mul hyt' hlb (abs_nonneg _) (by positivity)).trans ?_
      norm_num
    have hw0 : 0 ≤ ((fval y : ℚ) : ℝ) * Real.logb 2 ((fval x : ℚ) : ℝ) := by
      rcases h3 with h3 | h3
      · exact h3
      · have := neg_abs_le (((fval y : ℚ) : ℝ) * Real.logb 2 ((fval x : ℚ) : ℝ))
        norm_num at this h3 hw
        linarith
    have hyl : 0 ≤ fval y * fval l := by
      have a1' := abs_le.1 a1
      have hl0 : 0 < |Real.logb 2 ((fval x : ℚ) : ℝ)| := lt_of_lt_of_le (by norm_num) hl
      have : (0 : ℝ) ≤ ((fval y : ℚ) : ℝ) * ((fval l : ℚ) : ℝ) := by
        rcases le_total 0 (Real.logb 2 ((fval x : ℚ) : ℝ)) with g | g
        · rw [abs_of_nonneg g] at a1' hl0
          exact mul_nonneg (nonneg_of_mul_nonneg_left hw0 hl0) (by linarith [a1'.1])
        · rw [abs_of_nonpos g] at a1' hl0
          have : ((fval y : ℚ) : ℝ) ≤ 0 := by
            by_contra hc
            have := mul_neg_of_pos_of_neg (not_le.1 hc) (show Real.logb 2 ((fval x : ℚ) : ℝ) < 0 by linarith)
            linarith
          exact mul_nonneg_of_nonpos_of_nonpos this (by linarith [a1'.2])
      exact_mod_cast this
    obtain ⟨p, p1, p2⟩ := mul_tiny hy hy0 hr rl hyl
    refine ⟨ONE, by rw [F192.pow, l1, pure_bind, p1, pure_bind, p2], by decide, ?_⟩
    rw [hpow, show fval ONE = 1 from F192.fval_one false, Rat.cast_one]
    refine (rpow_tiny hw0 ((le_abs_self _).trans (hw.trans (by norm_num)))).trans ?_
    refine mul_le_mul_of_nonneg_left ?_ (Real.rpow_pos_of_pos (by norm_num) _).le
    rw [add_assoc]
    exact le_add_of_nonneg_right (add_nonneg (div_nonneg (abs_nonneg _) (by norm_num)) (div_nonneg (abs_nonneg _) (by norm_num)))
  have ry : Rng ((2 ^ 31 : ℕ) + 128) y := by
    refine rng_of_exp hy ?_ (by norm_num)
    by_cases hy0 : fval y = 0
    · exact Or.inl ((F192.fval_eq_zero hy).1 hy0)
    · exact Or.inr ⟨by rw [not_and, not_le] at hr; have := hr hy0; omega, exp_small hy hy0 (lt_of_le_of_lt hy' (by norm_num))⟩
  obtain ⟨p, p1, p2, p3, -⟩ := mulR2 ry rl (by norm_num) (by norm_num) (by norm_num)
  have p3' := (Rat.cast_le (K := ℝ)).2 p3
  have hyr := (Rat.cast_le (K := ℝ)).2 hy'
  push_cast at p3' hyr
  rw [hpow]
  set Y := ((fval y : ℚ) : ℝ) with hY
  set l' := Real.logb 2 ((fval x : ℚ) : ℝ) with hl'
  -- the product of the exponent and the logarithm
  have a2 : |((fval l : ℚ) : ℝ)| ≤ 5 / 4 * |l'| := by
    have := abs_sub_abs_le_abs_sub ((fval l : ℚ) : ℝ) l'
    linarith
  have hY0 := abs_nonneg Y
  have a3 : |Y * ((fval l : ℚ) : ℝ)| ≤ 5 / 4 * |Y * l'| := by
    rw [abs_mul, abs_mul]
    calc |Y| * |((fval l : ℚ) : ℝ)| ≤ |Y| * (5 / 4 * |l'|) := mul_le_mul_of_nonneg_left a2 hY0
      _ = _ := by ring
  have a4 : |Y * ((fval l : ℚ) : ℝ) - Y * l'| ≤ |Y| / 2 ^ 118 + |Y * l'| / 2 ^ 127 := by
    rw [← mul_sub, abs_mul, abs_mul]
    calc |Y| * |((fval l : ℚ) : ℝ) - l'| ≤ |Y| * (1 / 2 ^ 118 + |l'| / 2 ^ 127) := mul_le_mul_of_nonneg_left l3 hY0
      _ = _ := by ring
  have a5 : |Y * ((fval l : ℚ) : ℝ) - Y * l'| ≤ |Y * l'| / 4 := by
    rw [← mul_sub, abs_mul, abs_mul]
    calc |Y| * |((fval l : ℚ) : ℝ) - l'| ≤ |Y| * (|l'| / 4) := mul_le_mul_of_nonneg_left a1 hY0
      _ = _ := by ring
  have hW0 := abs_nonneg (Y * l')
  have e1 : |((fval p : ℚ) : ℝ) - Y * l'| ≤ |Y| / 2 ^ 118 + |Y * l'| / 2 ^ 123 := by
    refine (abs_sub_le _ _ _).trans ((add_le_add (p3'.trans (mul_le_mul_of_nonneg_left a3 (by norm_num))) a4).trans ?_)
    generalize |Y * l'| = W at *
    norm_num
    linarith
  have e2 : |((fval p : ℚ) : ℝ) - Y * l'| ≤ |Y * l'| / 2 := by
    refine (abs_sub_le _ _ _).trans ((add_le_add (p3'.trans (mul_le_mul_of_nonneg_left a3 (by norm_num))) a5).trans ?_)
    generalize |Y * l'| = W at *
    norm_num
    linarith
  have hd : |Y| / 2 ^ 118 + |Y * l'| / 2 ^ 123 ≤ 1 / 4 := by
    have : |Y * l'| ≤ 2 ^ 63 := abs_le.2 ⟨le_trans (by norm_num) h1, h2.trans (by norm_num)⟩
    norm_num at this hyr ⊢
    linarith
  have e3 := abs_le.1 (e1.trans hd)
  have q1 : -2 ^ 48 + 129 ≤ fval p := by
    have : ((-2 ^ 48 + 129 : ℚ) : ℝ) ≤ ((fval p : ℚ) : ℝ) := by
      push_cast
      norm_num at h1 ⊢
      linarith [e3.1]
    exact Rat.cast_le.1 this
  have q2 : fval p < 2 ^ 63 - 2 ^ 48 + 125 := by
    have : ((fval p : ℚ) : ℝ) < ((2 ^ 63 - 2 ^ 48 + 125 : ℚ) : ℝ) := by
      push_cast
      norm_num at h2 ⊢
      linarith [e3.2]
    exact Rat.cast_lt.1 this
  have q3 : 0 ≤ fval p ∨ fval p < -1 / 2 ^ 129 := by
    have e4 := abs_le.1 e2
    rcases h3 with h3 | h3
    · left
      rw [abs_of_nonneg h3] at e4
      have : ((0 : ℚ) : ℝ) ≤ ((fval p : ℚ) : ℝ) := by
        push_cast
        linarith [e4.1]
      exact Rat.cast_le.1 this
    · right
      rw [abs_of_nonpos (h3.trans (by norm_num))] at e4
      have : ((fval p : ℚ) : ℝ) < ((-1 / 2 ^ 129 : ℚ) : ℝ) := by
        push_cast
        norm_num at h3 ⊢
        linarith [e4.2]
      exact Rat.cast_lt.1 this
  obtain ⟨z, z1, z2, z3⟩ := pow2_c p2 (by norm_num) (by norm_num) q1 q2 q3
  refine ⟨z, by rw [F192.pow, l1, pure_bind, p1, pure_bind, z1], z2, ?_⟩
  have e5 := rpow_near e1 hd
  have hp := Real.rpow_pos_of_pos (show (0 : ℝ) < 2 by norm_num) (Y * l')
  generalize (2 : ℝ) ^ (Y * l') = B at *
  generalize (2 : ℝ) ^ ((fval p : ℚ) : ℝ) = A at *
  have hA := (abs_le.1 e5).2
  refine (abs_sub_le _ _ _).trans ((add_le_add z3 e5).trans ?_)
  have hd0 : 0 ≤ |Y| / 2 ^ 118 + |Y * l'| / 2 ^ 123 := add_nonneg (div_nonneg hY0 (by norm_num)) (div_nonneg hW0 (by norm_num))
  have hD : 3 / 2 * (|Y| / 2 ^ 118 + |Y * l'| / 2 ^ 123) * (1 + 1 / 2 ^ 48) ≤ |Y| / 2 ^ 116 + |Y * l'| / 2 ^ 121 := by
    generalize |Y * l'| = W at *
    norm_num
    linarith
  generalize |Y| / 2 ^ 118 + |Y * l'| / 2 ^ 123 = d at *
  rw [add_assoc]
  generalize |Y| / 2 ^ 116 + |Y * l'| / 2 ^ 121 = D at *
  have hA' : A ≤ B * (1 + 3 / 2 * d) := by linarith
  calc A * (1 / 2 ^ 48) + B * (3 / 2 * d) ≤ B * (1 + 3 / 2 * d) * (1 / 2 ^ 48) + B * (3 / 2 * d) := by
        linarith [mul_le_mul_of_nonneg_right hA' (show (0 : ℝ) ≤ 1 / 2 ^ 48 by norm_num)]
    _ = B * (1 / 2 ^ 48 + 3 / 2 * d * (1 + 1 / 2 ^ 48)) := by ring
    _ ≤ B * (1 / 2 ^ 48 + D) := mul_le_mul_of_nonneg_left (by linarith) hp.le

/-- `3^(1/2)` -/
example : FValid ⟨85070591730234615865843651857942052864, 281474976710530⟩ ∧ fval ⟨85070591730234615865843651857942052864, 281474976710530⟩ = 3 ∧
    1 / 2 ^ 115 ≤ |Real.logb 2 ((3 : ℚ) : ℝ)| ∧ FValid ⟨0, 281474976710528⟩ ∧ |fval ⟨0, 281474976710528⟩| ≤ 2 ^ 110 ∧
    0 ≤ ((fval ⟨0, 281474976710528⟩ : ℚ) : ℝ) * Real.logb 2 ((3 : ℚ) : ℝ) ∧ ((fval ⟨0, 281474976710528⟩ : ℚ) : ℝ) * Real.logb 2 ((3 : ℚ) : ℝ) ≤ 2 ^ 63 - 2 ^ 48 := by
  have h1 : 1 ≤ Real.logb 2 3 := by
    rw [Real.le_logb_iff_rpow_le (by norm_num) (by norm_num)]
    norm_num
  have h2 : Real.logb 2 3 ≤ 2 := by
    rw [Real.logb_le_iff_le_rpow (by norm_num) (by norm_num)]
    norm_num
  refine ⟨by decide, ?_, ?_, by decide, ?_, ?_, ?_⟩
  · have := F192.fval_mk (s := false) (m := 255211775190703847597530955573826158592) (e := 281474976710656 - 126) ⟨by norm_num, by norm_num⟩ (F192.nz_exp (by omega))
    rw [F192.mg_coeff_sub (by omega), F192.sgn_false, one_mul] at this
    exact this.trans (by norm_num)
  · push_cast
    rw [abs_of_nonneg (by linarith)]
    exact le_trans (by norm_num) h1
  · rw [half_val]; norm_num [abs_of_pos]
  · rw [half_val]; push_cast; linarith
  · rw [half_val]; push_cast; norm_num; linarith

/-- A base that is not positive panics, whatever the exponent: also `(-2)^2` and `0^1`. -/
theorem C73_pow_panics {x : F192} (hx : FValid x) (h : fval x ≤ 0) (y : F192) : Panics (F192.pow x y) := by
  obtain ⟨p, hp⟩ := (C68_log2_panics hx h).1
  exact ⟨p, by rw [F192.pow, hp]; rfl⟩

/-- zero -/
example : FValid ZERO ∧ fval ZERO ≤ 0 := ⟨by decide, by rw [F192.fval_zero]⟩

end Props
end Hmath
