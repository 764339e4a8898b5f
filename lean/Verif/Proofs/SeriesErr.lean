import Verif.Proofs.SeriesReal
import Verif.Proofs.AsinReal
import Verif.Proofs.Trig
import Verif.Proofs.LnSqrt
import Mathlib.Analysis.Complex.ExponentialBounds

/-!
# Distance of the results of the iterative functions from the true values
-/

namespace Hmath
namespace RealSeries
open Nat

/-! ## sine and cosine -/

/-- `quarter` over the reals is `sin (m π/2 + u)` -/
theorem quarter_real (m : ℤ) (u : ℝ) : Real.sin (m * (Real.pi / 2) + u) =
    if m % 4 = 0 then Real.sin u else if m % 4 = 1 then Real.cos u else if m % 4 = 2 then -Real.sin u
      else -Real.cos u := by
  have hm : (m : ℝ) = ((4 * (m / 4) + m % 4 : ℤ) : ℝ) := by rw [Int.mul_ediv_add_emod]
  have h0 : 0 ≤ m % 4 := Int.emod_nonneg _ (by norm_num)
  have h4 : m % 4 < 4 := Int.emod_lt_of_pos _ (by norm_num)
  have key : Real.sin (m * (Real.pi / 2) + u) = Real.sin ((m % 4 : ℤ) * (Real.pi / 2) + u) := by
    rw [hm]
    push_cast
    rw [show (4 * ((m / 4 : ℤ) : ℝ) + ((m % 4 : ℤ) : ℝ)) * (Real.pi / 2) + u
      = (((m % 4 : ℤ) : ℝ) * (Real.pi / 2) + u) + ((m / 4 : ℤ) : ℝ) * (2 * Real.pi) by ring,
      Real.sin_add_int_mul_two_pi]
  rw [key]
  obtain h | h | h | h : m % 4 = 0 ∨ m % 4 = 1 ∨ m % 4 = 2 ∨ m % 4 = 3 := by omega
  · rw [h]; simp
  · rw [h]; simp only [Int.cast_one, one_mul]
    rw [add_comm, Real.sin_add_pi_div_two]; simp
  · rw [h]
    rw [show ((2 : ℤ) : ℝ) * (Real.pi / 2) + u = u + Real.pi by push_cast; ring, Real.sin_add_pi]; simp
  · rw [h]
    rw [show ((3 : ℤ) : ℝ) * (Real.pi / 2) + u = (u + Real.pi / 2) + Real.pi by push_cast; ring, Real.sin_add_pi,
      Real.sin_add_pi_div_two]; simp

theorem abs_neg_sub_neg (a b : ℝ) : |-a - -b| = |a - b| := by
  rw [← neg_sub', abs_neg]

theorem quarter_err (m : ℤ) {s c : ℚ} {u ε : ℝ} (hs : |Real.sin u - s| ≤ ε) (hc : |Real.cos u - c| ≤ ε) :
    |Real.sin (m * (Real.pi / 2) + u) - ((quarter m s c : ℚ) : ℝ)| ≤ ε := by
  rw [quarter_real, quarter]
  split_ifs
  · exact hs
  · exact hc
  · push_cast; rw [abs_neg_sub_neg]; exact hs
  · push_cast; rw [abs_neg_sub_neg]; exact hc

theorem sin_lip (x y : ℝ) : |Real.sin x - Real.sin y| ≤ |x - y| := by
  rw [Real.sin_sub_sin, abs_mul, abs_mul]
  have h1 : |Real.cos ((x + y) / 2)| ≤ 1 := Real.abs_cos_le_one _
  have h2 : |Real.sin ((x - y) / 2)| ≤ |(x - y) / 2| := Real.abs_sin_le_abs
  rw [abs_div, abs_two] at h2
  have h3 : 0 ≤ |Real.sin ((x - y) / 2)| := abs_nonneg _
  rw [abs_two]
  nlinarith [abs_nonneg (Real.cos ((x + y) / 2))]

theorem bbp_gt_three {n : Nat} (hn : 2 ≤ n) : (3 : ℝ) < ((bbpSum n : ℚ) : ℝ) := by
  have h := (pi_bound (n := n) (by omega)).2
  have h3 := Real.pi_gt_d2
  have h16 : (1 : ℝ) / (2 * 16 ^ n) ≤ 1 / (2 * 16 ^ 2) := by
    apply one_div_le_one_div_of_le (by positivity)
    have : (16 : ℝ) ^ 2 ≤ 16 ^ n := pow_le_pow_right₀ (by norm_num) hn
    linarith
  norm_num at h16 h3
  norm_num at h
  linarith

/-- a value produced by the reduction of the argument modulo quarter turns -/
theorem trig_err (m m' : ℤ) (x h : ℚ) (n : Nat) (hn : 2 ≤ n) (he : Even n) (hh : |h| ≤ 1 / 4)
    (hx : x = (m / 2 + h) * bbpSum n) :
    |Real.sin (x + m' * (Real.pi / 2))
      - ((quarter (m + m') (sinSum n (h * bbpSum n)) (cosSum n (h * bbpSum n)) : ℚ) : ℝ)|
      ≤ 1 / (2 * n)! + (|(x : ℝ)| / 3 + 1 / 4) / (2 * 16 ^ n) := by
  have hP3 := bbp_gt_three hn
  obtain ⟨hp0, hp1⟩ := pi_bound (n := n) (by omega)
  have hpi := Real.pi_lt_d2
  generalize hP : bbpSum n = P at *
  have hu : |((h * P : ℚ) : ℝ)| ≤ 1 := by
    have : |(h : ℝ)| ≤ 1 / 4 := by
      have : ((|h| : ℚ) : ℝ) ≤ ((1 / 4 : ℚ) : ℝ) := by exact_mod_cast hh
      push_cast at this; exact this
    push_cast
    rw [abs_mul, abs_of_pos (by linarith : (0 : ℝ) < (P : ℝ))]
    nlinarith [abs_nonneg (h : ℝ)]
  have hf : (0 : ℝ) < (2 * n)! := by exact_mod_cast (2 * n).factorial_pos
  have hs : |Real.sin ((h * P : ℚ) : ℝ) - ((sinSum n (h * P) : ℚ) : ℝ)| ≤ 1 / (2 * n)! := by
    refine (sinSum_abs (by omega) he _).trans ?_
    have hff : (((2 * n)! : Nat) : ℝ) ≤ (((2 * n + 1)! : Nat) : ℝ) := by
      exact_mod_cast Nat.factorial_le (by omega)
    exact div_le_div₀ zero_le_one (pow_le_one₀ (abs_nonneg _) hu) hf hff
  have hc : |Real.cos ((h * P : ℚ) : ℝ) - ((cosSum n (h * P) : ℚ) : ℝ)| ≤ 1 / (2 * n)! := by
    refine (cosSum_abs (by omega) he _).trans ?_
    exact div_le_div₀ zero_le_one (pow_le_one₀ (abs_nonneg _) hu) hf le_rfl
  have h1 := quarter_err (m + m') hs hc
  have hxr : (x : ℝ) = ((m : ℝ) / 2 + h) * P := by rw [hx]; push_cast; rfl
  have hm : |(m : ℝ) / 2| ≤ |(x : ℝ)| / 3 + 1 / 4 := by
    have e : (m : ℝ) / 2 = x / P - h := by rw [hxr]; field_simp; ring
    have hh' : |(h : ℝ)| ≤ 1 / 4 := by
      have : ((|h| : ℚ) : ℝ) ≤ ((1 / 4 : ℚ) : ℝ) := by exact_mod_cast hh
      push_cast at this; exact this
    rw [e]
    refine (abs_sub _ _).trans (add_le_add ?_ hh')
    rw [abs_div, abs_of_pos (by linarith : (0 : ℝ) < (P : ℝ))]
    exact div_le_div_of_nonneg_left (abs_nonneg _) (by norm_num) hP3.le
  have h2 : |Real.sin (x + m' * (Real.pi / 2)) - Real.sin (((m + m' : ℤ) : ℝ) * (Real.pi / 2) + ((h * P : ℚ) : ℝ))|
      ≤ (|(x : ℝ)| / 3 + 1 / 4) / (2 * 16 ^ n) := by
    refine (sin_lip _ _).trans ?_
    have e : (x + m' * (Real.pi / 2)) - (((m + m' : ℤ) : ℝ) * (Real.pi / 2) + ((h * P : ℚ) : ℝ))
        = -((m : ℝ) / 2 * (Real.pi - P)) := by
      rw [hxr]; push_cast; ring
    rw [e, abs_neg, abs_mul, abs_of_pos hp0]
    refine (mul_le_mul hm hp1.le hp0.le (by positivity)).trans_eq ?_
    rw [mul_one_div]
  have h3 := abs_sub_le (Real.sin (x + m' * (Real.pi / 2)))
    (Real.sin (((m + m' : ℤ) : ℝ) * (Real.pi / 2) + ((h * P : ℚ) : ℝ)))
    ((quarter (m + m') (sinSum n (h * P)) (cosSum n (h * P)) : ℚ) : ℝ)
  linarith

theorem sin_iter_err (x : ℚ) {k : Nat} (hk : k ≤ 255) : ∃ r, Ratio.sin_iter (ofRat x) k = pure (ofRat r) ∧
    |(r : ℝ) - Real.sin x| ≤ 1 / (4 * k + 4)! + (|(x : ℝ)| / 3 + 1 / 4) / (2 * 256 ^ (k + 1)) := by
  obtain ⟨m, h, h1, h2, h3⟩ := Ratio.sin_iter_c x hk
  refine ⟨_, h3, ?_⟩
  have := trig_err m 0 x h (2 * k + 2) (by omega) ⟨k + 1, by ring⟩ h1 h2
  rw [abs_sub_comm]
  rw [show 2 * (2 * k + 2) = 4 * k + 4 by ring, show 2 * k + 2 = 2 * (k + 1) by ring, pow_mul] at this
  norm_num at this ⊢
  exact this

theorem cos_iter_err (x : ℚ) {k : Nat} (hk : k ≤ 255) : ∃ r, Ratio.cos_iter (ofRat x) k = pure (ofRat r) ∧
    |(r : ℝ) - Real.cos x| ≤ 1 / (4 * k + 4)! + (|(x : ℝ)| / 3 + 1 / 4) / (2 * 256 ^ (k + 1)) := by
  obtain ⟨m, h, h1, h2, h3⟩ := Ratio.cos_iter_c x hk
  refine ⟨_, h3, ?_⟩
  have := trig_err m 1 x h (2 * k + 2) (by omega) ⟨k + 1, by ring⟩ h1 h2
  rw [abs_sub_comm]
  rw [show 2 * (2 * k + 2) = 4 * k + 4 by ring, show 2 * k + 2 = 2 * (k + 1) by ring, pow_mul] at this
  rw [Int.cast_one, one_mul, Real.sin_add_pi_div_two] at this
  norm_num at this ⊢
  exact this

/-! ## inverse functions -/

theorem atan_iter_err (x : ℚ) {k : Nat} (hk : k ≤ 255) : ∃ r, Ratio.atan_iter (ofRat x) k = pure (ofRat r) ∧
    |(r : ℝ) - Real.arctan x| ≤ (min |(x : ℝ)| |(x : ℝ)|⁻¹) ^ (4 * k + 5) / (4 * k + 5)
      + if 1 < |x| then 1 / (4 * 256 ^ (k + 1)) else 0 := by
  have e5 : (2 : ℝ) * ((2 * k + 2 : Nat) : ℝ) + 1 = 4 * k + 5 := by push_cast; ring
  have e5' : 2 * (2 * k + 2) + 1 = 4 * k + 5 := by ring
  rcases le_or_gt |x| 1 with h | h
  · refine ⟨_, Ratio.atan_iter_small h (by omega), ?_⟩
    rw [if_neg (not_lt.2 h), add_zero, abs_sub_comm]
    have := atanSum_abs (n := 2 * k + 2) ⟨k + 1, by ring⟩ x
    rw [e5, e5'] at this
    have hm : min |(x : ℝ)| |(x : ℝ)|⁻¹ = |(x : ℝ)| := by
      rcases eq_or_ne x 0 with h0 | h0
      · subst h0; simp
      · apply min_eq_left
        have hx : |(x : ℝ)| ≤ 1 := by exact_mod_cast h
        have : 0 < |(x : ℝ)| := abs_pos.2 (by exact_mod_cast h0)
        exact hx.trans ((one_le_inv₀ this).2 hx)
    rw [hm]
    exact this
  · refine ⟨_, Ratio.atan_iter_large h hk, ?_⟩
    rw [if_pos h]
    have hx : 1 < |(x : ℝ)| := by exact_mod_cast h
    have hm : min |(x : ℝ)| |(x : ℝ)|⁻¹ = |((x⁻¹ : ℚ) : ℝ)| := by
      push_cast
      rw [abs_inv]
      apply min_eq_right
      exact (inv_le_one_of_one_le₀ hx.le).trans hx.le
    have h1 := atanSum_abs (n := 2 * k + 2) ⟨k + 1, by ring⟩ x⁻¹
    rw [e5, e5', ← hm] at h1
    obtain ⟨hp0, hp1⟩ := pi_bound (n := 2 * k + 2) (by omega)
    rw [show 2 * k + 2 = 2 * (k + 1) by ring, pow_mul] at hp1
    norm_num at hp1
    rw [show 2 * (k + 1) = 2 * k + 2 by ring] at hp1
    have hq : (1 : ℝ) / (4 * 256 ^ (k + 1)) = ((256 ^ (k + 1))⁻¹ * (1 / 2)) / 2 := by
      have : (256 : ℝ) ^ (k + 1) ≠ 0 := by positivity
      field_simp; norm_num
    rw [hq]
    generalize (min |(x : ℝ)| |(x : ℝ)|⁻¹) ^ (4 * k + 5) / (4 * k + 5) = E at *
    push_cast at h1
    rw [abs_le] at h1 ⊢
    rcases lt_or_ge x 0 with hn | hn
    · rw [if_pos hn]
      have hn' : (x : ℝ) < 0 := by exact_mod_cast hn
      rw [Real.arctan_inv_of_neg hn'] at h1
      push_cast
      constructor <;> linarith [h1.1, h1.2]
    · rw [if_neg (not_lt.2 hn)]
      have hn' : 0 < (x : ℝ) := by
        have : (0 : ℝ) ≤ x := by exact_mod_cast hn
        rcases this.eq_or_lt with h0 | h0
        · rw [← h0] at hx; norm_num at hx
        · exact h0
      rw [Real.arctan_inv_of_pos hn'] at h1
      push_cast
      constructor <;> linarith [h1.1, h1.2]

theorem asin_iter_err {x : ℚ} (hx : |x| < 1) {k : Nat} (hk : k ≤ 643) :
    ∃ r, Ratio.asin_iter (ofRat x) k = pure (ofRat r) ∧
    |(r : ℝ) - Real.arcsin x| ≤ |(x : ℝ)| ^ (2 * k + 5) / ((2 * k + 5) * (1 - (x : ℝ) ^ 2)) := by
  refine ⟨_, Ratio.asin_iter_c hx.le hk, ?_⟩
  have := asinSum_abs (n := k + 2) (by omega) hx
  rw [abs_sub_comm]
  rw [show 2 * (k + 2) + 1 = 2 * k + 5 by ring,
    show (2 : ℝ) * ((k + 2 : Nat) : ℝ) + 1 = 2 * k + 5 by push_cast; ring] at this
  exact this

/-! ## logarithm -/

theorem ln_iter_err {T : Nat} (hT : T = 2 ^ 32) {x : ℚ} (hx : 0 < x) (hn : x.num < 2 ^ T)
    (hd : (x.den : ℤ) < 2 ^ T) {k : Nat} (hk : k ≤ 205) :
    ∃ r, Ratio.ln_iter (ofRat x) k = pure (ofRat r) ∧
    |(r : ℝ) - Real.log x| ≤ 1 / (k + 1) + (2 * |Real.log x| + 2) / ((6 * k + 13) * 2 ^ (6 * k + 12)) := by
  obtain ⟨l, a, h1, _, h3, h4, h5⟩ := Ratio.ln_iter_c hT hx hn hd hk
  refine ⟨_, h5, ?_⟩
  have a1 : (-(3 / 5) : ℝ) ≤ a := by
    have : (-(3 / 5) : ℚ) ≤ a := by norm_num at h3 ⊢; linarith
    have h : (((-(3 / 5)) : ℚ) : ℝ) ≤ a := by exact_mod_cast this
    push_cast at h; exact h
  have a2 : (a : ℝ) ≤ 1 + 1 / 2 ^ 108 := by
    have : (a : ℝ) ≤ ((1 + 1 / 2 ^ 108 : ℚ) : ℝ) := by exact_mod_cast h4.le
    push_cast at this; exact this
  have hxr : (x : ℝ) = (1 + a) * (2 : ℝ) ^ l := by rw [h1]; push_cast; rfl
  have hlog : Real.log x = Real.log (1 + a) + l * Real.log 2 := by
    rw [hxr, Real.log_mul (by linarith) (by positivity), Real.log_zpow]
  have hk0 : (0 : ℝ) ≤ k := by positivity
  have hk205 : (k : ℝ) ≤ 205 := by exact_mod_cast hk
  -- the series part
  have hA : |((logSum (2 * k + 1) a : ℚ) : ℝ) - Real.log (1 + a)| ≤ 1 / (k + 1) := by
    rw [rlog_cast]
    have e : (((2 * k + 1 : Nat) : ℝ) + 1) = 2 * (k + 1) := by push_cast; ring
    rcases le_or_gt 0 (a : ℝ) with h0 | h0
    · obtain ⟨g1, g2⟩ := rlog_pos (n := 2 * k + 1) ⟨k, by ring⟩ h0
      rw [abs_of_nonneg g1]
      refine g2.trans ?_
      rw [e, div_le_div_iff₀ (by positivity) (by positivity)]
      have hp : (a : ℝ) ^ (2 * k + 1 + 1) ≤ 2 := by
        calc (a : ℝ) ^ (2 * k + 1 + 1) ≤ (1 + 1 / 2 ^ 108) ^ (2 * k + 1 + 1) := pow_le_pow_left₀ h0 a2 _
          _ ≤ (1001 / 1000) ^ (2 * k + 1 + 1) := pow_le_pow_left₀ (by norm_num) (by norm_num) _
          _ ≤ (1001 / 1000) ^ (103 * 4) := pow_le_pow_right₀ (by norm_num) (by omega)
          _ ≤ 2 := by rw [pow_mul]; norm_num
      nlinarith
    · obtain ⟨g1, g2⟩ := rlog_neg (n := 2 * k + 1) (b := -a) (by linarith) (by linarith)
      rw [neg_neg, sub_neg_eq_add] at g1 g2
      rw [abs_of_nonneg g1]
      refine g2.trans ?_
      rw [e, div_le_div_iff₀ (by nlinarith) (by positivity)]
      have hp : (-a : ℝ) ^ (2 * k + 1 + 1) ≤ 9 / 25 := by
        calc (-a : ℝ) ^ (2 * k + 1 + 1) ≤ (3 / 5) ^ (2 * k + 1 + 1) := pow_le_pow_left₀ (by linarith) (by linarith) _
          _ ≤ (3 / 5) ^ 2 := pow_le_pow_of_le_one (by norm_num) (by norm_num) (by omega)
          _ = 9 / 25 := by norm_num
      nlinarith
  -- the exponent
  have hl2 : (0.69 : ℝ) < Real.log 2 := by have := Real.log_two_gt_d9; norm_num at this ⊢; linarith
  have hB : |(l : ℝ)| ≤ 2 * |Real.log x| + 2 := by
    have hla : |Real.log (1 + a)| ≤ 1.3 := by
      rw [abs_le]
      have u : Real.log (1 + a) ≤ a := by
        have := Real.log_le_sub_one_of_pos (show (0 : ℝ) < 1 + a by linarith); linarith
      have v : Real.log (1 / (1 + a)) ≤ 1 / (1 + a) - 1 :=
        Real.log_le_sub_one_of_pos (by have : (0 : ℝ) < 1 + a := by linarith
                                       positivity)
      rw [one_div, Real.log_inv] at v
      refine ⟨?_, ?_⟩
      · have : (1 + (a : ℝ))⁻¹ ≤ 2.3 := by
          have h6 : (1 : ℝ) / 2.3 ≤ 1 + a := by
            have : (-(1 / 2) - 1 / 2 ^ 109 : ℝ) < a := by
              have h : (((-(1 / 2) - 1 / 2 ^ 109) : ℚ) : ℝ) < a := by exact_mod_cast h3
              push_cast at h; exact h
            norm_num at this ⊢; linarith
          rw [inv_le_comm₀ (by linarith) (by norm_num), ← one_div]; exact h6
        linarith
      · norm_num at a2 ⊢; linarith
    have e : (l : ℝ) * Real.log 2 = Real.log x - Real.log (1 + a) := by linarith
    have h6 : |(l : ℝ)| * Real.log 2 ≤ |Real.log x| + 1.3 := by
      rw [← abs_of_pos (by linarith : 0 < Real.log 2), ← abs_mul, e]
      exact (abs_sub _ _).trans (add_le_add le_rfl hla)
    have h7 : |(l : ℝ)| * 0.69 ≤ |(l : ℝ)| * Real.log 2 := by gcongr
    have := abs_nonneg (Real.log (x : ℝ))
    norm_num at h6 h7
    linarith
  obtain ⟨c1, c2⟩ := ln2_bound (6 * k + 12)
  have e2 : (((6 * k + 12 : Nat) : ℝ) + 1) = 6 * k + 13 := by push_cast; ring
  rw [e2] at c2
  have hC : |(l : ℝ) * (((ln2Sum (6 * k + 12) : ℚ) : ℝ) - Real.log 2)|
      ≤ (2 * |Real.log x| + 2) / ((6 * k + 13) * 2 ^ (6 * k + 12)) := by
    rw [abs_mul, abs_sub_comm, abs_of_nonneg c1]
    refine (mul_le_mul hB c2 c1 (by positivity)).trans_eq ?_
    rw [mul_one_div]
  have e3 : (((logSum (2 * k + 1) a + ln2Sum (6 * k + 12) * l : ℚ)) : ℝ) - Real.log x
      = (((logSum (2 * k + 1) a : ℚ) : ℝ) - Real.log (1 + a)) + l * (((ln2Sum (6 * k + 12) : ℚ) : ℝ) - Real.log 2) := by
    rw [hlog]; push_cast; ring
  rw [e3]
  exact (abs_add_le _ _).trans (add_le_add hA hC)

/-! ## exponential -/

/-- relative error of `E^t` for `E = e (1 - δ)` -/
theorem pow_err {δ : ℝ} (h0 : 0 ≤ δ) {t : ℤ} (ht : |(t : ℝ)| * δ ≤ 1 / 2) :
    |(1 - δ) ^ t - 1| ≤ 2 * (|(t : ℝ)| * δ) := by
  rcases eq_or_ne t 0 with hz | hz
  · subst hz; simp
  have ht1 : 1 ≤ |(t : ℝ)| := by
    have : 1 ≤ |t| := Int.one_le_abs hz
    exact_mod_cast this
  have hδ : δ ≤ 1 / 2 := by nlinarith
  have key : ∀ n : Nat, 1 - n * δ ≤ (1 - δ) ^ n ∧ (1 - δ) ^ n ≤ 1 := by
    intro n
    refine ⟨?_, pow_le_one₀ (by linarith) (by linarith)⟩
    have := one_add_mul_le_pow (a := -δ) (by linarith) n
    rw [← sub_eq_add_neg] at this
    linarith
  rcases Int.natAbs_eq t with h | h
  · have habs : |(t : ℝ)| = t.natAbs := by rw [h]; simp
    rw [habs] at ht ⊢
    rw [h, zpow_natCast]
    simp only [Int.natAbs_natCast]
    obtain ⟨k1, k2⟩ := key t.natAbs
    rw [abs_le]
    have : 0 ≤ (t.natAbs : ℝ) * δ := by positivity
    constructor <;> linarith
  · have habs : |(t : ℝ)| = t.natAbs := by rw [h]; simp
    rw [habs] at ht ⊢
    obtain ⟨k1, k2⟩ := key t.natAbs
    generalize t.natAbs = n at *
    rw [h, zpow_neg, zpow_natCast]
    have hpos : 0 < (1 - δ) ^ n := by linarith
    have hge : 1 ≤ ((1 - δ) ^ n)⁻¹ := (one_le_inv₀ hpos).2 k2
    rw [abs_of_nonneg (by linarith), sub_le_iff_le_add, inv_le_iff_one_le_mul₀ hpos]
    have : 0 ≤ (n : ℝ) * δ := by positivity
    nlinarith

theorem exp_tail (k : Nat) {y : ℚ} (hy : |y| ≤ 1) :
    |Real.exp y - ((expSum (k + 1) y : ℚ) : ℝ)| ≤ 2 / (k + 1)! := by
  have hF : (0 : ℝ) < (k + 1)! := by exact_mod_cast (k + 1).factorial_pos
  have hyr : |(y : ℝ)| ≤ 1 := by exact_mod_cast hy
  have h1 : |(y : ℝ)| ^ (k + 1) ≤ 1 := pow_le_one₀ (abs_nonneg _) hyr
  have h2 : (((k + 1 : Nat) : ℝ) + 1) / (((k + 1)! : ℝ) * ((k + 1 : Nat) : ℝ)) ≤ 2 / (k + 1)! := by
    generalize ((k + 1)! : ℝ) = F at *
    have hk0 : (0 : ℝ) ≤ k := by positivity
    push_cast
    rw [div_le_div_iff₀ (by positivity) hF]
    nlinarith
  refine (expSum_abs (n := k + 1) (by omega) hy).trans ?_
  calc _ ≤ 1 * (2 / ((k + 1)! : ℝ)) := mul_le_mul h1 h2 (by positivity) zero_le_one
    _ = _ := one_mul _

/-- relative error of the factor `e^f` -/
theorem exp_frac_err {k : Nat} {f : ℚ} (hfl : f < 1) (hfg : -1 < f) {δ : ℝ}
    (hδ : ((expSum (k + 20) 1 : ℚ) : ℝ) = Real.exp 1 * (1 - δ)) (dpos : 0 < δ) (d1 : δ < 1)
    (dle : δ ≤ 1 / (k + 1)!) :
    |((Ratio.expFracVal k f : ℚ) : ℝ) / Real.exp f - 1| ≤ 6 / (k + 1)! := by
  have hF : (0 : ℝ) < (k + 1)! := by exact_mod_cast (k + 1).factorial_pos
  have he2 := Real.exp_one_lt_d9
  have f1 : (f : ℝ) < 1 := by exact_mod_cast hfl
  have f2 : (-1 : ℝ) < f := by exact_mod_cast hfg
  rw [Ratio.expFracVal]
  split_ifs with h9
  · have hy : |1 - f| ≤ 1 := by rw [abs_le]; constructor <;> linarith
    have tl := exp_tail k hy
    have hS1 : (1 : ℝ) ≤ ((expSum (k + 1) (1 - f) : ℚ) : ℝ) := by
      have : 1 ≤ expSum (k + 1) (1 - f) := by
        rw [expSum, Finset.sum_range_succ']
        have : 0 ≤ ∑ i ∈ Finset.range k, (1 - f) ^ (i + 1) / ((i + 1)! : ℚ) := by
          have : 0 ≤ 1 - f := by linarith
          exact Finset.sum_nonneg fun i _ => by positivity
        simp
        linarith
      exact_mod_cast this
    generalize expSum (k + 1) (1 - f) = S at *
    generalize expSum (k + 20) 1 = E at *
    generalize ((k + 1)! : ℝ) = F at *
    push_cast
    have e : (E : ℝ) / S / Real.exp f - 1
        = (1 - δ) * ((Real.exp ((1 - f : ℚ) : ℝ) - S) / S) - δ := by
      rw [hδ]
      push_cast
      rw [Real.exp_sub]
      field_simp
      ring
    rw [e]
    have h1 : |(Real.exp ((1 - f : ℚ) : ℝ) - S) / S| ≤ 2 / F := by
      rw [abs_div, abs_of_pos (by linarith : (0 : ℝ) < (S : ℝ))]
      exact (div_le_self (abs_nonneg _) hS1).trans tl
    have h2 : |(1 - δ) * ((Real.exp ((1 - f : ℚ) : ℝ) - S) / S)| ≤ 2 / F := by
      rw [abs_mul, abs_of_pos (by linarith : 0 < 1 - δ)]
      nlinarith [abs_nonneg ((Real.exp ((1 - f : ℚ) : ℝ) - S) / S)]
    have h4 : (6 : ℝ) / F = 2 / F + 1 / F + 3 / F := by ring
    have h5 : (0 : ℝ) ≤ 3 / F := by positivity
    have h6 := abs_sub ((1 - δ) * ((Real.exp ((1 - f : ℚ) : ℝ) - S) / S)) δ
    rw [abs_of_pos dpos] at h6
    linarith
  · have hy : |f| ≤ 1 := by rw [abs_le]; constructor <;> linarith
    have tl := exp_tail k hy
    generalize expSum (k + 1) f = S at *
    generalize ((k + 1)! : ℝ) = F at *
    have e : (S : ℝ) / Real.exp f - 1 = -((Real.exp f - S) * Real.exp (-f)) := by
      rw [Real.exp_neg]; field_simp; ring
    rw [e, abs_neg, abs_mul, abs_of_pos (Real.exp_pos _)]
    have h1 : Real.exp (-(f : ℝ)) ≤ Real.exp 1 := Real.exp_le_exp.2 (by linarith)
    calc |Real.exp (f : ℝ) - S| * Real.exp (-f) ≤ 2 / F * 3 :=
          mul_le_mul tl (by linarith) (Real.exp_pos _).le (by positivity)
      _ = 6 / F := by ring

theorem exp_one_zpow (t : ℤ) : Real.exp 1 ^ t = Real.exp t := by
  rcases Int.natAbs_eq t with h | h
  · rw [h, zpow_natCast, ← Real.exp_nat_mul, mul_one, Int.cast_natCast]
  · rw [h, zpow_neg, zpow_natCast, ← Real.exp_nat_mul, mul_one, ← Real.exp_neg, Int.cast_neg, Int.cast_natCast]

theorem qtrunc_bounds (x : ℚ) : -1 < x - Ratio.qtrunc x ∧ |((Ratio.qtrunc x : ℤ) : ℝ)| ≤ |(x : ℝ)| := by
  rcases le_total 0 x with h | h
  · rw [Ratio.qtrunc_nonneg x h]
    have h1 := Int.floor_le x
    have h2 : 0 ≤ ⌊x⌋ := Int.floor_nonneg.2 h
    refine ⟨by linarith, ?_⟩
    have e1 : ((⌊x⌋ : ℚ) : ℝ) ≤ x := by exact_mod_cast h1
    have e2 : (0 : ℝ) ≤ (⌊x⌋ : ℝ) := by exact_mod_cast h2
    rw [abs_of_nonneg e2]
    refine le_trans ?_ (le_abs_self _)
    exact_mod_cast e1
  · rw [Ratio.qtrunc_nonpos x h]
    have h1 := Int.ceil_lt_add_one x
    have h3 := Int.le_ceil x
    have h2 : ⌈x⌉ ≤ 0 := Int.ceil_le.2 (by exact_mod_cast h)
    refine ⟨by linarith, ?_⟩
    have e1 : x ≤ ((⌈x⌉ : ℚ) : ℝ) := by exact_mod_cast h3
    have e2 : (⌈x⌉ : ℝ) ≤ 0 := by exact_mod_cast h2
    rw [abs_of_nonpos e2]
    refine le_trans ?_ (neg_le_abs _)
    apply neg_le_neg
    exact_mod_cast e1

theorem exp_iter_err {x : ℚ} {k : Nat} (hk : k ≤ 2147483627) (hx : |Ratio.qtrunc x| ≤ 2147483647) :
    ∃ r, Ratio.exp_iter (ofRat x) k = pure (ofRat r) ∧
    |(r : ℝ) - Real.exp x| ≤ (6 / (k + 1)! + 14 * |(x : ℝ)| / (k + 20)!) * Real.exp x := by
  refine ⟨_, Ratio.exp_iter_c hk hx, ?_⟩
  obtain ⟨hfg, htx⟩ := qtrunc_bounds x
  have hfl := Ratio.qtrunc_frac_lt x
  generalize ht : Ratio.qtrunc x = t at *
  generalize hf : x - t = f at *
  have hxr : (x : ℝ) = f + t := by rw [← hf]; push_cast; ring
  obtain ⟨d0, d1⟩ := e_bound (n := k + 20) (by omega)
  have he := Real.exp_one_gt_d9
  have hF1 : (1 : ℝ) ≤ (k + 1)! := by exact_mod_cast (k + 1).factorial_pos
  have hG20 : (2432902008176640000 : ℝ) ≤ (k + 20)! := by
    have h : 20! ≤ (k + 20)! := Nat.factorial_le (by omega)
    have h2 : 20! = 2432902008176640000 := by decide +kernel
    rw [h2] at h
    exact_mod_cast h
  have hFG : (((k + 1)! : Nat) : ℝ) ≤ (((k + 20)! : Nat) : ℝ) := by
    exact_mod_cast Nat.factorial_le (by omega)
  -- δ
  obtain ⟨δ, hδ⟩ : ∃ δ : ℝ, ((expSum (k + 20) 1 : ℚ) : ℝ) = Real.exp 1 * (1 - δ) :=
    ⟨1 - ((expSum (k + 20) 1 : ℚ) : ℝ) / Real.exp 1, by field_simp; ring⟩
  have dpos : 0 < δ := by
    rw [hδ] at d0
    have : 0 < Real.exp 1 * δ := by linarith
    exact (mul_pos_iff_of_pos_left (by linarith)).1 this
  have dle : δ ≤ 1 / (k + 20)! := by
    rw [hδ] at d1
    have : Real.exp 1 * δ ≤ 2 / (k + 20)! := by linarith
    have h2 : 2 * δ ≤ Real.exp 1 * δ := by nlinarith
    have h3 : (2 : ℝ) / (k + 20)! = 2 * (1 / (k + 20)!) := by ring
    linarith
  have hdsmall : δ ≤ 1 / 2432902008176640000 := dle.trans (one_div_le_one_div_of_le (by norm_num) hG20)
  have hd1 : δ < 1 := lt_of_le_of_lt hdsmall (by norm_num)
  have hα := exp_frac_err hfl hfg hδ dpos hd1 (dle.trans (one_div_le_one_div_of_le (by linarith) hFG))
  obtain ⟨α, hαd⟩ : ∃ α, α = ((Ratio.expFracVal k f : ℚ) : ℝ) / Real.exp f - 1 := ⟨_, rfl⟩
  have hαe : ((Ratio.expFracVal k f : ℚ) : ℝ) = Real.exp f * (1 + α) := by
    rw [hαd]; field_simp; ring
  rw [← hαd] at hα
  have hE0 : ((expSum (k + 20) 1 : ℚ) : ℝ) ^ t = Real.exp t * (1 - δ) ^ t := by
    rw [hδ, mul_zpow]
    rw [exp_one_zpow]
  have htd : |(t : ℝ)| * δ ≤ 1 / 2 := by
    have : |(t : ℝ)| ≤ 2147483647 := by exact_mod_cast hx
    have h0 := abs_nonneg (t : ℝ)
    calc |(t : ℝ)| * δ ≤ 2147483647 * (1 / 2432902008176640000) := mul_le_mul this hdsmall dpos.le (by norm_num)
      _ ≤ 1 / 2 := by norm_num
  have hβ := pow_err dpos.le htd
  have h6 : (6 : ℝ) / (k + 1)! ≤ 6 := div_le_self (by norm_num) hF1
  generalize (1 - δ) ^ t = B at *
  generalize ((k + 1)! : ℝ) = F at *
  generalize ((k + 20)! : ℝ) = G at *
  push_cast
  rw [hαe, hE0, hxr, Real.exp_add]
  have e : Real.exp (f : ℝ) * (1 + α) * (Real.exp t * B) - Real.exp f * Real.exp t
      = (α + (1 + α) * (B - 1)) * (Real.exp f * Real.exp t) := by ring
  rw [e, abs_mul, abs_of_pos (by positivity : (0 : ℝ) < Real.exp f * Real.exp t)]
  refine mul_le_mul_of_nonneg_right ?_ (by positivity)
  have h1 : |1 + α| ≤ 7 := by
    have := abs_add_le 1 α
    rw [abs_one] at this
    linarith
  have h2 : |(1 + α) * (B - 1)| ≤ 14 * |(f + t : ℝ)| / G := by
    rw [abs_mul, ← hxr]
    have hb2 : |B - 1| ≤ 2 * (|(x : ℝ)| * (1 / G)) :=
      hβ.trans (mul_le_mul_of_nonneg_left (mul_le_mul htx dle dpos.le (abs_nonneg _)) (by norm_num))
    calc |1 + α| * |B - 1| ≤ 7 * (2 * (|(x : ℝ)| * (1 / G))) :=
          mul_le_mul h1 hb2 (abs_nonneg _) (by norm_num)
      _ = 14 * |(x : ℝ)| / G := by ring
  exact (abs_add_le _ _).trans (add_le_add hα h2)

/-! ## square root -/

theorem nat_sqrt_real (N : Nat) : (Nat.sqrt N : ℝ) ≤ √(N : ℝ) ∧ √(N : ℝ) < Nat.sqrt N + 1 := by
  constructor
  · apply Real.le_sqrt_of_sq_le
    have := Nat.sqrt_le N
    rw [sq]
    exact_mod_cast this
  · rw [Real.sqrt_lt' (by positivity)]
    have := Nat.lt_succ_sqrt N
    rw [sq]
    exact_mod_cast this

/-- the quotient of two integer square roots -/
theorem sqrt_quot {n d B : Nat} (hn : 0 < n) (hd : 0 < d) (hB : 0 < B) :
    √((n : ℝ) / d) * (1 - 1 / √(B : ℝ)) ≤ (Nat.sqrt (n * B) : ℝ) / Nat.sqrt (d * B) ∧
    (Nat.sqrt (n * B) : ℝ) / Nat.sqrt (d * B) * (1 - 1 / √(B : ℝ)) ≤ √((n : ℝ) / d) := by
  obtain ⟨n1, n2⟩ := nat_sqrt_real (n * B)
  obtain ⟨d1, d2⟩ := nat_sqrt_real (d * B)
  have hD : (0 : ℝ) < Nat.sqrt (d * B) := by exact_mod_cast Nat.sqrt_pos.2 (Nat.mul_pos hd hB)
  push_cast at n1 n2 d1 d2
  rw [Real.sqrt_mul (by positivity)] at n1 n2 d1 d2
  rw [Real.sqrt_div (by positivity)]
  generalize (Nat.sqrt (n * B) : ℝ) = N' at *
  generalize (Nat.sqrt (d * B) : ℝ) = D' at *
  have hb : 0 < √(B : ℝ) := Real.sqrt_pos.2 (by exact_mod_cast hB)
  have hb1 : (1 : ℝ) ≤ √(B : ℝ) := Real.one_le_sqrt.2 (by exact_mod_cast hB)
  have hn1 : (1 : ℝ) ≤ √(n : ℝ) := Real.one_le_sqrt.2 (by exact_mod_cast hn)
  have hd1 : (1 : ℝ) ≤ √(d : ℝ) := Real.one_le_sqrt.2 (by exact_mod_cast hd)
  generalize √(n : ℝ) = a at *
  generalize √(d : ℝ) = c at *
  generalize √(B : ℝ) = b at *
  have hc : 0 < c := by linarith
  have ha : 0 < a := by linarith
  have hib : 1 / b ≤ 1 := (div_le_one hb).2 hb1
  have e1 : 1 - 1 / b = (b - 1) / b := by field_simp
  rw [e1]
  constructor
  · rw [_root_.div_mul_div_comm, div_le_div_iff₀ (by positivity) hD]
    calc a * (b - 1) * D' ≤ a * (b - 1) * (c * b) := by
          apply mul_le_mul_of_nonneg_left d1
          exact mul_nonneg ha.le (by linarith)
      _ ≤ N' * (c * b) := by
          apply mul_le_mul_of_nonneg_right _ (by positivity)
          nlinarith
  · rw [_root_.div_mul_div_comm, div_le_div_iff₀ (by positivity) hc]
    calc N' * (b - 1) * c ≤ a * b * (b - 1) * c := by
          apply mul_le_mul_of_nonneg_right _ hc.le
          exact mul_le_mul_of_nonneg_right n1 (by linarith)
      _ = a * b * ((b - 1) * c) := by ring
      _ ≤ a * b * D' := by
          apply mul_le_mul_of_nonneg_left _ (by positivity)
          nlinarith
      _ = a * (D' * b) := by ring

end RealSeries
end Hmath
