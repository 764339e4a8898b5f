import Verif.Props.Exp2
import Verif.Props.Log
import Mathlib.Algebra.Order.Ring.Pow

/-!
# C75: the logarithm and the power are not inverse for large numbers
-/

namespace Hmath
namespace Props
open UBig

/-- a factor so close to one that its power stays below two -/
private theorem pow_near {x : ℝ} {T : Nat} (h0 : 0 < x) (h1 : T * x < 1 / 2) (h2 : 1 ≤ T) : 1 + T * x ≤ (1 + x) ^ T ∧ (1 + x) ^ T < 2 := by
  have hT : (1 : ℝ) ≤ T := by exact_mod_cast h2
  have hx : x < 1 / 2 := lt_of_le_of_lt (le_mul_of_one_le_left h0.le hT) h1
  constructor
  · exact one_add_mul_le_pow (by linarith) T
  · have a := one_add_mul_le_pow (a := -x) (by linarith) T
    have b : (1 + x) ^ T * (1 + -x) ^ T ≤ 1 := by
      rw [← mul_pow]
      refine pow_le_one₀ (mul_nonneg (by linarith) (by linarith)) ?_
      nlinarith
    have c : (0 : ℝ) < (1 + x) ^ T := pow_pos (by linarith) T
    by_contra hc
    rw [not_lt] at hc
    have d := mul_le_mul hc a (by linarith) c.le
    linarith

/-- "the inverse function of `log2_accurate`": the numbers just above a power of two from `2^34` on have the logarithm of that power and are not taken back. -/
theorem C75_counterexample_inverse {a : UBig} (ha : Valid a) {k : Nat} (hk : 34 ≤ k) (hk' : k ≤ 140) (h1 : 2 ^ k < val a) (h2 : (val a - 2 ^ k) * 2 ^ 33 < 2 ^ k) :
    ∃ l, log2_accurate a = pure l ∧ Computes (exp2_accurate l) (2 ^ k) ∧ 2 ^ k ≠ val a := by
  obtain ⟨r, ⟨l, l1, l2, l3⟩, -, r1, r2⟩ := C46_log2_accurate ha (by omega) (by
    have e1 : 2 ^ k ≤ 2 ^ 140 := Nat.pow_le_pow_right (by norm_num) hk'
    have e2 : val [0, 0, 0, 0, 0, 1] = 2 ^ 160 := by decide
    have := length_le_of_val_le (a := [0, 0, 0, 0, 0, 1]) (by decide) ha (by rw [e2]; omega)
    refine le_trans this (by decide))
  obtain ⟨T, hT⟩ : ∃ T : Nat, T = 2 ^ 32 := ⟨_, rfl⟩
  rw [← hT] at r1 r2
  obtain ⟨j, hj⟩ : ∃ j, val a = 2 ^ k + j := ⟨val a - 2 ^ k, by omega⟩
  have hj0 : 0 < j := by omega
  have hj1 : j * 2 ^ 33 < 2 ^ k := by rwa [hj, Nat.add_sub_cancel_left] at h2
  have pk : (0 : ℝ) < 2 ^ k := by positivity
  have hx : (val a : ℝ) = 2 ^ k * (1 + j / 2 ^ k) := by
    rw [hj]; push_cast; field_simp
  have hjr : (j : ℝ) * 2 ^ 33 < 2 ^ k := by exact_mod_cast hj1
  have hTr : (T : ℝ) = 2 ^ 32 := by rw [hT]; norm_num
  obtain ⟨p1, p2⟩ := pow_near (x := j / 2 ^ k) (T := T) (div_pos (by exact_mod_cast hj0) pk)
    (by
      rw [hTr, mul_div_assoc', div_lt_iff₀ pk]
      norm_num at hjr ⊢
      linarith) (by rw [hT]; norm_num)
  have e : (val a : ℝ) ^ T = 2 ^ (k * T) * (1 + j / 2 ^ k) ^ T := by rw [hx, mul_pow, ← pow_mul]
  have pkT : (0 : ℝ) < 2 ^ (k * T) := by positivity
  -- the logarithm
  have u1 : r ≤ k * T := by
    have : (2 : ℝ) ^ r ≤ (val a : ℝ) ^ T := by exact_mod_cast r1
    rw [e] at this
    have : (2 : ℝ) ^ r < 2 ^ (k * T + 1) := by
      refine lt_of_le_of_lt this ?_
      rw [pow_succ]
      exact mul_lt_mul_of_pos_left p2 pkT
    have := (pow_lt_pow_iff_right₀ (by norm_num : (1 : ℝ) < 2)).1 this
    omega
  have u2 : k * T ≤ r := by
    by_contra hc
    have h3 : (val a : ℝ) ^ T * 2 ^ 109 < 2 ^ (r + 1) * (2 ^ 109 + 1) := by exact_mod_cast r2
    have h4 : (2 : ℝ) ^ (r + 1) ≤ 2 ^ (k * T) := pow_le_pow_right₀ (by norm_num) (by omega)
    have h5 := h3.trans_le (mul_le_mul_of_nonneg_right h4 (by norm_num))
    rw [e, mul_assoc] at h5
    have h6 := lt_of_mul_lt_mul_left h5 pkT.le
    have h7 : 1 / 2 ^ 108 ≤ (T : ℝ) * (j / 2 ^ k) := by
      rw [hTr, mul_div_assoc', div_le_div_iff₀ (by positivity) pk, one_mul]
      have h8 : (2 : ℝ) ^ k ≤ 2 ^ 140 := pow_le_pow_right₀ (by norm_num) hk'
      have h9 : (1 : ℝ) ≤ j := by exact_mod_cast hj0
      norm_num at h8 ⊢
      linarith
    norm_num at h6 h7
    linarith
  refine ⟨l, l1, ?_, by omega⟩
  exact C75_whole l2 (k := k) (by rw [l3, ← hT]; omega) (by omega)

/-- `2^40 + 1` becomes `2^40` -/
example : ∃ l, log2_accurate [1, 256] = pure l ∧ Computes (exp2_accurate l) (2 ^ 40) ∧ 2 ^ 40 ≠ val [1, 256] :=
  C75_counterexample_inverse (by decide) (by decide) (by decide) (by decide) (by decide)

end Props
end Hmath
