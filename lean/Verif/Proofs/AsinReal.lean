import Verif.Proofs.SeriesReal

/-!
# Distance of the arc sine series from the arc sine
-/

namespace Hmath
namespace RealSeries
open Finset Nat Set

/-- the binomial coefficients of `1 / √(1 - z)` -/
noncomputable def binv (j : Nat) : ℝ := ((2 * j)! : ℝ) / (4 ^ j * (j ! : ℝ) ^ 2)

theorem binv_pos (j : Nat) : 0 < binv j := by
  have h1 : (0 : ℝ) < (2 * j)! := by exact_mod_cast (2 * j).factorial_pos
  have h2 : (0 : ℝ) < j ! := by exact_mod_cast j.factorial_pos
  unfold binv
  positivity

theorem binv_succ (j : Nat) : (j + 1) * binv (j + 1) = (j + 1 / 2) * binv j := by
  have h1 := rfac_ne j
  have h2 := rfac_ne (2 * j)
  rw [binv, binv, show 2 * (j + 1) = 2 * j + 1 + 1 by ring, Nat.factorial_succ (2 * j + 1),
    Nat.factorial_succ (2 * j), Nat.factorial_succ j, pow_succ (4 : ℝ)]
  have h3 : ((j : ℝ) + 1) ≠ 0 := by positivity
  push_cast
  field_simp
  ring

theorem binv_le_one (j : Nat) : binv j ≤ 1 := by
  induction j with
  | zero => simp [binv]
  | succ j ih =>
    have h := binv_succ j
    have hp := binv_pos j
    have hj : (0 : ℝ) ≤ j := by positivity
    by_contra hc
    have : ((j : ℝ) + 1) * 1 < (j + 1) * binv (j + 1) := by
      refine mul_lt_mul_of_pos_left (not_le.1 hc) (by linarith)
    nlinarith

/-- partial sums of `1 / √(1 - z)` -/
noncomputable def dsum (n : Nat) (z : ℝ) : ℝ := ∑ j ∈ range n, binv j * z ^ j
/-- their derivative -/
noncomputable def dsum' (n : Nat) (z : ℝ) : ℝ := ∑ j ∈ range n, binv j * (j * z ^ (j - 1))

theorem dsum_deriv (n : Nat) (z : ℝ) : HasDerivAt (dsum n) (dsum' n z) z := by
  have : HasDerivAt (fun z => ∑ j ∈ range n, binv j * z ^ j) (dsum' n z) z :=
    HasDerivAt.fun_sum fun j _ => (hasDerivAt_pow j z).const_mul _
  exact this

theorem dsum_ode (n : Nat) (z : ℝ) :
    2 * (1 - z) * dsum' n z = dsum n z - 2 * n * binv n * z ^ (n - 1) := by
  induction n with
  | zero => simp [dsum, dsum']
  | succ n ih =>
    rw [dsum, dsum', Finset.sum_range_succ, Finset.sum_range_succ, ← dsum, ← dsum', Nat.add_sub_cancel]
    have hb := binv_succ n
    have hz : (n : ℝ) * (z * z ^ (n - 1)) = n * z ^ n := by
      rcases Nat.eq_zero_or_pos n with h | h
      · subst h; simp
      · obtain ⟨m, rfl⟩ : ∃ m, n = m + 1 := ⟨n - 1, by omega⟩
        rw [Nat.add_sub_cancel, _root_.pow_succ' z m]
    push_cast
    have e1 : 2 * (1 - z) * (dsum' n z + binv n * (n * z ^ (n - 1)))
        = 2 * (1 - z) * dsum' n z + 2 * binv n * (n * z ^ (n - 1)) - 2 * binv n * (n * (z * z ^ (n - 1))) := by ring
    rw [e1, ih, hz, show 2 * ((n : ℝ) + 1) * binv (n + 1) * z ^ n = 2 * (((n : ℝ) + 1) * binv (n + 1)) * z ^ n by ring, hb]
    ring

theorem dsum_nonneg (n : Nat) {z : ℝ} (hz : 0 ≤ z) : 0 ≤ dsum n z :=
  Finset.sum_nonneg fun j _ => mul_nonneg (binv_pos j).le (by positivity)

theorem dsum_zero (n : Nat) : dsum (n + 1) 0 = 1 := by
  rw [dsum, Finset.sum_range_succ']
  simp [binv]

theorem dsum_upper {n : Nat} (hn : 0 < n) {z : ℝ} (h0 : 0 ≤ z) : (1 - z) * dsum n z ^ 2 ≤ 1 := by
  obtain ⟨m, rfl⟩ : ∃ m, n = m + 1 := ⟨n - 1, by omega⟩
  have h := le_of_deriv (f := fun z => -((1 - z) * dsum (m + 1) z ^ 2))
    (f' := fun x => dsum (m + 1) x * (2 * ((m + 1 : Nat) : ℝ) * binv (m + 1) * x ^ (m + 1 - 1))) h0 (fun x _ => by
      have h1 := (((hasDerivAt_id x).const_sub 1).mul ((dsum_deriv (m + 1) x).pow 2)).neg
      refine HasDerivAt.congr_deriv h1 ?_
      have := dsum_ode (m + 1) x
      simp only [id, Pi.pow_apply]
      push_cast at *
      linear_combination (-dsum (m + 1) x) * this) (fun x hx => by
      have := hx.1
      have := binv_pos (m + 1)
      have := dsum_nonneg (m + 1) hx.1
      positivity)
  simp only [dsum_zero] at h
  linarith

/-- adding the geometric tail overshoots -/
theorem dsum_lower {n : Nat} (hn : 0 < n) {z : ℝ} (h0 : 0 ≤ z) (h1 : z < 1) :
    1 ≤ (1 - z) * (dsum n z + binv n * (z ^ n / (1 - z))) ^ 2 := by
  obtain ⟨m, rfl⟩ : ∃ m, n = m + 1 := ⟨n - 1, by omega⟩
  generalize hN : m + 1 = N
  have hd : ∀ x ∈ Icc 0 z, HasDerivAt (fun z => (1 - z) * (dsum N z + binv N * (z ^ N / (1 - z))) ^ 2)
      ((dsum N x + binv N * (x ^ N / (1 - x))) * (binv N * (x ^ N / (1 - x)))) x := by
    intro x hx
    have hx1 : 1 - x ≠ 0 := by linarith [hx.2]
    have a1 : HasDerivAt (fun z : ℝ => 1 - z) (-1) x := (hasDerivAt_id x).const_sub 1
    have a2 : HasDerivAt (fun z : ℝ => z ^ N / (1 - z)) ((N * x ^ (N - 1) * (1 - x) - x ^ N * (-1)) / (1 - x) ^ 2) x :=
      (hasDerivAt_pow N x).div a1 hx1
    have a3 := (dsum_deriv N x).add (a2.const_mul (binv N))
    have a4 : HasDerivAt (fun z => (1 - z) * (dsum N z + binv N * (z ^ N / (1 - z))) ^ 2) _ x := a1.mul (a3.pow 2)
    refine a4.congr_deriv ?_
    have ode := dsum_ode N x
    have e : ((N : ℝ) * x ^ (N - 1) * (1 - x) - x ^ N * (-1)) / (1 - x) ^ 2 * (1 - x)
        = N * x ^ (N - 1) + x ^ N / (1 - x) := by field_simp; ring
    simp only [Pi.add_apply]
    generalize x ^ N / (1 - x) = W at *
    generalize ((N : ℝ) * x ^ (N - 1) * (1 - x) - x ^ N * (-1)) / (1 - x) ^ 2 = W' at *
    push_cast
    linear_combination (dsum N x + binv N * W) * ode + 2 * (dsum N x + binv N * W) * binv N * e
  have h := le_of_deriv h0 hd (fun x hx => by
    have := hx.1
    have : 0 < 1 - x := by linarith [hx.2]
    have := binv_pos N
    have := dsum_nonneg N hx.1
    positivity)
  subst hN
  simp only [dsum_zero, zero_pow (Nat.succ_ne_zero m), zero_div, mul_zero, sub_zero, add_zero, one_pow, mul_one] at h
  exact h

/-- `asinSum` over the reals -/
noncomputable def rasin (n : Nat) (x : ℝ) : ℝ := ∑ j ∈ range n, binv j / (2 * j + 1) * x ^ (2 * j + 1)

theorem rasin_cast (n : Nat) (y : ℚ) : ((asinSum n y : ℚ) : ℝ) = rasin n y := by
  rw [asinSum, rasin]
  push_cast
  refine Finset.sum_congr rfl fun j _ => ?_
  rw [binv, div_div]

theorem rasin_deriv (n : Nat) (x : ℝ) : HasDerivAt (rasin n) (dsum n (x ^ 2)) x := by
  have : HasDerivAt (fun x => ∑ j ∈ range n, binv j / (2 * j + 1) * x ^ (2 * j + 1)) (dsum n (x ^ 2)) x := by
    refine HasDerivAt.fun_sum fun j _ => ?_
    have h := (hasDerivAt_pow (2 * j + 1) x).const_mul (binv j / (2 * j + 1))
    refine h.congr_deriv ?_
    have h2 : (2 * (j : ℝ) + 1) ≠ 0 := by positivity
    rw [Nat.add_sub_cancel, ← pow_mul]
    push_cast
    field_simp
  exact this

theorem rasin_zero (n : Nat) : rasin n 0 = 0 := by
  rw [rasin]; exact Finset.sum_eq_zero fun j _ => by simp

theorem rasin_bound {n : Nat} (hn : 0 < n) {x : ℝ} (h0 : 0 ≤ x) (h1 : x < 1) :
    0 ≤ Real.arcsin x - rasin n x ∧
      Real.arcsin x - rasin n x ≤ x ^ (2 * n + 1) / ((2 * n + 1) * (1 - x ^ 2)) := by
  have hsq : ∀ y ∈ Icc 0 x, y ^ 2 ≤ x ^ 2 ∧ x ^ 2 < 1 := fun y hy =>
    ⟨pow_le_pow_left₀ hy.1 hy.2 2, by nlinarith⟩
  have hd : ∀ y ∈ Icc 0 x, HasDerivAt (fun y => Real.arcsin y - rasin n y) (1 / √(1 - y ^ 2) - dsum n (y ^ 2)) y := by
    intro y hy
    exact (Real.hasDerivAt_arcsin (by linarith [hy.1]) (by linarith [hy.2])).sub (rasin_deriv n y)
  have h2 := le_of_deriv h0 hd (fun y hy => by
    have hs : 0 < 1 - y ^ 2 := by linarith [(hsq y hy).1, (hsq y hy).2]
    have hr : 0 < √(1 - y ^ 2) := Real.sqrt_pos.2 hs
    rw [sub_nonneg, le_div_iff₀ hr]
    have hu := dsum_upper hn (sq_nonneg y)
    have hsqrt : √(1 - y ^ 2) ^ 2 = 1 - y ^ 2 := Real.sq_sqrt hs.le
    by_contra hc
    rw [not_le] at hc
    have : 1 < (dsum n (y ^ 2) * √(1 - y ^ 2)) ^ 2 := by nlinarith
    rw [mul_pow, hsqrt] at this
    linarith)
  have hp : ∀ y : ℝ, HasDerivAt (fun y : ℝ => y ^ (2 * n + 1) / ((2 * n : Nat) + 1) / (1 - x ^ 2))
      (y ^ (2 * n) / (1 - x ^ 2)) y := fun y => (pow_deriv' (2 * n) y).div_const _
  have h3 := le_of_deriv h0 (fun y hy => (hp y).sub (hd y hy)) (fun y hy => by
    have hs : 0 < 1 - y ^ 2 := by linarith [(hsq y hy).1, (hsq y hy).2]
    have hxs : 0 < 1 - x ^ 2 := by linarith [(hsq y hy).2]
    have hr : 0 < √(1 - y ^ 2) := Real.sqrt_pos.2 hs
    have hl := dsum_lower hn (sq_nonneg y) (by linarith)
    have hsqrt : √(1 - y ^ 2) ^ 2 = 1 - y ^ 2 := Real.sq_sqrt hs.le
    have hb := binv_pos n
    have hdn := dsum_nonneg n (sq_nonneg y)
    have hU : 1 / √(1 - y ^ 2) ≤ dsum n (y ^ 2) + binv n * ((y ^ 2) ^ n / (1 - y ^ 2)) := by
      rw [div_le_iff₀ hr]
      by_contra hc
      rw [not_le] at hc
      have hUn : 0 ≤ (dsum n (y ^ 2) + binv n * ((y ^ 2) ^ n / (1 - y ^ 2))) * √(1 - y ^ 2) := by positivity
      have : ((dsum n (y ^ 2) + binv n * ((y ^ 2) ^ n / (1 - y ^ 2))) * √(1 - y ^ 2)) ^ 2 < 1 := by nlinarith
      rw [mul_pow, hsqrt] at this
      linarith
    have hV : binv n * ((y ^ 2) ^ n / (1 - y ^ 2)) ≤ y ^ (2 * n) / (1 - x ^ 2) := by
      rw [← pow_mul]
      calc binv n * (y ^ (2 * n) / (1 - y ^ 2)) ≤ 1 * (y ^ (2 * n) / (1 - x ^ 2)) := by
            have := hy.1
            gcongr
            · exact binv_le_one n
            · exact hy.2
        _ = _ := one_mul _
    linarith)
  simp only [Pi.sub_apply, Real.arcsin_zero, rasin_zero, sub_zero] at h2 h3
  rw [zero_pow (by omega), zero_div, zero_div] at h3
  refine ⟨h2, ?_⟩
  have e : x ^ (2 * n + 1) / ((2 * n + 1) * (1 - x ^ 2)) = x ^ (2 * n + 1) / ((2 * n : Nat) + 1) / (1 - x ^ 2) := by
    rw [div_div]; push_cast; rfl
  rw [e]
  linarith

theorem asinSum_neg (n : Nat) (y : ℚ) : asinSum n (-y) = -asinSum n y := by
  rw [asinSum, asinSum, ← Finset.sum_neg_distrib]
  refine Finset.sum_congr rfl fun j _ => ?_
  rw [Odd.neg_pow (odd_two_mul_add_one j)]
  ring

theorem asinSum_abs {n : Nat} (hn : 0 < n) {y : ℚ} (hy : |y| < 1) :
    |Real.arcsin y - ((asinSum n y : ℚ) : ℝ)| ≤ |(y : ℝ)| ^ (2 * n + 1) / ((2 * n + 1) * (1 - (y : ℝ) ^ 2)) := by
  have key : ∀ y : ℚ, 0 ≤ y → y < 1 → |Real.arcsin y - ((asinSum n y : ℚ) : ℝ)|
      ≤ |(y : ℝ)| ^ (2 * n + 1) / ((2 * n + 1) * (1 - (y : ℝ) ^ 2)) := by
    intro y h h1
    have h' : (0 : ℝ) ≤ y := by exact_mod_cast h
    have h1' : (y : ℝ) < 1 := by exact_mod_cast h1
    rw [rasin_cast, abs_of_nonneg h', abs_of_nonneg (rasin_bound hn h' h1').1]
    exact (rasin_bound hn h' h1').2
  rw [abs_lt] at hy
  rcases le_total 0 y with h | h
  · exact key y h hy.2
  · have := key (-y) (by linarith) (by linarith)
    rw [asinSum_neg] at this
    push_cast at this
    rw [Real.arcsin_neg, abs_neg, ← neg_sub', abs_neg, neg_sq] at this
    exact this

end RealSeries
end Hmath
