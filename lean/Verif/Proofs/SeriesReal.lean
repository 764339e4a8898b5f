import Verif.Proofs.Trig
import Verif.Proofs.LnSqrt
import Mathlib.Analysis.Calculus.Deriv.MeanValue
import Mathlib.Analysis.SpecialFunctions.Trigonometric.ArctanDeriv
import Mathlib.Analysis.SpecialFunctions.Trigonometric.InverseDeriv
import Mathlib.Analysis.SpecialFunctions.Trigonometric.Deriv
import Mathlib.Analysis.SpecialFunctions.Log.Deriv
import Mathlib.Analysis.Real.Pi.Bounds

/-!
# Distance of the partial sums from the real functions
-/

namespace Hmath
namespace RealSeries
open Finset Nat Set

theorem le_of_deriv {f f' : ℝ → ℝ} {b : ℝ} (hb : 0 ≤ b)
    (hf : ∀ x ∈ Icc 0 b, HasDerivAt f (f' x) x) (h : ∀ x ∈ Icc 0 b, 0 ≤ f' x) : f 0 ≤ f b := by
  have hm : MonotoneOn f (Icc 0 b) := by
    refine monotoneOn_of_hasDerivWithinAt_nonneg (f' := f') (convex_Icc 0 b) ?_ ?_ ?_
    · exact fun x hx => (hf x hx).continuousAt.continuousWithinAt
    · exact fun x hx => (hf x (interior_subset hx)).hasDerivWithinAt
    · exact fun x hx => h x (interior_subset hx)
  exact hm ⟨le_refl _, hb⟩ ⟨hb, le_refl _⟩ hb

theorem lt_of_deriv {f f' : ℝ → ℝ} {b : ℝ} (hb : 0 < b)
    (hf : ∀ x ∈ Icc 0 b, HasDerivAt f (f' x) x) (h : ∀ x ∈ Ioo 0 b, 0 < f' x) : f 0 < f b := by
  have hm : StrictMonoOn f (Icc 0 b) := by
    refine strictMonoOn_of_hasDerivWithinAt_pos (f' := f') (convex_Icc 0 b) ?_ ?_ ?_
    · exact fun x hx => (hf x hx).continuousAt.continuousWithinAt
    · exact fun x hx => (hf x (interior_subset hx)).hasDerivWithinAt
    · intro x hx; rw [interior_Icc] at hx; exact h x hx
  exact hm ⟨le_refl _, hb.le⟩ ⟨hb.le, le_refl _⟩ hb

/-! ## sine and cosine -/

/-- `sinSum` over the reals -/
noncomputable def rsin (n : Nat) (y : ℝ) : ℝ := ∑ j ∈ range n, (-1) ^ j * y ^ (2 * j + 1) / ((2 * j + 1)! : ℝ)
/-- `cosSum` over the reals -/
noncomputable def rcos (n : Nat) (y : ℝ) : ℝ := ∑ j ∈ range n, (-1) ^ j * y ^ (2 * j) / ((2 * j)! : ℝ)

theorem rsin_cast (n : Nat) (y : ℚ) : ((sinSum n y : ℚ) : ℝ) = rsin n y := by
  rw [sinSum, rsin]; push_cast; rfl
theorem rcos_cast (n : Nat) (y : ℚ) : ((cosSum n y : ℚ) : ℝ) = rcos n y := by
  rw [cosSum, rcos]; push_cast; rfl

theorem rfac_ne (n : Nat) : (n ! : ℝ) ≠ 0 := by exact_mod_cast n.factorial_ne_zero

theorem rsin_deriv (n : Nat) (y : ℝ) : HasDerivAt (rsin n) (rcos n y) y := by
  have : HasDerivAt (fun y => ∑ j ∈ range n, (-1) ^ j * y ^ (2 * j + 1) / ((2 * j + 1)! : ℝ)) (rcos n y) y := by
    refine HasDerivAt.fun_sum fun j _ => ?_
    have h := ((hasDerivAt_pow (2 * j + 1) y).const_mul ((-1 : ℝ) ^ j)).div_const ((2 * j + 1)! : ℝ)
    refine h.congr_deriv ?_
    symm
    rw [Nat.factorial_succ, Nat.add_sub_cancel]
    have := rfac_ne (2 * j)
    push_cast
    have h2 : (2 * (j : ℝ) + 1) ≠ 0 := by positivity
    field_simp
  exact this

theorem rcos_deriv (n : Nat) (y : ℝ) : HasDerivAt (rcos (n + 1)) (-rsin n y) y := by
  have : HasDerivAt (fun y => ∑ j ∈ range (n + 1), (-1) ^ j * y ^ (2 * j) / ((2 * j)! : ℝ)) (-rsin n y) y := by
    have h : HasDerivAt (fun y => ∑ j ∈ range (n + 1), (-1) ^ j * y ^ (2 * j) / ((2 * j)! : ℝ))
        (∑ j ∈ range (n + 1), (-1) ^ j * ((2 * j : Nat) * y ^ (2 * j - 1)) / ((2 * j)! : ℝ)) y :=
      HasDerivAt.fun_sum fun j _ => ((hasDerivAt_pow (2 * j) y).const_mul ((-1 : ℝ) ^ j)).div_const _
    refine h.congr_deriv ?_
    symm
    rw [Finset.sum_range_succ', rsin, ← Finset.sum_neg_distrib]
    simp only [mul_zero, Nat.cast_zero, zero_mul, zero_div, add_zero]
    refine Finset.sum_congr rfl fun j _ => ?_
    rw [show 2 * (j + 1) = 2 * j + 1 + 1 by ring, Nat.factorial_succ (2 * j + 1), Nat.add_sub_cancel, pow_succ (-1 : ℝ)]
    have := rfac_ne (2 * j + 1)
    have h2 : (2 * (j : ℝ) + 1 + 1) ≠ 0 := by positivity
    push_cast
    field_simp
  exact this

theorem rsin_zero (n : Nat) : rsin n 0 = 0 := by
  rw [rsin]; exact Finset.sum_eq_zero fun j _ => by simp
theorem rcos_zero (n : Nat) : rcos (n + 1) 0 = 1 := by
  rw [rcos, Finset.sum_range_succ']
  simp

theorem trig_alt (n : Nat) : (∀ y : ℝ, 0 ≤ y → 0 ≤ (-1) ^ (n + 1) * (Real.cos y - rcos (n + 1) y)) ∧
    (∀ y : ℝ, 0 ≤ y → 0 ≤ (-1) ^ (n + 1) * (Real.sin y - rsin (n + 1) y)) := by
  have step : ∀ n, (∀ y : ℝ, 0 ≤ y → 0 ≤ (-1) ^ (n + 1) * (Real.cos y - rcos (n + 1) y)) →
      (∀ y : ℝ, 0 ≤ y → 0 ≤ (-1) ^ (n + 1) * (Real.sin y - rsin (n + 1) y)) := by
    intro n h y hy
    have := le_of_deriv (f := fun y => (-1) ^ (n + 1) * (Real.sin y - rsin (n + 1) y)) hy
      (fun x _ => ((Real.hasDerivAt_sin x).sub (rsin_deriv (n + 1) x)).const_mul _) (fun x hx => h x hx.1)
    simpa [rsin_zero] using this
  induction n with
  | zero =>
    have h0 : ∀ y : ℝ, 0 ≤ y → 0 ≤ (-1) ^ (0 + 1) * (Real.cos y - rcos (0 + 1) y) := by
      intro y _
      have := Real.cos_le_one y
      simp [rcos]
      exact this
    exact ⟨h0, step 0 h0⟩
  | succ n ih =>
    have h1 : ∀ y : ℝ, 0 ≤ y → 0 ≤ (-1) ^ (n + 1 + 1) * (Real.cos y - rcos (n + 1 + 1) y) := by
      intro y hy
      have := le_of_deriv (f := fun y => (-1) ^ (n + 1 + 1) * (Real.cos y - rcos (n + 1 + 1) y)) hy
        (fun x _ => ((Real.hasDerivAt_cos x).sub (rcos_deriv (n + 1) x)).const_mul _) (fun x hx => ?_)
      · simpa [rcos_zero] using this
      · have := ih.2 x hx.1
        rw [pow_succ]
        linarith
    exact ⟨h1, step _ h1⟩

theorem rsin_bound {n : Nat} (hn : 0 < n) (he : Even n) {y : ℝ} (hy : 0 ≤ y) :
    0 ≤ Real.sin y - rsin n y ∧ Real.sin y - rsin n y ≤ y ^ (2 * n + 1) / ((2 * n + 1)! : ℝ) := by
  obtain ⟨m, rfl⟩ : ∃ m, n = m + 1 := ⟨n - 1, by omega⟩
  have h1 := (trig_alt m).2 y hy
  have h2 := (trig_alt (m + 1)).2 y hy
  rw [Even.neg_one_pow he] at h1
  rw [Odd.neg_one_pow he.add_one] at h2
  have h3 : rsin (m + 1 + 1) y = rsin (m + 1) y + y ^ (2 * (m + 1) + 1) / ((2 * (m + 1) + 1)! : ℝ) := by
    rw [rsin, Finset.sum_range_succ, ← rsin, Even.neg_one_pow he, one_mul]
  constructor <;> linarith

theorem rcos_bound {n : Nat} (hn : 0 < n) (he : Even n) {y : ℝ} (hy : 0 ≤ y) :
    0 ≤ Real.cos y - rcos n y ∧ Real.cos y - rcos n y ≤ y ^ (2 * n) / ((2 * n)! : ℝ) := by
  obtain ⟨m, rfl⟩ : ∃ m, n = m + 1 := ⟨n - 1, by omega⟩
  have h1 := (trig_alt m).1 y hy
  have h2 := (trig_alt (m + 1)).1 y hy
  rw [Even.neg_one_pow he] at h1
  rw [Odd.neg_one_pow he.add_one] at h2
  have h3 : rcos (m + 1 + 1) y = rcos (m + 1) y + y ^ (2 * (m + 1)) / ((2 * (m + 1))! : ℝ) := by
    rw [rcos, Finset.sum_range_succ, ← rcos, Even.neg_one_pow he, one_mul]
  constructor <;> linarith

theorem sinSum_abs {n : Nat} (hn : 0 < n) (he : Even n) (y : ℚ) :
    |Real.sin y - ((sinSum n y : ℚ) : ℝ)| ≤ |(y : ℝ)| ^ (2 * n + 1) / ((2 * n + 1)! : ℝ) := by
  rcases le_total 0 y with h | h
  · have h' : (0 : ℝ) ≤ y := by exact_mod_cast h
    rw [rsin_cast, abs_of_nonneg h', abs_of_nonneg (rsin_bound hn he h').1]
    exact (rsin_bound hn he h').2
  · have h' : (0 : ℝ) ≤ ((-y : ℚ) : ℝ) := by
      have : (y : ℝ) ≤ 0 := by exact_mod_cast h
      push_cast
      linarith
    have e1 : Real.sin y - ((sinSum n y : ℚ) : ℝ) = -(Real.sin ((-y : ℚ) : ℝ) - rsin n ((-y : ℚ) : ℝ)) := by
      rw [← rsin_cast, Ratio.sinSum_neg]
      push_cast
      rw [Real.sin_neg]
      ring
    have e2 : |(y : ℝ)| = ((-y : ℚ) : ℝ) := by
      rw [← abs_neg]; push_cast at *; exact abs_of_nonneg h'
    rw [e1, abs_neg, e2, abs_of_nonneg (rsin_bound hn he h').1]
    exact (rsin_bound hn he h').2

theorem cosSum_abs {n : Nat} (hn : 0 < n) (he : Even n) (y : ℚ) :
    |Real.cos y - ((cosSum n y : ℚ) : ℝ)| ≤ |(y : ℝ)| ^ (2 * n) / ((2 * n)! : ℝ) := by
  have key : ∀ y : ℚ, 0 ≤ y → |Real.cos y - ((cosSum n y : ℚ) : ℝ)| ≤ |(y : ℝ)| ^ (2 * n) / ((2 * n)! : ℝ) := by
    intro y h
    have h' : (0 : ℝ) ≤ y := by exact_mod_cast h
    rw [rcos_cast, abs_of_nonneg h', abs_of_nonneg (rcos_bound hn he h').1]
    exact (rcos_bound hn he h').2
  rcases le_total 0 y with h | h
  · exact key y h
  · have := key (-y) (by linarith)
    rw [Ratio.cosSum_neg] at this
    push_cast at this
    rwa [Real.cos_neg, abs_neg] at this

/-! ## arc tangent -/

/-- `atanSum` over the reals -/
noncomputable def ratan (n : Nat) (y : ℝ) : ℝ := ∑ j ∈ range n, (-1) ^ j * y ^ (2 * j + 1) / (2 * j + 1)

theorem ratan_cast (n : Nat) (y : ℚ) : ((atanSum n y : ℚ) : ℝ) = ratan n y := by
  rw [atanSum, ratan]; push_cast; rfl

theorem ratan_deriv (n : Nat) (y : ℝ) : HasDerivAt (ratan n) ((1 - (-y ^ 2) ^ n) / (1 + y ^ 2)) y := by
  have h : HasDerivAt (fun y => ∑ j ∈ range n, (-1) ^ j * y ^ (2 * j + 1) / (2 * (j : ℝ) + 1))
      (∑ j ∈ range n, (-y ^ 2) ^ j) y := by
    refine HasDerivAt.fun_sum fun j _ => ?_
    have h := ((hasDerivAt_pow (2 * j + 1) y).const_mul ((-1 : ℝ) ^ j)).div_const (2 * (j : ℝ) + 1)
    refine h.congr_deriv ?_
    symm
    have h2 : (2 * (j : ℝ) + 1) ≠ 0 := by positivity
    rw [Nat.add_sub_cancel, neg_pow, ← pow_mul]
    push_cast
    field_simp
  have e : (1 - (-y ^ 2) ^ n) / (1 + y ^ 2) = ∑ j ∈ range n, (-y ^ 2) ^ j := by
    have hne : -y ^ 2 ≠ 1 := by nlinarith [sq_nonneg y]
    rw [geom_sum_eq hne, ← neg_div_neg_eq]
    congr 1 <;> ring
  rw [e]
  exact h

theorem ratan_zero (n : Nat) : ratan n 0 = 0 := by
  rw [ratan]; exact Finset.sum_eq_zero fun j _ => by simp

theorem ratan_bound {n : Nat} (he : Even n) {y : ℝ} (hy : 0 ≤ y) :
    0 ≤ Real.arctan y - ratan n y ∧ Real.arctan y - ratan n y ≤ y ^ (2 * n + 1) / (2 * n + 1) := by
  have hd : ∀ x, HasDerivAt (fun y => Real.arctan y - ratan n y) ((x ^ 2) ^ n / (1 + x ^ 2)) x := by
    intro x
    have h := (Real.hasDerivAt_arctan x).sub (ratan_deriv n x)
    refine h.congr_deriv ?_
    symm
    rw [he.neg_pow]
    ring
  have hp : ∀ x : ℝ, HasDerivAt (fun y => y ^ (2 * n + 1) / (2 * (n : ℝ) + 1)) ((x ^ 2) ^ n) x := by
    intro x
    have h := (hasDerivAt_pow (2 * n + 1) x).div_const (2 * (n : ℝ) + 1)
    refine h.congr_deriv ?_
    symm
    have h2 : (2 * (n : ℝ) + 1) ≠ 0 := by positivity
    rw [Nat.add_sub_cancel, ← pow_mul]
    push_cast
    field_simp
  have h1 := le_of_deriv hy (fun x _ => hd x) (fun x _ => by positivity)
  have h2 := le_of_deriv hy (fun x _ => (hp x).sub (hd x)) (fun x _ => by
    rw [sub_nonneg]
    exact div_le_self (by positivity) (by nlinarith [sq_nonneg x]))
  simp only [Pi.sub_apply, Real.arctan_zero, ratan_zero, sub_zero] at h1 h2
  rw [zero_pow (by omega), zero_div] at h2
  constructor <;> linarith

theorem atanSum_abs {n : Nat} (he : Even n) (y : ℚ) :
    |Real.arctan y - ((atanSum n y : ℚ) : ℝ)| ≤ |(y : ℝ)| ^ (2 * n + 1) / (2 * n + 1) := by
  have key : ∀ y : ℚ, 0 ≤ y → |Real.arctan y - ((atanSum n y : ℚ) : ℝ)| ≤ |(y : ℝ)| ^ (2 * n + 1) / (2 * n + 1) := by
    intro y h
    have h' : (0 : ℝ) ≤ y := by exact_mod_cast h
    rw [ratan_cast, abs_of_nonneg h', abs_of_nonneg (ratan_bound he h').1]
    exact (ratan_bound he h').2
  rcases le_total 0 y with h | h
  · exact key y h
  · have := key (-y) (by linarith)
    rw [Ratio.atanSum_neg] at this
    push_cast at this
    rw [Real.arctan_neg, abs_neg, ← neg_sub', abs_neg] at this
    exact this

/-! ## logarithm -/

/-- `logSum` over the reals -/
noncomputable def rlog (n : Nat) (a : ℝ) : ℝ := ∑ j ∈ range n, (-1) ^ j * a ^ (j + 1) / (j + 1)

theorem rlog_cast (n : Nat) (y : ℚ) : ((logSum n y : ℚ) : ℝ) = rlog n y := by
  rw [logSum, rlog]; push_cast; rfl

theorem rlog_deriv (n : Nat) {y : ℝ} (hy : y ≠ -1) : HasDerivAt (rlog n) ((1 - (-y) ^ n) / (1 + y)) y := by
  have h : HasDerivAt (fun y => ∑ j ∈ range n, (-1) ^ j * y ^ (j + 1) / ((j : ℝ) + 1))
      (∑ j ∈ range n, (-y) ^ j) y := by
    refine HasDerivAt.fun_sum fun j _ => ?_
    have h := ((hasDerivAt_pow (j + 1) y).const_mul ((-1 : ℝ) ^ j)).div_const ((j : ℝ) + 1)
    refine h.congr_deriv ?_
    have h2 : ((j : ℝ) + 1) ≠ 0 := by positivity
    rw [Nat.add_sub_cancel, neg_pow y]
    push_cast
    field_simp
  have e : (1 - (-y) ^ n) / (1 + y) = ∑ j ∈ range n, (-y) ^ j := by
    have hne : -y ≠ 1 := fun h => hy (by linarith)
    rw [geom_sum_eq hne, ← neg_div_neg_eq]
    congr 1 <;> ring
  rw [e]
  exact h

theorem rlog_zero (n : Nat) : rlog n 0 = 0 := by
  rw [rlog]; exact Finset.sum_eq_zero fun j _ => by simp

theorem log_one_add_deriv {y : ℝ} (hy : -1 < y) : HasDerivAt (fun y => Real.log (1 + y)) (1 / (1 + y)) y := by
  exact ((hasDerivAt_id y).const_add 1).log (by simp only [id]; linarith)

theorem pow_deriv' (n : Nat) (x : ℝ) : HasDerivAt (fun y => y ^ (n + 1) / ((n : ℝ) + 1)) (x ^ n) x := by
  have h := (hasDerivAt_pow (n + 1) x).div_const ((n : ℝ) + 1)
  refine h.congr_deriv ?_
  have h2 : ((n : ℝ) + 1) ≠ 0 := by positivity
  rw [Nat.add_sub_cancel]
  push_cast
  field_simp

theorem rlog_pos {n : Nat} (ho : Odd n) {a : ℝ} (ha : 0 ≤ a) :
    0 ≤ rlog n a - Real.log (1 + a) ∧ rlog n a - Real.log (1 + a) ≤ a ^ (n + 1) / (n + 1) := by
  have hd : ∀ x ∈ Icc 0 a, HasDerivAt (fun y => rlog n y - Real.log (1 + y)) (x ^ n / (1 + x)) x := by
    intro x hx
    have h := (rlog_deriv n (y := x) (by linarith [hx.1])).sub (log_one_add_deriv (y := x) (by linarith [hx.1]))
    refine h.congr_deriv ?_
    rw [ho.neg_pow]
    ring
  have h1 := le_of_deriv ha hd (fun x hx => by have := hx.1; positivity)
  have h2 := le_of_deriv ha (fun x hx => (pow_deriv' n x).sub (hd x hx)) (fun x hx => by
    have := hx.1
    rw [sub_nonneg]
    exact div_le_self (by positivity) (by linarith))
  simp [rlog_zero] at h1 h2
  constructor <;> linarith

theorem rlog_neg {n : Nat} {b : ℝ} (hb : 0 ≤ b) (hb' : b < 1) :
    0 ≤ rlog n (-b) - Real.log (1 - b) ∧
      rlog n (-b) - Real.log (1 - b) ≤ b ^ (n + 1) / ((n + 1) * (1 - b)) := by
  have hd : ∀ x ∈ Icc 0 b, HasDerivAt (fun y => rlog n (-y) - Real.log (1 - y)) (x ^ n / (1 - x)) x := by
    intro x hx
    have hx1 : x < 1 := lt_of_le_of_lt hx.2 hb'
    have h1 : HasDerivAt (fun y => rlog n (-y)) ((1 - (-(-x)) ^ n) / (1 + -x) * (-1)) x :=
      HasDerivAt.comp x (rlog_deriv n (y := -x) (by linarith)) (hasDerivAt_neg x)
    have h2 : HasDerivAt (fun y : ℝ => Real.log (1 - y)) (-1 / (1 - x)) x :=
      ((hasDerivAt_id x).const_sub 1).log (by simp only [id]; linarith)
    refine (h1.sub h2).congr_deriv ?_
    rw [neg_neg]
    ring
  have h1 := le_of_deriv hb hd (fun x hx => by
    have := hx.1
    have : 0 < 1 - x := by linarith [hx.2]
    positivity)
  have h2 := le_of_deriv hb (fun x hx => ((pow_deriv' n x).div_const (1 - b)).sub (hd x hx)) (fun x hx => by
    have := hx.1
    have : 0 < 1 - b := by linarith
    rw [sub_nonneg]
    gcongr
    exact hx.2)
  simp [rlog_zero] at h1 h2
  have e : b ^ (n + 1) / ((n + 1) * (1 - b)) = b ^ (n + 1) / ((n : ℝ) + 1) / (1 - b) := by rw [div_div]
  rw [e]
  constructor <;> linarith

/-- `ln2Sum` is the logarithm series at `-1/2` -/
theorem ln2Sum_cast (n : Nat) : ((ln2Sum n : ℚ) : ℝ) = -rlog n (-(1 / 2)) := by
  rw [ln2Sum, rlog, ← Finset.sum_neg_distrib]
  push_cast
  refine Finset.sum_congr rfl fun j _ => ?_
  rw [neg_pow (1 / 2 : ℝ), pow_succ (-1 : ℝ)]
  have h : ((-1 : ℝ) ^ j) * (-1) ^ j = 1 := by rw [← mul_pow]; norm_num
  have h2 : ((j : ℝ) + 1) ≠ 0 := by positivity
  rw [show (-1 : ℝ) ^ j * ((-1) ^ j * -1 * (1 / 2) ^ (j + 1)) = (-1) ^ j * (-1) ^ j * -(1 / 2) ^ (j + 1) by ring, h,
    one_div_pow]
  field_simp

theorem ln2_bound (n : Nat) : 0 ≤ Real.log 2 - ((ln2Sum n : ℚ) : ℝ) ∧
    Real.log 2 - ((ln2Sum n : ℚ) : ℝ) ≤ 1 / ((n + 1) * 2 ^ n) := by
  have h := rlog_neg (n := n) (b := 1 / 2) (by norm_num) (by norm_num)
  have e : Real.log (1 - 1 / 2) = -Real.log 2 := by
    rw [← Real.log_inv]; norm_num
  rw [e] at h
  rw [ln2Sum_cast]
  refine ⟨by linarith [h.1], ?_⟩
  have h2 := h.2
  calc _ = _ := by ring
    _ ≤ _ := h2
    _ = _ := by
      have h2 : ((n : ℝ) + 1) ≠ 0 := by positivity
      rw [one_div_pow, pow_succ]
      field_simp
      norm_num

/-! ## pi -/

/-- the Bailey–Borwein–Plouffe partial sum as a polynomial in `y` -/
noncomputable def rbbp (n : Nat) (y : ℝ) : ℝ := ∑ k ∈ range n,
  (4 * (y ^ (8 * k + 1) / (8 * k + 1)) - 2 * (y ^ (8 * k + 4) / (8 * k + 4)) - y ^ (8 * k + 5) / (8 * k + 5)
    - y ^ (8 * k + 6) / (8 * k + 6)) / 16 ^ k

theorem rbbp_cast (n : Nat) : ((bbpSum n : ℚ) : ℝ) = rbbp n 1 := by
  rw [bbpSum, rbbp]; push_cast
  refine Finset.sum_congr rfl fun j _ => ?_
  simp only [one_pow]
  ring

theorem rbbp_zero (n : Nat) : rbbp n 0 = 0 := by
  rw [rbbp]; exact Finset.sum_eq_zero fun j _ => by simp

theorem rbbp_deriv (n : Nat) {y : ℝ} (hy : y ^ 8 / 16 ≠ 1) : HasDerivAt (rbbp n)
    ((4 - 2 * y ^ 3 - y ^ 4 - y ^ 5) * ((1 - (y ^ 8 / 16) ^ n) / (1 - y ^ 8 / 16))) y := by
  have e : (4 - 2 * y ^ 3 - y ^ 4 - y ^ 5) * ((1 - (y ^ 8 / 16) ^ n) / (1 - y ^ 8 / 16))
      = ∑ k ∈ range n, (4 * y ^ (8 * k) - 2 * y ^ (8 * k + 3) - y ^ (8 * k + 4) - y ^ (8 * k + 5)) / 16 ^ k := by
    have hg : (1 - (y ^ 8 / 16) ^ n) / (1 - y ^ 8 / 16) = ∑ k ∈ range n, (y ^ 8 / 16) ^ k := by
      rw [geom_sum_eq hy, ← neg_div_neg_eq]
      congr 1 <;> ring
    rw [hg, Finset.mul_sum]
    refine Finset.sum_congr rfl fun k _ => ?_
    rw [div_pow, ← pow_mul]
    ring
  rw [e]
  have h : HasDerivAt (fun y => ∑ k ∈ range n,
      (4 * (y ^ (8 * k + 1) / (8 * (k : ℝ) + 1)) - 2 * (y ^ (8 * k + 4) / (8 * k + 4)) - y ^ (8 * k + 5) / (8 * k + 5)
        - y ^ (8 * k + 6) / (8 * k + 6)) / 16 ^ k)
      (∑ k ∈ range n, (4 * y ^ (8 * k) - 2 * y ^ (8 * k + 3) - y ^ (8 * k + 4) - y ^ (8 * k + 5)) / 16 ^ k) y := by
    refine HasDerivAt.fun_sum fun k _ => ?_
    have p1 := pow_deriv' (8 * k) y
    have p2 := pow_deriv' (8 * k + 3) y
    have p3 := pow_deriv' (8 * k + 4) y
    have p4 := pow_deriv' (8 * k + 5) y
    push_cast at p1 p2 p3 p4
    have q2 : (8 * (k : ℝ) + 3 + 1) = 8 * k + 4 := by ring
    have q3 : (8 * (k : ℝ) + 4 + 1) = 8 * k + 5 := by ring
    have q4 : (8 * (k : ℝ) + 5 + 1) = 8 * k + 6 := by ring
    rw [q2] at p2
    rw [q3] at p3
    rw [q4] at p4
    exact ((((p1.const_mul 4).sub (p2.const_mul 2)).sub p3).sub p4).div_const _
  exact h

/-- the antiderivative of `(4 - 2y³ - y⁴ - y⁵) / (1 - y⁸/16)` -/
noncomputable def bbpG (y : ℝ) : ℝ :=
  2 * Real.log (2 - y ^ 2) - 2 * Real.log (y ^ 2 - 2 * y + 2) + 4 * Real.arctan (y - 1)

theorem bbpG_deriv {y : ℝ} (h0 : 0 ≤ y) (h1 : y ≤ 1) :
    HasDerivAt bbpG ((4 - 2 * y ^ 3 - y ^ 4 - y ^ 5) / (1 - y ^ 8 / 16)) y := by
  have a1 : (0 : ℝ) < 2 - y ^ 2 := by nlinarith
  have a2 : (0 : ℝ) < y ^ 2 - 2 * y + 2 := by nlinarith [sq_nonneg (y - 1)]
  have a3 : (0 : ℝ) < y ^ 2 + 2 * y + 2 := by nlinarith
  have a4 : (0 : ℝ) < 2 + y ^ 2 := by nlinarith
  have d1 : HasDerivAt (fun y : ℝ => 2 - y ^ 2) (-(2 * y)) y := by
    have := (hasDerivAt_pow 2 y).const_sub 2
    simpa using this
  have d2 : HasDerivAt (fun y : ℝ => y ^ 2 - 2 * y + 2) (2 * y - 2) y := by
    have := ((hasDerivAt_pow 2 y).sub ((hasDerivAt_id y).const_mul 2)).add_const 2
    refine HasDerivAt.congr_deriv this ?_
    simp
  have d3 : HasDerivAt (fun y : ℝ => y - 1) 1 y := (hasDerivAt_id y).sub_const 1
  have h := (((d1.log a1.ne').const_mul 2).sub ((d2.log a2.ne').const_mul 2)).add ((d3.arctan).const_mul 4)
  have h' : HasDerivAt bbpG (2 * (-(2 * y) / (2 - y ^ 2)) - 2 * ((2 * y - 2) / (y ^ 2 - 2 * y + 2))
      + 4 * (1 / (1 + (y - 1) ^ 2) * 1)) y := h
  refine h'.congr_deriv ?_
  have e1 : 1 + (y - 1) ^ 2 = y ^ 2 - 2 * y + 2 := by ring
  have e2 : 1 - y ^ 8 / 16 = (2 - y ^ 2) * (2 + y ^ 2) * ((y ^ 2 - 2 * y + 2) * (y ^ 2 + 2 * y + 2)) / 16 := by ring
  rw [e1, e2]
  have b1 := a1.ne'
  have b2 := a2.ne'
  have b3 := a3.ne'
  have b4 := a4.ne'
  generalize hu : 2 - y ^ 2 = u at *
  generalize hv : y ^ 2 - 2 * y + 2 = v at *
  generalize hw : y ^ 2 + 2 * y + 2 = w at *
  generalize ht : 2 + y ^ 2 = t at *
  field_simp
  rw [← hu, ← hv, ← hw, ← ht]
  ring

theorem bbpG_total : bbpG 1 - bbpG 0 = Real.pi := by
  unfold bbpG
  norm_num
  ring

theorem pi_bound {n : Nat} (hn : 0 < n) : 0 < Real.pi - ((bbpSum n : ℚ) : ℝ) ∧
    Real.pi - ((bbpSum n : ℚ) : ℝ) < 1 / (2 * 16 ^ n) := by
  have hy : ∀ x ∈ Icc (0 : ℝ) 1, x ^ 8 ≤ 1 := fun x hx => pow_le_one₀ hx.1 hx.2
  have hnum : ∀ x ∈ Icc (0 : ℝ) 1, 0 ≤ 4 - 2 * x ^ 3 - x ^ 4 - x ^ 5 ∧ 4 - 2 * x ^ 3 - x ^ 4 - x ^ 5 ≤ 4 := by
    intro x hx
    have h3 : x ^ 3 ≤ 1 := pow_le_one₀ hx.1 hx.2
    have h4 : x ^ 4 ≤ 1 := pow_le_one₀ hx.1 hx.2
    have h5 : x ^ 5 ≤ 1 := pow_le_one₀ hx.1 hx.2
    have := hx.1
    have g3 : 0 ≤ x ^ 3 := by positivity
    have g4 : 0 ≤ x ^ 4 := by positivity
    have g5 : 0 ≤ x ^ 5 := by positivity
    constructor <;> linarith
  have hd : ∀ x ∈ Icc (0 : ℝ) 1, HasDerivAt (fun y => bbpG y - rbbp n y)
      ((4 - 2 * x ^ 3 - x ^ 4 - x ^ 5) * (x ^ 8 / 16) ^ n / (1 - x ^ 8 / 16)) x := by
    intro x hx
    have h8 := hy x hx
    refine ((bbpG_deriv hx.1 hx.2).sub (rbbp_deriv n (by intro h; linarith))).congr_deriv ?_
    ring
  have h1 := lt_of_deriv one_pos hd (fun x hx => by
    have h8 := hy x ⟨hx.1.le, hx.2.le⟩
    have h3 : x ^ 3 < 1 := pow_lt_one₀ hx.1.le hx.2 (by norm_num)
    have h4 : x ^ 4 ≤ 1 := pow_le_one₀ hx.1.le hx.2.le
    have h5 : x ^ 5 ≤ 1 := pow_le_one₀ hx.1.le hx.2.le
    have := hx.1
    refine div_pos (mul_pos (by linarith) (by positivity)) (by linarith))
  have hp : ∀ x : ℝ, HasDerivAt (fun y : ℝ => 64 / 15 / 16 ^ n * (y ^ (8 * n + 1) / ((8 * n : Nat) + 1)))
      (64 / 15 / 16 ^ n * x ^ (8 * n)) x := fun x => (pow_deriv' (8 * n) x).const_mul _
  have h2 := le_of_deriv zero_le_one (fun x hx => (hp x).sub (hd x hx)) (fun x hx => by
    have h8 := hy x hx
    have h0 := hx.1
    rw [sub_nonneg, div_le_iff₀ (by linarith), div_pow, ← pow_mul]
    calc (4 - 2 * x ^ 3 - x ^ 4 - x ^ 5) * (x ^ (8 * n) / 16 ^ n) ≤ 4 * (x ^ (8 * n) / 16 ^ n) := by
          have := (hnum x hx).2
          gcongr
      _ = 64 / 15 / 16 ^ n * x ^ (8 * n) * (15 / 16) := by ring
      _ ≤ _ := by
          gcongr
          linarith)
  simp only [Pi.sub_apply, rbbp_zero, one_pow] at h1 h2
  rw [zero_pow (by omega), zero_div, mul_zero, ← rbbp_cast] at h2
  rw [← rbbp_cast] at h1
  have ht := bbpG_total
  refine ⟨by linarith, ?_⟩
  have hn' : (1 : ℝ) ≤ n := by exact_mod_cast hn
  have h3 : Real.pi - ((bbpSum n : ℚ) : ℝ) ≤ 64 / 15 / 16 ^ n * (1 / ((8 * n : Nat) + 1)) := by linarith
  refine lt_of_le_of_lt h3 ?_
  rw [div_div, _root_.div_mul_div_comm, div_lt_div_iff₀ (by positivity) (by positivity)]
  have h16 : (0 : ℝ) < 16 ^ n := by positivity
  push_cast
  nlinarith

/-! ## exponential -/

theorem expSum_cast (n : Nat) (y : ℚ) : ((expSum n y : ℚ) : ℝ) = ∑ i ∈ range n, (y : ℝ) ^ i / (i ! : ℝ) := by
  rw [expSum]; push_cast; rfl

theorem expSum_abs {n : Nat} (hn : 0 < n) {y : ℚ} (hy : |y| ≤ 1) :
    |Real.exp y - ((expSum n y : ℚ) : ℝ)| ≤ |(y : ℝ)| ^ n * ((n + 1) / (n ! * n)) := by
  have h : |(y : ℝ)| ≤ 1 := by exact_mod_cast hy
  have := Real.exp_bound h hn
  rw [expSum_cast]
  push_cast at this
  exact this

theorem e_bound {n : Nat} (hn : 0 < n) : 0 < Real.exp 1 - ((expSum n 1 : ℚ) : ℝ) ∧
    Real.exp 1 - ((expSum n 1 : ℚ) : ℝ) ≤ 2 / (n ! : ℝ) := by
  constructor
  · have h := Real.sum_le_exp_of_nonneg (x := 1) zero_le_one (n + 1)
    rw [expSum_cast, Finset.sum_range_succ] at *
    have : (0 : ℝ) < 1 ^ n / (n ! : ℝ) := by positivity
    push_cast at *
    linarith
  · have h := expSum_abs hn (y := 1) (by norm_num)
    push_cast at h
    rw [abs_one, one_pow, one_mul] at h
    refine le_trans (le_abs_self _) (le_trans h ?_)
    have hn' : (1 : ℝ) ≤ n := by exact_mod_cast hn
    have hf : (0 : ℝ) < n ! := by exact_mod_cast n.factorial_pos
    rw [div_le_div_iff₀ (by positivity) hf]
    nlinarith

end RealSeries
end Hmath
