import Verif.Model.RatioPrint
import Verif.Proofs.SciRatio
import Verif.Proofs.RatioStr
import Mathlib.Analysis.SpecialFunctions.Log.Deriv
import Mathlib.Analysis.Complex.ExponentialBounds

/-!
# `Ratio` as decimal text
-/

namespace Hmath
namespace Ratio

/-! ## the estimate of the logarithm -/

theorem abs_num_den (q : ℚ) : |q|.num.natAbs = q.num.natAbs ∧ |q|.den = q.den := by
  have := ofRat_abs q
  constructor
  · have h2 := congrArg (fun r : Ratio => ival r.numer) this
    simp only [numer_ofRat, ival_ofInt] at h2
    rw [← h2, Int.natAbs_abs]
  · have h2 := congrArg (fun r : Ratio => ival r.denom) this
    simp only [denom_ofRat, ival_ofInt] at h2
    omega

/-- the integer `D` is `2^32 log₂ c` up to 2 -/
def EstOk (c : ℚ) (D : Int) : Prop :=
  -(2 * Real.log 2) < 2 ^ 32 * Real.log c - D * Real.log 2 ∧ 2 ^ 32 * Real.log c - D * Real.log 2 < 2 * Real.log 2

theorem estOk_of {T : Nat} (hT : T = 2 ^ 32) {c : ℚ} (hc : 0 < c) {rn rd : Nat}
    (hn : LogOk T c.num.natAbs rn) (hd : LogOk T c.den rd) : EstOk c ((rn : Int) - rd) := by
  have hnum : 0 < c.num := Rat.num_pos.2 hc
  obtain ⟨n1, n2⟩ := logOk_real (by omega) hn
  obtain ⟨d1, d2⟩ := logOk_real c.den_pos hd
  have hl2 : 0 < Real.log 2 := Real.log_pos (by norm_num)
  have hcr : Real.log (c : ℝ) = Real.log (c.num.natAbs : ℝ) - Real.log c.den := by
    rw [← Real.log_div (by positivity) (by positivity)]
    congr 1
    have e1 : c = (c.num.natAbs : ℚ) / c.den := by
      conv_lhs => rw [← Rat.num_div_den c]
      congr 1
      obtain ⟨k, hk⟩ : ∃ k : Nat, c.num = k := ⟨c.num.natAbs, (Int.natAbs_of_nonneg hnum.le).symm⟩
      rw [hk, Int.natAbs_natCast, Int.cast_natCast]
    conv_lhs => rw [e1]
    push_cast
    rfl
  have hTr : (T : ℝ) = 2 ^ 32 := by rw [hT]; norm_num
  rw [hTr] at n1 n2 d1 d2
  unfold EstOk
  rw [hcr]
  push_cast
  constructor <;> nlinarith

/-- the truncated quotient -/
def est10 (D : Int) : Int := (D * 21306).tdiv 303984900308992

theorem tdiv_bounds (x : Int) {d : Int} (hd : 0 < d) :
    (0 ≤ x → 0 ≤ x.tdiv d ∧ d * x.tdiv d ≤ x ∧ x < d * x.tdiv d + d) ∧
    (x ≤ 0 → x.tdiv d ≤ 0 ∧ x ≤ d * x.tdiv d ∧ d * x.tdiv d - d < x) := by
  have e := Int.mul_tdiv_add_tmod x d
  have e2 := Int.natAbs_tmod x d
  have e3 := Nat.mod_lt x.natAbs (show 0 < d.natAbs by omega)
  constructor
  · intro h
    have h1 := Int.tmod_nonneg (a := x) d h
    have h2 := Int.tdiv_nonneg h hd.le
    omega
  · intro h
    have h1 := Int.tmod_nonneg (a := -x) d (by omega)
    have h2 := Int.tdiv_nonneg (a := -x) (by omega) hd.le
    rw [Int.neg_tdiv] at h2
    rw [Int.neg_tmod] at h1
    omega

theorem est10_eq (D : Int) {T : Nat} (hT : T = 2 ^ 32) : ((D * 21306).tdiv 70777).tdiv T = est10 D := by
  have hT' : (T : Int) = 4294967296 := by rw [hT]; norm_num
  rw [est10, hT']
  have h1 := tdiv_bounds (D * 21306) (d := 303984900308992) (by norm_num)
  have h2 := tdiv_bounds (D * 21306) (d := 70777) (by norm_num)
  have h3 := tdiv_bounds ((D * 21306).tdiv 70777) (d := 4294967296) (by norm_num)
  omega

theorem est10_pos {D : Int} (h : 0 < est10 D) :
    est10 D * 303984900308992 ≤ D * 21306 ∧ D * 21306 < (est10 D + 1) * 303984900308992 := by
  have := tdiv_bounds (D * 21306) (d := 303984900308992) (by norm_num)
  unfold est10 at *
  generalize D * 21306 = x at *
  omega

theorem est10_nonneg {D : Int} (h : 0 ≤ est10 D) : D * 21306 < (est10 D + 1) * 303984900308992 := by
  have := tdiv_bounds (D * 21306) (d := 303984900308992) (by norm_num)
  unfold est10 at *
  generalize D * 21306 = x at *
  omega

theorem est10_neg {D : Int} (h : est10 D < 0) : D * 21306 ≤ est10 D * 303984900308992 := by
  have := tdiv_bounds (D * 21306) (d := 303984900308992) (by norm_num)
  unfold est10 at *
  generalize D * 21306 = x at *
  omega

theorem est10_nonpos {D : Int} (h : est10 D ≤ 0) : (est10 D - 1) * 303984900308992 < D * 21306 := by
  have := tdiv_bounds (D * 21306) (d := 303984900308992) (by norm_num)
  unfold est10 at *
  generalize D * 21306 = x at *
  omega

theorem est10_le (D : Int) : |est10 D| ≤ |D| := by
  have := tdiv_bounds (D * 21306) (d := 303984900308992) (by norm_num)
  unfold est10 at *
  rw [abs_le]
  have h := abs_nonneg D
  have h1 := le_abs_self D
  have h2 := neg_abs_le D
  omega

theorem log_ten_bounds : Real.log 10 < 2.31 ∧ 0 < Real.log 10 ∧ Real.log 2 < 0.7 ∧ 0 < Real.log 2 := by
  obtain ⟨l1, l2⟩ := log_two_ten
  have := Real.log_two_lt_d9
  refine ⟨?_, Real.log_pos (by norm_num), by linarith, Real.log_pos (by norm_num)⟩
  norm_num at *
  linarith

/-- `c` at least `10^A` up to a factor -/
theorem ge_of_log {c : ℚ} (hc : 0 < c) {A : Int} (h : (A : ℝ) * Real.log 10 - 9.9e-6 ≤ Real.log c) :
    10 ^ A * (1 - 1 / 10 ^ 5) ≤ c := by
  have hcr : (0 : ℝ) < c := by exact_mod_cast hc
  have h1 : Real.log ((10 : ℝ) ^ A * (1 - 1 / 10 ^ 5)) ≤ Real.log c := by
    rw [Real.log_mul (by positivity) (by norm_num), Real.log_zpow]
    have := Real.log_le_sub_one_of_pos (show (0 : ℝ) < 1 - 1 / 10 ^ 5 by norm_num)
    norm_num at *
    linarith
  have h2 := (Real.log_le_log_iff (mul_pos (by positivity) (by norm_num)) hcr).1 h1
  have : (((10 : ℚ) ^ A * (1 - 1 / 10 ^ 5) : ℚ) : ℝ) ≤ (c : ℝ) := by push_cast; exact h2
  exact_mod_cast this

theorem gt_of_log {c : ℚ} (hc : 0 < c) {A : Int} (h : (A : ℝ) * Real.log 10 - 9.9e-6 < Real.log c) :
    10 ^ A * (1 - 1 / 10 ^ 5) < c := by
  have hcr : (0 : ℝ) < c := by exact_mod_cast hc
  have h1 : Real.log ((10 : ℝ) ^ A * (1 - 1 / 10 ^ 5)) < Real.log c := by
    rw [Real.log_mul (by positivity) (by norm_num), Real.log_zpow]
    have := Real.log_le_sub_one_of_pos (show (0 : ℝ) < 1 - 1 / 10 ^ 5 by norm_num)
    norm_num at *
    linarith
  have h2 := (Real.log_lt_log_iff (mul_pos (by positivity) (by norm_num)) hcr).1 h1
  have : (((10 : ℚ) ^ A * (1 - 1 / 10 ^ 5) : ℚ) : ℝ) < (c : ℝ) := by push_cast; exact h2
  exact_mod_cast this

theorem log_up : (9.9e-6 : ℝ) ≤ Real.log (1 + 1 / 10 ^ 5) := by
  have := Real.one_sub_inv_le_log_of_pos (show (0 : ℝ) < 1 + 1 / 10 ^ 5 by norm_num)
  norm_num at *
  linarith

theorem lt_of_log {c : ℚ} (hc : 0 < c) {A : Int} (h : Real.log c < (A : ℝ) * Real.log 10 + 9.9e-6) :
    c < 10 ^ A * (1 + 1 / 10 ^ 5) := by
  have hcr : (0 : ℝ) < c := by exact_mod_cast hc
  have h1 : Real.log c < Real.log ((10 : ℝ) ^ A * (1 + 1 / 10 ^ 5)) := by
    rw [Real.log_mul (by positivity) (by norm_num), Real.log_zpow]
    linarith [log_up]
  have h2 := (Real.log_lt_log_iff hcr (mul_pos (by positivity) (by norm_num))).1 h1
  have : (c : ℝ) < (((10 : ℚ) ^ A * (1 + 1 / 10 ^ 5) : ℚ) : ℝ) := by push_cast; exact h2
  exact_mod_cast this

/-- what the estimate says about the number -/
structure EstRange (c : ℚ) (A : Int) : Prop where
  pos : 0 < A → 10 ^ A * (1 - 1 / 10 ^ 5) ≤ c
  neg : A < 0 → c < 10 ^ A * (1 + 1 / 10 ^ 5)
  nonneg : 0 ≤ A → A ≤ 9990 → c < 10 ^ (A + 1) * (1 + 1 / 10 ^ 5)
  nonpos : A ≤ 0 → -9990 ≤ A → 10 ^ (A - 1) * (1 - 1 / 10 ^ 5) < c

theorem estRange_of {c : ℚ} (hc : 0 < c) {D : Int} (h : EstOk c D) : EstRange c (est10 D) := by
  obtain ⟨h1, h2⟩ := h
  obtain ⟨l1, l2⟩ := log_two_ten
  obtain ⟨b1, b2, b3, b4⟩ := log_ten_bounds
  generalize hA : est10 D = A
  generalize hx : Real.log c = x at *
  generalize Real.log 2 = a at *
  generalize hb : Real.log 10 = b at *
  have l1' : 0 < 70777 * a - 21306 * b := by linarith
  have l2' : 70777 * a - 21306 * b < 4e-6 * b := by norm_num; linarith
  constructor
  · intro hp
    have e := (est10_pos (hA.symm ▸ hp)).1
    rw [hA] at e
    have e' : (A : ℝ) * 303984900308992 ≤ D * 21306 := by exact_mod_cast e
    have hD : (0 : ℝ) ≤ D := by
      have : (0 : ℝ) < A := by exact_mod_cast hp
      linarith
    refine ge_of_log hc ?_
    rw [hx, hb]
    have e3 : (A : ℝ) * 303984900308992 * b ≤ D * 21306 * b := mul_le_mul_of_nonneg_right e' b2.le
    have e4 : 0 ≤ (D : ℝ) * (70777 * a - 21306 * b) := mul_nonneg hD l1'.le
    norm_num at *
    linarith
  · intro hp
    have e := est10_neg (hA.symm ▸ hp)
    rw [hA] at e
    have e' : (D : ℝ) * 21306 ≤ A * 303984900308992 := by exact_mod_cast e
    have hD : (D : ℝ) ≤ 0 := by
      have : (A : ℝ) < 0 := by exact_mod_cast hp
      linarith
    refine lt_of_log hc ?_
    rw [hx, hb]
    have e3 : (D : ℝ) * 21306 * b ≤ A * 303984900308992 * b := mul_le_mul_of_nonneg_right e' b2.le
    have e4 : (D : ℝ) * (70777 * a - 21306 * b) ≤ 0 := mul_nonpos_of_nonpos_of_nonneg hD l1'.le
    norm_num at *
    linarith
  · intro hp hp2
    have e := est10_nonneg (hA.symm ▸ hp)
    rw [hA] at e
    have e' : (D : ℝ) * 21306 < (A + 1) * 303984900308992 := by exact_mod_cast e
    have hA2 : (A : ℝ) ≤ 9990 := by exact_mod_cast hp2
    have hD : (D : ℝ) ≤ 9991 * 303984900308992 / 21306 := by
      rw [le_div_iff₀ (by norm_num)]; linarith
    refine lt_of_log hc ?_
    rw [hx, hb]
    have e3 : (D : ℝ) * 21306 * b < (A + 1) * 303984900308992 * b := mul_lt_mul_of_pos_right e' b2
    have e4 : (D : ℝ) * (70777 * a - 21306 * b) ≤ 9991 * 303984900308992 / 21306 * (4e-6 * b) :=
      le_trans (mul_le_mul_of_nonneg_right hD l1'.le) (mul_le_mul_of_nonneg_left l2'.le (by norm_num))
    push_cast
    norm_num at *
    linarith
  · intro hp hp2
    have e := est10_nonpos (hA.symm ▸ hp)
    rw [hA] at e
    have e' : ((A : ℝ) - 1) * 303984900308992 < D * 21306 := by exact_mod_cast e
    have hA2 : (-9990 : ℝ) ≤ A := by exact_mod_cast hp2
    have hD : -(9991 * 303984900308992 / 21306) ≤ (D : ℝ) := by
      rw [neg_le, ← neg_le_neg_iff, neg_neg, ← neg_div, div_le_iff₀ (by norm_num)]; linarith
    refine gt_of_log hc ?_
    rw [hx, hb]
    have e3 : ((A : ℝ) - 1) * 303984900308992 * b < D * 21306 * b := mul_lt_mul_of_pos_right e' b2
    have e4 : -(9991 * 303984900308992 / 21306 * (4e-6 * b)) ≤ (D : ℝ) * (70777 * a - 21306 * b) := by
      refine le_trans ?_ (mul_le_mul_of_nonneg_right hD l1'.le)
      rw [neg_mul]
      exact neg_le_neg (mul_le_mul_of_nonneg_left l2'.le (by norm_num))
    push_cast
    norm_num at *
    linarith

theorem log2_natAbs (n : Int) : BigI.log2_accurate (ofInt n) = BigI.log2_accurate (ofInt (n.natAbs : Int)) := by
  rw [BigI.log2_accurate, BigI.log2_accurate, BigI.mag_ofInt, BigI.mag_ofInt, Int.natAbs_natCast]

/-- `log2` and `log10i64` -/
theorem est_c {q : ℚ} (h0 : q ≠ 0) (hn : (ofNat q.num.natAbs).length ≤ 2 ^ 27) (hd : (ofNat q.den).length ≤ 2 ^ 27) :
    ∃ D : Int, approxLog2 (ofRat q) = pure (ofInt D) ∧ |D| < 2 ^ 64 ∧ EstOk |q| D ∧
      approxLog10 (ofInt D) = pure (est10 D) := by
  obtain ⟨T, hT⟩ : ∃ T : Nat, T = 2 ^ 32 := ⟨_, rfl⟩
  have hnum : q.num ≠ 0 := by simpa using h0
  have b1 : ((q.num.natAbs : Nat) : Int) < 2 ^ T := by
    have := lt_pow_of_length hT hn
    exact_mod_cast this
  have b2 : ((q.den : Nat) : Int) < 2 ^ T := by
    have := lt_pow_of_length hT hd
    exact_mod_cast this
  obtain ⟨rn, n1, n2, n3⟩ := bi_log2_c hT (q.num.natAbs : Int) (by omega) b1
  obtain ⟨rd, d1, d2, d3⟩ := bi_log2_c hT q.den (den_pos' q) b2
  rw [Int.natAbs_natCast] at d3 n3
  obtain ⟨a1, a2⟩ := abs_num_den q
  have hDb : |(rn : Int) - rd| < 2 ^ 64 := by rw [abs_lt]; omega
  refine ⟨(rn : Int) - rd, ?_, hDb, ?_, ?_⟩
  · rw [approxLog2, numer_ofRat, denom_ofRat, log2_natAbs, n1, pure_bind, d1, pure_bind, BigI.sub_c]
  · exact estOk_of hT (abs_pos.2 h0) (by rw [a1]; exact n3) (by rw [a2]; exact d3)
  · generalize (rn : Int) - rd = D at *
    rw [approxLog10, BigI.mul_i32_c (by unfold IsI32; omega) (by omega), pure_bind,
      BigI.div_i32_c (by unfold IsI32; omega) (by omega) (by omega), pure_bind, BigI.shift_right_c, pow_one]
    have hB : (B32 : Nat) = T := hT.symm
    rw [hB, est10_eq D hT, BigI.to_i64_c, pure_bind, if_pos]
    · rfl
    · obtain ⟨c1, c2⟩ := abs_lt.1 hDb
      have := tdiv_bounds (D * 21306) (d := 303984900308992) (by norm_num)
      unfold est10
      omega

end Ratio
end Hmath
