import Verif.Proofs.Ieee
import Verif.Proofs.LnSqrt
import Verif.Proofs.Sci
import Mathlib.Algebra.Order.Floor.Semifield
import Mathlib.Analysis.SpecialFunctions.Log.Basic

/-!
# Scientific notation of `Ratio`
-/

namespace Hmath
namespace Ratio

/-! ## the number of digits -/

theorem log_two_ten : 21306 * Real.log 10 < 70777 * Real.log 2 ∧ 254370 * Real.log 2 < 76573 * Real.log 10 := by
  have key : ∀ {a b x y : Nat}, 0 < a → a ^ x < b ^ y → (x : ℝ) * Real.log a < y * Real.log b := by
    intro a b x y ha h
    rw [← Real.log_pow, ← Real.log_pow]
    exact Real.log_lt_log (by positivity) (by exact_mod_cast h)
  have h1 : (10 : Nat) ^ 21306 < 2 ^ 70777 := by decide +kernel
  have h2 : (2 : Nat) ^ 254370 < 10 ^ 76573 := by decide +kernel
  constructor
  · have := key (a := 10) (b := 2) (x := 21306) (y := 70777) (by norm_num) h1
    push_cast at this
    exact this
  · have := key (a := 2) (b := 10) (x := 254370) (y := 76573) (by norm_num) h2
    push_cast at this
    exact this

theorem logOk_real {T n r : Nat} (hn : 0 < n) (h : LogOk T n r) :
    (r : ℝ) * Real.log 2 ≤ T * Real.log n ∧ (T : ℝ) * Real.log n < (r + 2) * Real.log 2 := by
  obtain ⟨h1, h2⟩ := h
  have hn' : (0 : ℝ) < n := by exact_mod_cast hn
  constructor
  · rw [← Real.log_pow, ← Real.log_pow]
    exact Real.log_le_log (by positivity) (by exact_mod_cast h1)
  · have h3 : (n : ℚ) ^ T < 2 ^ (r + 2) := by
      refine lt_trans h2 ?_
      have : (2 : ℚ) ^ (r + 2) = 2 ^ (r + 1) * 2 := pow_succ _ _
      rw [this]
      exact mul_lt_mul_of_pos_left (by norm_num) (by positivity)
    have h4 : (n : ℝ) ^ T < 2 ^ (r + 2) := by exact_mod_cast h3
    have := Real.log_lt_log (by positivity) h4
    rw [Real.log_pow, Real.log_pow] at this
    push_cast at this
    exact this

/-- the estimate of the number of digits is off by at most 5/4 -/
theorem approx_range {T : Nat} (hT : T = 2 ^ 32) {c : ℚ} (hc : 0 < c) {rn rd : Nat} (h1 : rn < 2 ^ 64) (h2 : rd < 2 ^ 64)
    (hn : LogOk T c.num.natAbs rn) (hd : LogOk T c.den rd) {A : Int}
    (hA : A = ((((rn : Int) - rd) * 21306).tdiv 70777).tdiv T) :
    1 / 18 < c / 10 ^ A ∧ c / 10 ^ A < 18 := by
  have hnum : 0 < c.num := Rat.num_pos.2 hc
  obtain ⟨n1, n2⟩ := logOk_real (by omega) hn
  obtain ⟨d1, d2⟩ := logOk_real c.den_pos hd
  obtain ⟨l1, l2⟩ := log_two_ten
  have hl2 : 0 < Real.log 2 := Real.log_pos (by norm_num)
  have hl10 : 0 < Real.log 10 := Real.log_pos (by norm_num)
  have hcr : Real.log (c : ℝ) = Real.log (c.num.natAbs : ℝ) - Real.log c.den := by
    rw [← Real.log_div (by positivity) (by positivity)]
    congr 1
    have e1 : c = (c.num.natAbs : ℚ) / c.den := by
      conv_lhs => rw [← Rat.num_div_den c]
      congr 1
      obtain ⟨k, hk⟩ : ∃ k : Nat, c.num = k := ⟨c.num.natAbs, (Int.natAbs_of_nonneg hnum.le).symm⟩
      rw [hk, Int.natAbs_natCast, Int.cast_natCast]
    conv_lhs => rw [e1]
    push_cast
    rfl
  -- the integer estimate
  obtain ⟨D, hD⟩ : ∃ D : Int, D = (rn : Int) - rd := ⟨_, rfl⟩
  rw [← hD] at hA
  have hAle : |A * (70777 * T) - D * 21306| < 70777 * (T : Int) := by
    have key : ∀ (x : Int) (b : Nat), 0 < b → -(b : Int) < b * x.tdiv b - x ∧ b * x.tdiv b - x < (b : Int) := by
      intro x b hb
      have e := Int.mul_tdiv_add_tmod x b
      have e2 := Int.natAbs_tmod x b
      rw [Int.natAbs_natCast] at e2
      have e3 := Nat.mod_lt x.natAbs hb
      omega
    obtain ⟨k1, k2⟩ := key (D * 21306) 70777 (by norm_num)
    obtain ⟨k3, k4⟩ := key ((D * 21306).tdiv 70777) T (by omega)
    rw [← hA] at k3 k4
    have cast : ((70777 : Nat) : Int) = 70777 := rfl
    rw [cast] at k1 k2
    rw [abs_lt]
    constructor <;> nlinarith
  have hDb : |D| < 2 ^ 64 := by rw [abs_lt]; omega
  -- the same over the reals
  have hAr : |(A : ℝ) * (70777 * T) - D * 21306| < 70777 * (T : ℝ) := by exact_mod_cast hAle
  have hDr : |(D : ℝ)| < 2 ^ 64 := by exact_mod_cast hDb
  have hDe : (D : ℝ) = rn - rd := by rw [hD]; push_cast; rfl
  have hTr : (T : ℝ) = 2 ^ 32 := by rw [hT]; norm_num
  obtain ⟨x, hx⟩ : ∃ x : ℝ, x = Real.log c := ⟨_, rfl⟩
  obtain ⟨a, ha⟩ : ∃ a : ℝ, a = Real.log 2 := ⟨_, rfl⟩
  obtain ⟨b, hb⟩ : ∃ b : ℝ, b = Real.log 10 := ⟨_, rfl⟩
  rw [← hx] at hcr
  rw [← ha] at n1 n2 d1 d2 l1 l2 hl2
  rw [← hb] at l1 l2 hl10
  have u1 : T * x - D * a < 2 * a := by rw [hcr, hDe]; nlinarith
  have u2 : -(2 * a) < T * x - D * a := by rw [hcr, hDe]; nlinarith
  have v : |D * (70777 * a - 21306 * b)| ≤ 2 ^ 64 * (70777 * a - 21306 * b) := by
    rw [abs_mul, abs_of_pos (by linarith : 0 < 70777 * a - 21306 * b)]
    exact mul_le_mul_of_nonneg_right hDr.le (by linarith)
  have w : |A * (70777 * T) * b - D * 21306 * b| ≤ 70777 * (T : ℝ) * b := by
    rw [← sub_mul, abs_mul, abs_of_pos hl10]
    exact mul_le_mul_of_nonneg_right hAr.le hl10.le
  rw [abs_le] at v w
  rw [hTr] at *
  have z1 : 4 * (x - A * b) < 5 * b := by linarith [v.1, v.2, w.1, w.2]
  have z2 : -(5 * b) < 4 * (x - A * b) := by linarith [v.1, v.2, w.1, w.2]
  -- back to rational numbers
  obtain ⟨y, hy⟩ : ∃ y : ℚ, y = c / 10 ^ A := ⟨_, rfl⟩
  have hyp : 0 < y := by rw [hy]; exact div_pos hc (zpow_pos (by norm_num) _)
  have hyl : Real.log (y : ℝ) = x - A * b := by
    have : (y : ℝ) = (c : ℝ) / 10 ^ A := by rw [hy]; push_cast; rfl
    have hcr0 : (c : ℝ) ≠ 0 := by exact_mod_cast hc.ne'
    rw [this, Real.log_div hcr0 (by positivity), Real.log_zpow, hx, hb]
  have hypr : (0 : ℝ) < y := by exact_mod_cast hyp
  rw [← hy]
  rw [← hyl] at z1 z2
  have y1 : (y : ℝ) ^ 4 < 10 ^ 5 := by
    rw [← Real.log_lt_log_iff (by positivity) (by positivity), Real.log_pow, Real.log_pow]
    push_cast
    rw [← hb]; exact z1
  have y2 : (1 : ℝ) / 10 ^ 5 < (y : ℝ) ^ 4 := by
    rw [← Real.log_lt_log_iff (by positivity) (by positivity), one_div, Real.log_inv, Real.log_pow, Real.log_pow]
    push_cast
    rw [← hb]; exact z2
  have y1' : y ^ 4 < 10 ^ 5 := by exact_mod_cast y1
  have y2' : (1 : ℚ) / 10 ^ 5 < y ^ 4 := by
    have : ((1 / 10 ^ 5 : ℚ) : ℝ) < ((y ^ 4 : ℚ) : ℝ) := by push_cast; exact y2
    exact_mod_cast this
  constructor
  · by_contra hcon
    have := pow_le_pow_left₀ hyp.le (not_lt.1 hcon) 4
    norm_num at this y2'
    linarith
  · by_contra hcon
    have := pow_le_pow_left₀ (by norm_num) (not_lt.1 hcon) 4
    norm_num at this y1'
    linarith

/-! ## the cut to four limbs -/

theorem sciCut_c {q : ℚ} (h0 : q ≠ 0) : ∃ c : ℚ, sciClone (ofRat q) = pure (ofRat c) ∧ 0 < c ∧
    c.num.natAbs ≤ q.num.natAbs ∧ c.den ≤ q.den ∧ |c - (|q|)| ≤ |q| / 2 ^ 94 ∧
    (q.num.natAbs < 2 ^ 128 ∨ q.den < 2 ^ 128 → c = |q|) := by
  have hnum : q.num ≠ 0 := by simpa using h0
  have hq0 : 0 < |q| := abs_pos.2 h0
  have hB4 : B32 ^ 4 = 2 ^ 128 := by norm_num
  rw [sciClone, sciCut, numer_ofRat, denom_ofRat]
  obtain ⟨l, hl⟩ : ∃ l, l = min (ofInt q.num).mag.length (ofInt q.den).mag.length := ⟨_, rfl⟩
  simp only [← hl]
  rw [BigI.mag_ofInt, BigI.mag_ofInt, Int.natAbs_natCast] at hl
  have iff1 := length_ofNat_le_iff (n := q.num.natAbs) (k := 4) (by norm_num)
  have iff2 := length_ofNat_le_iff (n := q.den) (k := 4) (by norm_num)
  rw [hB4] at iff1 iff2
  by_cases h : l > 4
  · rw [if_pos h, BigI.shift_right_c, BigI.shift_right_c]
    obtain ⟨s, hs⟩ : ∃ s, l - 4 = s := ⟨_, rfl⟩
    rw [hs]
    have b1 : B32 ^ (s + 3) ≤ q.num.natAbs := (length_ofNat_gt_iff (by omega)).1 (by omega)
    have b2 : B32 ^ (s + 3) ≤ q.den := (length_ofNat_gt_iff (by omega)).1 (by omega)
    have hP : 0 < B32 ^ s := by positivity
    rw [pow_add] at b1 b2
    obtain ⟨P, hPe⟩ : ∃ P, P = B32 ^ s := ⟨_, rfl⟩
    rw [← hPe] at b1 b2 hP ⊢
    have c1 : 2 ^ 96 ≤ q.num.natAbs / P := (Nat.le_div_iff_mul_le hP).2 (by rw [mul_comm]; exact b1)
    have c2 : 2 ^ 96 ≤ q.den / P := (Nat.le_div_iff_mul_le hP).2 (by rw [mul_comm]; exact b2)
    have e2 : (q.den : Int).tdiv (P : Nat) = ((q.den / P : Nat) : Int) := by
      rw [Int.tdiv_eq_ediv_of_nonneg (by omega)]; rfl
    have e1 : (q.num.tdiv (P : Nat)).natAbs = q.num.natAbs / P := by
      rw [Int.natAbs_tdiv, Int.natAbs_natCast]; rfl
    rw [from_dn_c (q := ((q.num.tdiv (P : Nat) : Int) : ℚ) / (((q.den : Int).tdiv (P : Nat) : Int) : ℚ)) (by rw [e2]; omega) rfl,
      pure_bind, abs_mut_c]
    have habs : |((q.num.tdiv (P : Nat) : Int) : ℚ) / (((q.den : Int).tdiv (P : Nat) : Int) : ℚ)| =
        ((q.num.natAbs / P : Nat) : ℚ) / ((q.den / P : Nat) : ℚ) := by
      rw [abs_div, e2, ← e1, Int.cast_natCast, abs_of_nonneg (a := ((q.den / P : Nat) : ℚ)) (by positivity), Nat.cast_natAbs]
      push_cast
      rfl
    rw [habs]
    have hqe : |q| = (q.num.natAbs : ℚ) / q.den := by
      conv_lhs => rw [← Rat.num_div_den q]
      rw [abs_div, abs_of_nonneg (a := ((q.den : Nat) : ℚ)) (by positivity), Nat.cast_natAbs]
      push_cast
      rfl
    obtain ⟨n, hn⟩ : ∃ n, n = q.num.natAbs := ⟨_, rfl⟩
    obtain ⟨d, hd⟩ : ∃ d, d = q.den := ⟨_, rfl⟩
    rw [← hn] at b1 c1 hqe iff1 hl ⊢
    rw [← hd] at b2 c2 hqe iff2 hl ⊢
    obtain ⟨N, hN⟩ : ∃ N, N = n / P := ⟨_, rfl⟩
    obtain ⟨D, hD⟩ : ∃ D, D = d / P := ⟨_, rfl⟩
    rw [← hN] at c1 ⊢
    rw [← hD] at c2 ⊢
    refine ⟨(N : ℚ) / D, rfl, ?_, ?_, ?_, ?_, ?_⟩
    · have : 0 < N := lt_of_lt_of_le (by norm_num) c1
      have : 0 < D := lt_of_lt_of_le (by norm_num) c2
      positivity
    · have : (((N : Int) : ℚ) / ((D : Int) : ℚ)).num ∣ N := by
        rw [← Rat.divInt_eq_div]
        exact Rat.num_dvd _ (by omega)
      push_cast at this
      have h3 := Nat.le_of_dvd (by omega) (Int.natAbs_dvd_natAbs.2 this)
      rw [Int.natAbs_natCast] at h3
      exact le_trans h3 (by rw [hN]; exact Nat.div_le_self _ _)
    · have : ((((N : Int) : ℚ) / ((D : Int) : ℚ)).den : Int) ∣ D := by
        rw [← Rat.divInt_eq_div]
        exact Rat.den_dvd _ _
      push_cast at this
      have h3 := Nat.le_of_dvd (by omega) (Int.natCast_dvd_natCast.1 this)
      exact le_trans h3 (by rw [hD]; exact Nat.div_le_self _ _)
    · have n1 : N * P ≤ n := by rw [hN]; exact Nat.div_mul_le_self _ _
      have n2 : n < (N + 1) * P := by
        rw [hN, add_mul, one_mul]; exact Nat.lt_div_mul_add hP
      have d1 : D * P ≤ d := by rw [hD]; exact Nat.div_mul_le_self _ _
      have d2 : d < (D + 1) * P := by
        rw [hD, add_mul, one_mul]; exact Nat.lt_div_mul_add hP
      have hPq : (0 : ℚ) < P := by exact_mod_cast hP
      have n1' : (N : ℚ) * P ≤ n := by exact_mod_cast n1
      have n2' : (n : ℚ) < (N + 1) * P := by exact_mod_cast n2
      have d1' : (D : ℚ) * P ≤ d := by exact_mod_cast d1
      have d2' : (d : ℚ) < (D + 1) * P := by exact_mod_cast d2
      have c1' : (2 : ℚ) ^ 96 ≤ N := by exact_mod_cast c1
      have c2' : (2 : ℚ) ^ 96 ≤ D := by exact_mod_cast c2
      have hD0 : (0 : ℚ) < D := lt_of_lt_of_le (by norm_num) c2'
      have hN0 : (0 : ℚ) < N := lt_of_lt_of_le (by norm_num) c1'
      have hd0 : (0 : ℚ) < d := lt_of_lt_of_le (by positivity) d1'
      have hn0 : (0 : ℚ) < n := lt_of_lt_of_le (by positivity) n1'
      -- rescale
      have hx : (N : ℚ) * P ≤ n ∧ (n : ℚ) ≤ N * P * (1 + 1 / 2 ^ 96) := by
        refine ⟨n1', le_trans n2'.le ?_⟩
        have : (1 : ℚ) ≤ N * (1 / 2 ^ 96) := by
          rw [mul_one_div, le_div_iff₀ (by positivity)]; linarith
        nlinarith
      have hy : (D : ℚ) * P ≤ d ∧ (d : ℚ) ≤ D * P * (1 + 1 / 2 ^ 96) := by
        refine ⟨d1', le_trans d2'.le ?_⟩
        have : (1 : ℚ) ≤ D * (1 / 2 ^ 96) := by
          rw [mul_one_div, le_div_iff₀ (by positivity)]; linarith
        nlinarith
      rw [hqe, abs_le]
      have hdiv : (N : ℚ) / D = (N * P) / (D * P) := by field_simp
      rw [hdiv]
      have hNP : 0 < (N : ℚ) * P := by positivity
      have hDP : 0 < (D : ℚ) * P := by positivity
      generalize (N : ℚ) * P = x at *
      generalize (D : ℚ) * P = y at *
      have lo : x / y ≤ (n : ℚ) / d * (1 + 1 / 2 ^ 96) := by
        rw [div_mul_eq_mul_div, div_le_div_iff₀ hDP hd0]
        calc x * d ≤ x * (y * (1 + 1 / 2 ^ 96)) := mul_le_mul_of_nonneg_left hy.2 hNP.le
          _ ≤ n * (y * (1 + 1 / 2 ^ 96)) := mul_le_mul_of_nonneg_right hx.1 (by positivity)
          _ = n * (1 + 1 / 2 ^ 96) * y := by ring
      have hi : (n : ℚ) / d ≤ x / y * (1 + 1 / 2 ^ 96) := by
        rw [div_mul_eq_mul_div, div_le_div_iff₀ hd0 hDP]
        calc (n : ℚ) * y ≤ x * (1 + 1 / 2 ^ 96) * y := mul_le_mul_of_nonneg_right hx.2 hDP.le
          _ ≤ x * (1 + 1 / 2 ^ 96) * d := mul_le_mul_of_nonneg_left hy.1 (by positivity)
      have hv : 0 < (n : ℚ) / d := by positivity
      generalize (n : ℚ) / d = v at *
      generalize x / y = u at *
      constructor
      · norm_num at *; linarith
      · norm_num at *; linarith
    · intro hc
      rcases hc with hc | hc
      · have := iff1.2 hc; omega
      · have := iff2.2 hc; omega
  · rw [if_neg h, pure_bind, abs_mut_c]
    refine ⟨|q|, rfl, hq0, ?_, ?_, ?_, fun _ => rfl⟩
    · have := ofRat_abs q
      have h2 := congrArg (fun r : Ratio => ival r.numer) this
      simp only [numer_ofRat, ival_ofInt] at h2
      rw [← h2, Int.natAbs_abs]
    · have := ofRat_abs q
      have h2 := congrArg (fun r : Ratio => ival r.denom) this
      simp only [denom_ofRat, ival_ofInt] at h2
      omega
    · rw [sub_self, abs_zero]; positivity

/-! ## the digits -/

theorem sciScale_c {c : ℚ} (hc : 0 < c) {A : Int} (h1 : -2147483000 < A) (h2 : A < 2147483000)
    (hr : c / 10 ^ A < 18) : sciScale (ofRat c) A = pure (A - 17, ((⌊c / 10 ^ (A - 17)⌋₊ : Nat) : Int)) := by
  have hnum : 0 < c.num := Rat.num_pos.2 hc
  have hce : c = (c.num.natAbs : ℚ) / c.den := by
    conv_lhs => rw [← Rat.num_div_den c]
    congr 1
    obtain ⟨k, hk⟩ : ∃ k : Nat, c.num = k := ⟨c.num.natAbs, (Int.natAbs_of_nonneg hnum.le).symm⟩
    rw [hk, Int.natAbs_natCast, Int.cast_natCast]
  have hcn : c.num = (c.num.natAbs : Int) := (Int.natAbs_of_nonneg hnum.le).symm
  have hfl : ⌊c / 10 ^ (A - 17)⌋₊ ≤ 1800000000000000000 := by
    refine Nat.floor_le_of_le ?_
    rw [zpow_sub₀ (by norm_num), div_div_eq_mul_div, mul_div_right_comm]
    have : (10 : ℚ) ^ (17 : Int) = 10 ^ 17 := by norm_cast
    rw [this]
    push_cast
    nlinarith
  rw [sciScale, BigI.from_i32_c (by unfold IsI32; omega) (by omega), pure_bind]
  by_cases h : A < 17
  · rw [if_pos h, BigI.pow_u32_c (by omega), pure_bind, numer_ofRat, denom_ofRat, BigI.mul_c, pure_bind,
      BigI.div_c (den_ne c), pure_bind]
    have e : (c.num * 10 ^ (17 - A).toNat).tdiv c.den = ((⌊c / 10 ^ (A - 17)⌋₊ : Nat) : Int) := by
      have e1 : c / 10 ^ (A - 17) = ((c.num.natAbs * 10 ^ (17 - A).toNat : Nat) : ℚ) / (c.den : Nat) := by
        have : A - 17 = -((17 - A).toNat : Int) := by omega
        conv_lhs => rw [hce, this, zpow_neg, zpow_natCast, div_inv_eq_mul]
        push_cast
        ring
      rw [e1, Nat.floor_div_eq_div]
      conv_lhs => rw [hcn]
      rw [Int.tdiv_eq_ediv_of_nonneg (by positivity)]
      push_cast
      rfl
    rw [e, BigI.to_i64_c, pure_bind, if_pos (by omega)]
    show (pure _ : M _) >>= _ = _
    rw [pure_bind, neg_sub]
  · rw [if_neg h, BigI.pow_u32_c (by omega), pure_bind, numer_ofRat, denom_ofRat, BigI.mul_c, pure_bind,
      BigI.div_c (mul_ne_zero (den_ne c) (by positivity)), pure_bind]
    have e : c.num.tdiv (c.den * 10 ^ (A - 17).toNat) = ((⌊c / 10 ^ (A - 17)⌋₊ : Nat) : Int) := by
      have e1 : c / 10 ^ (A - 17) = ((c.num.natAbs : Nat) : ℚ) / ((c.den * 10 ^ (A - 17).toNat : Nat) : ℚ) := by
        have : A - 17 = ((A - 17).toNat : Int) := by omega
        conv_lhs => rw [hce, this, zpow_natCast]
        push_cast
        rw [div_div]
      rw [e1, Nat.floor_div_eq_div]
      conv_lhs => rw [hcn]
      rw [Int.tdiv_eq_ediv_of_nonneg (by positivity)]
      push_cast
      rfl
    rw [e, BigI.to_i64_c, pure_bind, if_pos (by omega)]
    rfl

theorem lt_pow_of_length {n T : Nat} (hT : T = 2 ^ 32) (h : (ofNat n).length ≤ 2 ^ 27) : n < 2 ^ T := by
  obtain ⟨L, hL⟩ : ∃ L : Nat, L = 2 ^ 27 := ⟨_, rfl⟩
  rw [← hL] at h
  have h1 : n < B32 ^ L := (length_ofNat_le_iff (by omega)).1 h
  have h2 : T = 32 * L := by rw [hT, hL]; norm_num
  rw [h2, pow_mul]; exact h1

/-- the result of `to_scientific_notation` -/
theorem sci_c {q : ℚ} (h0 : q ≠ 0) (hn : (ofNat q.num.natAbs).length ≤ 2 ^ 27) (hd : (ofNat q.den).length ≤ 2 ^ 27) :
    ∃ (c : ℚ) (X : Int), 0 < c ∧ |c - (|q|)| ≤ |q| / 2 ^ 94 ∧
      (q.num.natAbs < 2 ^ 128 ∨ q.den < 2 ^ 128 → c = |q|) ∧ 10 ^ 17 / 18 < c / 10 ^ X ∧ c / 10 ^ X < 18 * 10 ^ 17 ∧
      ∀ k, to_scientific_notation (ofRat q) k = pure ((if q < 0 then ['-'] else []) ++
        (UBig.sciOf ⌊c / 10 ^ X⌋₊ k).1 ++ 'e' :: i64Str (X + (UBig.sciOf ⌊c / 10 ^ X⌋₊ k).2)) := by
  obtain ⟨T, hT⟩ : ∃ T : Nat, T = 2 ^ 32 := ⟨_, rfl⟩
  obtain ⟨c, c1, c2, c3, c4, c5, c6⟩ := sciCut_c h0
  have hcn : 0 < c.num := Rat.num_pos.2 c2
  have b1 : c.num < 2 ^ T := by
    have := lt_of_le_of_lt c3 (lt_pow_of_length hT hn)
    zify at this
    rwa [abs_of_pos hcn] at this
  have b2 : ((c.den : Nat) : Int) < 2 ^ T := by
    have := lt_of_le_of_lt c4 (lt_pow_of_length hT hd)
    exact_mod_cast this
  obtain ⟨rn, n1, n2, n3⟩ := bi_log2_c hT c.num hcn b1
  obtain ⟨rd, d1, d2, d3⟩ := bi_log2_c hT c.den (den_pos' c) b2
  rw [Int.natAbs_natCast] at d3
  obtain ⟨A, hA⟩ : ∃ A : Int, A = ((((rn : Int) - rd) * 21306).tdiv 70777).tdiv T := ⟨_, rfl⟩
  obtain ⟨r1, r2⟩ := approx_range hT c2 n2 d2 n3 d3 hA
  have hAb : -2147483000 < A ∧ A < 2147483000 := by
    have k : ∀ x y : Int, 0 < y → |y * x.tdiv y| ≤ |x| := by
      intro x y hy
      have e2 : (x.tdiv y).natAbs = x.natAbs / y.natAbs := Int.natAbs_tdiv x y
      have e3 := Nat.mul_div_le x.natAbs y.natAbs
      rw [← e2, ← Int.natAbs_mul] at e3
      zify at e3
      exact e3
    have k1 := k (((rn : Int) - rd) * 21306) 70777 (by norm_num)
    have k2 := k ((((rn : Int) - rd) * 21306).tdiv 70777) T (by omega)
    rw [← hA, hT] at k2
    push_cast at k2
    rw [abs_mul, abs_mul] at k1
    have : |(rn : Int) - rd| < 2 ^ 64 := by rw [abs_lt]; omega
    rw [abs_mul] at k2
    norm_num at k1 k2 this
    rw [← abs_lt]
    omega
  have hap : sciApprox (ofRat c) = pure A := by
    rw [sciApprox, numer_ofRat, denom_ofRat, n1, pure_bind, d1, pure_bind, BigI.sub_c, pure_bind,
      BigI.mul_i32_c (by unfold IsI32; omega) (by omega), pure_bind,
      BigI.div_i32_c (by unfold IsI32; omega) (by omega) (by omega), pure_bind, BigI.shift_right_c, pow_one]
    have : ((((rn : Int) - rd) * 21306).tdiv 70777).tdiv (B32 : Nat) = A := by rw [hA, hT]; norm_num
    rw [this, BigI.to_i64_c, pure_bind, if_pos (by omega)]
    rfl
  have hX : c / 10 ^ (A - 17) = c / 10 ^ A * 10 ^ 17 := by
    rw [zpow_sub₀ (by norm_num), div_div_eq_mul_div, mul_div_right_comm]
    norm_cast
  refine ⟨c, A - 17, c2, c5, c6, ?_, ?_, fun k => ?_⟩
  · rw [hX]; norm_num at *; linarith
  · rw [hX]; norm_num at *; linarith
  · rw [to_scientific_notation, c1, pure_bind, hap, pure_bind, sciScale_c c2 hAb.1 hAb.2 r2, pure_bind]
    simp only [Int.toNat_natCast, is_neg_c, decide_eq_true_eq]

end Ratio
end Hmath
