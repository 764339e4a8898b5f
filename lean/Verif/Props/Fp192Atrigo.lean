import Verif.Proofs.Fp192Eval
import Verif.Proofs.Fp192Atrigo
import Verif.Props.Fp192Trigo

/-!
# C71, C72: inverse sine, cosine and tangent of 192-bit floating point numbers
-/

namespace Hmath
namespace Props

open F192 (Rng ZERO ONE PI PI_OVER_2 ONE_OVER_SQRT_2 pi_val pi_err pi_lo pi_hi rsqrt_val rsqrt_lo rsqrt_hi rng_of_exp asin_c half_sub AtanGap atanUnit_c gt)

/-- Zero, or an exponent less than `2^25` in magnitude. -/
def ArcRange (x : F192) : Prop := x = ZERO ∨ (2 ^ 48 - 2 ^ 25 < x.exp ∧ x.exp < 2 ^ 48 + 2 ^ 25)

private theorem arc_rng {x : F192} (hx : FValid x) (hr : ArcRange x) : Rng (2 ^ 25 + 128) x := by
  have := rng_of_exp hx (K := 2 ^ 25) (by rcases hr with h | h; exact Or.inl h; exact Or.inr ⟨by have := h.1; omega, by have := h.2; omega⟩) (by norm_num)
  exact_mod_cast this

private theorem asinSum_le {v : ℚ} (hv : |v| ≤ 1) : |asinSum 16 v| ≤ 2 * |v| := by
  have h2 : asinSum 16 1 ≤ 2 := by decide +kernel
  have h1 : |asinSum 16 v| ≤ asinSum 16 1 * |v| := by
    rw [asinSum, asinSum, Finset.sum_mul]
    refine (Finset.abs_sum_le_sum_abs _ _).trans (Finset.sum_le_sum fun j _ => ?_)
    rw [abs_mul, abs_of_nonneg (by positivity), abs_pow, one_pow, mul_one]
    refine mul_le_mul_of_nonneg_left ?_ (by positivity)
    rw [pow_succ]
    exact mul_le_of_le_one_left (abs_nonneg _) (pow_le_one₀ (abs_nonneg _) hv)
  exact h1.trans (mul_le_mul_of_nonneg_right h2 (abs_nonneg _))

private theorem one_val : fval ONE = 1 := by
  have := F192.fval_mk (s := false) (m := 170141183460469231731687303715884105728) (e := 281474976710656 - 127) ⟨by norm_num, by norm_num⟩ (F192.nz_exp (by omega))
  rw [F192.mg_coeff_sub (by omega), F192.sgn_false, one_mul] at this
  exact this.trans (by norm_num)

/-- the error bound: the 16 terms of the series leave `|x|^33 / (33 (1 - x^2))`, the operations `2^-116` relatively -/
noncomputable def asinBound (x : ℝ) : ℝ := |x| ^ 33 / (33 * (1 - x ^ 2)) + |x| / 2 ^ 116

private theorem asin_real {x z : ℚ} (h1 : |x| < 1) (h : |z - asinSum 16 x| ≤ 1 / 2 ^ 117 * |asinSum 16 x|) :
    |(z : ℝ) - Real.arcsin x| ≤ asinBound x := by
  have e1 := RealSeries.asinSum_abs (n := 16) (by norm_num) h1
  have e2 := (Rat.cast_le (K := ℝ)).2 (h.trans (mul_le_mul_of_nonneg_left (asinSum_le h1.le) (by norm_num)))
  push_cast at e2 e1
  refine (abs_sub_le _ ((asinSum 16 x : ℚ) : ℝ) _).trans ((add_le_add e2 ((abs_sub_comm _ _).trans_le e1)).trans (le_of_eq ?_))
  rw [asinBound, add_comm]
  norm_num
  ring

/-- On `(-1, 1/√2]` the inverse sine panics or is that close to the true value.  What is missing: that it never panics (it does, see below),
and arguments above `1/√2`, which are not implemented. -/
theorem C71_asin_partial {x : F192} (hx : FValid x) (hr : ArcRange x) (h1 : |fval x| < 1) (h2 : fval x ≤ fval ONE_OVER_SQRT_2) :
    Panics (F192.asin x) ∨ ∃ z, F192.asin x = pure z ∧ FValid z ∧
      |((fval z : ℚ) : ℝ) - Real.arcsin ((fval x : ℚ) : ℝ)| ≤ asinBound ((fval x : ℚ) : ℝ) := by
  rcases asin_c (arc_rng hx hr) (by norm_num) (by norm_num) h1.le h2 with h | ⟨z, z1, z2, z3, -⟩
  · exact Or.inl h
  · exact Or.inr ⟨z, z1, z2.1, asin_real h1 z3⟩

/-- The same for the inverse cosine; the difference from a quarter turn costs `2^-123`. -/
theorem C71_acos_partial {x : F192} (hx : FValid x) (hr : ArcRange x) (h1 : |fval x| < 1) (h2 : fval x ≤ fval ONE_OVER_SQRT_2) :
    Panics (F192.acos x) ∨ ∃ z, F192.acos x = pure z ∧ FValid z ∧
      |((fval z : ℚ) : ℝ) - Real.arccos ((fval x : ℚ) : ℝ)| ≤ asinBound ((fval x : ℚ) : ℝ) + 1 / 2 ^ 123 := by
  have hhi := rsqrt_hi
  rcases asin_c (arc_rng hx hr) (by norm_num) (by norm_num) h1.le h2 with ⟨p, hp⟩ | ⟨a, a1, a2, a3, a4, a5⟩
  · left
    refine ⟨p, ?_⟩
    rw [F192.acos, hp]
    rfl
  right
  have hs := asinSum_le h1.le
  have hal : -3 ≤ fval a := by
    have e := abs_le.1 (a3.trans (mul_le_mul_of_nonneg_left hs (by norm_num)))
    have e' := abs_le.1 hs
    norm_num at e
    linarith
  have hau : fval a ≤ 9 / 10 := by
    rcases le_or_gt (fval x) 0 with h | h
    · linarith [a5 h]
    have hx1 : |fval x| ≤ 7071068 / 10000000 := by rw [abs_of_pos h]; linarith
    have h3 : asinSum 16 (fval x) ≤ 8 / 10 := by
      have hm : asinSum 16 (fval x) ≤ asinSum 16 (7071068 / 10000000) := by
        rw [asinSum, asinSum]
        refine Finset.sum_le_sum fun j _ => mul_le_mul_of_nonneg_left ?_ (by positivity)
        exact pow_le_pow_left₀ h.le (by linarith) _
      exact hm.trans (by decide +kernel)
    have e := abs_le.1 (a3.trans (mul_le_mul_of_nonneg_left hs (by norm_num)))
    norm_num at e
    linarith
  obtain ⟨z, z1, z2, z3⟩ := half_sub a2 (by norm_num) (by norm_num) hau hal
  refine ⟨z, by rw [F192.acos, a1, pure_bind, z1], z2, ?_⟩
  have e1 := asin_real h1 a3
  have e2 := (Rat.cast_le (K := ℝ)).2 z3
  have e3 := pi_err
  push_cast at e2
  rw [Real.arccos]
  generalize asinBound _ = b at *
  rw [abs_le] at *
  norm_num at *
  constructor <;> linarith

/-- The inverse sine of a number above `1/√2` (not implemented) or of magnitude above one panics. -/
theorem C71_asin_panics {x : F192} (hx : FValid x) (h : fval ONE_OVER_SQRT_2 < fval x ∨ 1 < |fval x|) :
    Panics (F192.asin x) := by
  have ht : x ≠ negTiny := by
    rintro rfl
    have h127 : F192.Nrm 170141183460469231731687303715884105728 := ⟨by norm_num, by norm_num⟩
    have hn : negTiny = F192.mk' true 170141183460469231731687303715884105728 0 := by decide
    have hv : fval negTiny = -F192.mg 170141183460469231731687303715884105728 0 := by rw [hn]; exact F192.fval_neg h127
    have hp := F192.mg_pos (e := 0) h127
    have hl := F192.mg_lt_of_exp (e₁ := 0) (e₂ := 281474976710656 - 127) h127 h127 (by norm_num)
    rw [F192.mg_coeff_sub (by norm_num)] at hl
    norm_num at hl
    have hs := rsqrt_lo
    rw [hv, abs_neg, abs_of_pos hp] at h
    rcases h with h | h <;> linarith
  obtain ⟨-, -, n1, n2, n3⟩ := C59_sign_partial hx ht
  rw [F192.asin]
  by_cases g1 : gt (if F192.is_neg x then F192.neg x else x) ONE = true
  · rw [if_pos g1]; exact ⟨_, rfl⟩
  rw [if_neg g1]
  have g2 : gt x ONE_OVER_SQRT_2 = true := by
    rw [(C39_ops hx (show FValid ONE_OVER_SQRT_2 by decide)).2.1]
    rcases h with h | h
    · exact h
    exfalso
    refine g1 ?_
    by_cases hn : F192.is_neg x = true
    · rw [if_pos hn, (C39_ops n1 (show FValid ONE by decide)).2.1, n2, one_val]
      rwa [abs_of_neg (n3.1 hn)] at h
    · rw [if_neg hn, (C39_ops hx (show FValid ONE by decide)).2.1, one_val]
      rwa [abs_of_nonneg (not_lt.1 fun hc => hn (n3.2 hc))] at h
  rw [if_pos g2]
  exact ⟨_, rfl⟩

private instance : DecidableEq (M F192) := inferInstanceAs (DecidableEq (Option (Except Panic F192)))

private theorem asin_over : F192.asinE ⟨67657362583663540380719746050011996473, 281474976710528⟩ = throw .overflow := by decide +kernel

private theorem asin_neg : F192.asinE ⟨170141183460469231731687303715884105728, 281474976710529⟩ = pure ⟨243199502877843814362064327646494186837, 281474976710529⟩ := by
  decide +kernel

private theorem acos_neg : F192.acosE ⟨170141183460469231731687303715884105728, 281474976710529⟩ = pure ⟨85087140986573518931804906752596835603, 281474976710530⟩ := by
  decide +kernel

private theorem asin_half : F192.asinE ⟨0, 281474976710528⟩ = pure ⟨8030247216807296835423936967768794488, 281474976710528⟩ := by decide +kernel

private theorem acos_half : F192.acosE ⟨0, 281474976710528⟩ = pure ⟨8030247217134190949677169232757139989, 281474976710529⟩ := by decide +kernel

private theorem half_val : fval ⟨0, 281474976710528⟩ = 1 / 2 := by
  have := F192.fval_mk (s := false) (m := 170141183460469231731687303715884105728) (e := 281474976710656 - 128) ⟨by norm_num, by norm_num⟩ (F192.nz_exp (by omega))
  rw [F192.mg_coeff_sub (by omega), F192.sgn_false, one_mul] at this
  exact this.trans (by norm_num)

/-- one half -/
example : FValid ⟨0, 281474976710528⟩ ∧ ArcRange ⟨0, 281474976710528⟩ ∧ |fval ⟨0, 281474976710528⟩| < 1 ∧ fval ⟨0, 281474976710528⟩ ≤ fval ONE_OVER_SQRT_2 ∧
    ¬Panics (F192.asin ⟨0, 281474976710528⟩) ∧ ¬Panics (F192.acos ⟨0, 281474976710528⟩) := by
  refine ⟨by decide, Or.inr (by decide), by rw [half_val]; norm_num [abs_of_pos], by rw [half_val, rsqrt_val]; norm_num, ?_, ?_⟩
  · rw [(F192.asinE_c _).ret asin_half]; rintro ⟨p, h⟩; cases h
  · rw [(F192.acosE_c _).ret acos_half]; rintro ⟨p, h⟩; cases h

/-- The inverse sine of one panics. -/
example : FValid ONE ∧ ArcRange ONE ∧ fval ONE_OVER_SQRT_2 < fval ONE := ⟨by decide, Or.inr (by decide), by rw [one_val, rsqrt_val]; norm_num⟩

/-- The inverse sine of this number near 0.699 panics: multiplying an intermediate result by an integer overflows. -/
theorem C71_overflow_counterexample : ∃ x, FValid x ∧ ArcRange x ∧ 698 / 1000 ≤ fval x ∧ fval x ≤ 699 / 1000 ∧
    Panics (F192.asin x) ∧ Panics (F192.acos x) := by
  have hx : fval ⟨67657362583663540380719746050011996473, 281474976710528⟩ = 237798546044132772112407049765896102201 / 2 ^ 128 := by
    have := F192.fval_mk (s := false) (m := 237798546044132772112407049765896102201) (e := 281474976710656 - 128) ⟨by norm_num, by norm_num⟩ (F192.nz_exp (by omega))
    rw [F192.mg_coeff_sub (by omega), F192.sgn_false, one_mul] at this
    exact this.trans (by norm_num)
  have h := (F192.asinE_c _).panics asin_over
  refine ⟨⟨67657362583663540380719746050011996473, 281474976710528⟩, by decide, Or.inr (by decide), by rw [hx]; norm_num, by rw [hx]; norm_num, ⟨_, h⟩, ⟨.overflow, ?_⟩⟩
  rw [F192.acos, h]
  rfl

/-- The inverse sine of -1 comes out as about -1.43 and not as -π/2; the inverse cosine as about 3 and not as π. -/
theorem C71_inaccurate_counterexample : ∃ x z w, FValid x ∧ fval x = -1 ∧ F192.asin x = pure z ∧ F192.acos x = pure w ∧
    Real.arcsin ((fval x : ℚ) : ℝ) + 13 / 100 ≤ ((fval z : ℚ) : ℝ) ∧ ((fval w : ℚ) : ℝ) + 13 / 100 ≤ Real.arccos ((fval x : ℚ) : ℝ) := by
  have hx : fval ⟨170141183460469231731687303715884105728, 281474976710529⟩ = -1 := by
    have := F192.fval_mk (s := true) (m := 170141183460469231731687303715884105728) (e := 281474976710656 - 127) ⟨by norm_num, by norm_num⟩ (F192.nz_exp (by omega))
    rw [F192.mg_coeff_sub (by omega), F192.sgn_true] at this
    exact this.trans (by norm_num)
  have hz : fval ⟨243199502877843814362064327646494186837, 281474976710529⟩ = -243199502877843814362064327646494186837 / 2 ^ 127 := by
    have := F192.fval_mk (s := true) (m := 243199502877843814362064327646494186837) (e := 281474976710656 - 127) ⟨by norm_num, by norm_num⟩ (F192.nz_exp (by omega))
    rw [F192.mg_coeff_sub (by omega), F192.sgn_true] at this
    exact this.trans (by norm_num)
  have hw : fval ⟨85087140986573518931804906752596835603, 281474976710530⟩ = 255228324447042750663492210468480941331 / 2 ^ 126 := by
    have := F192.fval_mk (s := false) (m := 255228324447042750663492210468480941331) (e := 281474976710656 - 126) ⟨by norm_num, by norm_num⟩ (F192.nz_exp (by omega))
    rw [F192.mg_coeff_sub (by omega), F192.sgn_false, one_mul] at this
    exact this.trans (by norm_num)
  have hz' := (Rat.cast_le (K := ℝ)).2 (show -1430 / 1000 ≤ fval ⟨243199502877843814362064327646494186837, 281474976710529⟩ by rw [hz]; norm_num)
  have hw' := (Rat.cast_le (K := ℝ)).2 (show fval ⟨85087140986573518931804906752596835603, 281474976710530⟩ ≤ 3001 / 1000 by rw [hw]; norm_num)
  have hp := Real.pi_gt_d2
  refine ⟨_, _, _, by decide, hx, (F192.asinE_c _).ret asin_neg, (F192.acosE_c _).ret acos_neg, ?_, ?_⟩
  · rw [hx]
    push_cast at hz' ⊢
    rw [Real.arcsin_neg_one]
    refine le_trans ?_ hz'
    norm_num at hp ⊢
    linarith
  · rw [hx]
    push_cast at hw' ⊢
    rw [Real.arccos_neg_one]
    refine (add_le_add hw' le_rfl).trans ?_
    norm_num at hp ⊢
    linarith

/-! ### inverse tangent -/

private theorem abs_if {x : F192} (hx : FValid x) (hr : ArcRange x) : FValid (if F192.is_neg x then F192.neg x else x) ∧
    fval (if F192.is_neg x then F192.neg x else x) = |fval x| := by
  have ht := F192.rng_not_tiny (arc_rng hx hr) (by norm_num)
  obtain ⟨-, -, n1, n2, n3⟩ := C59_sign_partial hx ht
  by_cases h : F192.is_neg x = true
  · rw [if_pos h, n2, abs_of_neg (n3.1 h)]; exact ⟨n1, rfl⟩
  · rw [if_neg h, abs_of_nonneg (not_lt.1 fun hc => h (n3.2 hc))]; exact ⟨hx, rfl⟩

private theorem signed {x z : F192} {e : ℝ} (hx : FValid x) (hr : ArcRange x) {K : ℤ} (rz : Rng K z) (hK : K ≤ 2 ^ 40)
    (h : |((fval z : ℚ) : ℝ) - Real.arctan (|((fval x : ℚ) : ℝ)|)| ≤ e) :
    FValid (if F192.is_neg x then F192.neg z else z) ∧ |((fval (if F192.is_neg x then F192.neg z else z) : ℚ) : ℝ) - Real.arctan ((fval x : ℚ) : ℝ)| ≤ e := by
  have ht := F192.rng_not_tiny (arc_rng hx hr) (by norm_num)
  obtain ⟨-, -, -, -, n3⟩ := C59_sign_partial hx ht
  obtain ⟨m1, m2⟩ := rz.neg hK
  by_cases hn : F192.is_neg x = true
  · have := (Rat.cast_lt (K := ℝ)).2 (n3.1 hn)
    rw [Rat.cast_zero] at this
    rw [abs_of_neg this, Real.arctan_neg] at h
    rw [if_pos hn, m2, Rat.cast_neg]
    refine ⟨m1.1, ?_⟩
    rw [← abs_neg]
    refine le_trans (le_of_eq ?_) h
    congr 1; ring
  · have := (Rat.cast_le (K := ℝ)).2 (not_lt.1 fun hc => hn (n3.2 hc))
    rw [Rat.cast_zero] at this
    rw [abs_of_nonneg this] at h
    rw [if_neg hn]
    exact ⟨rz.1, h⟩

private theorem rng_abs {x : F192} (hx : FValid x) (hr : ArcRange x) : |fval x| = 0 ∨ 2 ^ (-(2 ^ 25 + 128) : ℤ) ≤ |fval x| ∧ |fval x| ≤ 2 ^ (2 ^ 25 + 128 : ℤ) := by
  rw [abs_eq_zero]; exact (arc_rng hx hr).2

/-- For `|x| ≤ 1/√2` the inverse tangent is close to the true value, unless a partial sum of the series is next to a power of two
(see the counterexample). -/
theorem C72_atan_small_partial {x : F192} (hx : FValid x) (hr : ArcRange x) (h1 : |fval x| ≤ fval ONE_OVER_SQRT_2)
    (hg : ∀ n ≤ 8, ∀ k : ℤ, 2 ^ k * (1 / 2 ^ 90) ≤ |atanSum (2 * n) |fval x| - 2 ^ k|) :
    ∃ z, F192.atan x = pure z ∧ FValid z ∧
      |((fval z : ℚ) : ℝ) - Real.arctan ((fval x : ℚ) : ℝ)| ≤ |((fval x : ℚ) : ℝ)| ^ 33 / 33 + |((fval x : ℚ) : ℝ)| / 2 ^ 115 := by
  obtain ⟨a1, a2⟩ := abs_if hx hr
  have hhi := rsqrt_hi
  obtain ⟨z, z1, z2, z3, z4⟩ := atanUnit_c (rng_abs hx hr) (abs_nonneg _) hg a1 (by rw [a2]; exact abs_nonneg _)
    (by rw [a2, sub_self, abs_zero]; positivity) (by rw [a2]; exact h1) (by norm_num) (by norm_num)
  have g : ¬gt (if F192.is_neg x then F192.neg x else x) ONE = true := by
    rw [(C39_ops a1 (show FValid ONE by decide)).2.1, a2, one_val, not_lt]
    linarith
  have e1 := RealSeries.atanSum_abs (n := 16) (by decide) |fval x|
  have e2 := (Rat.cast_le (K := ℝ)).2 z4
  push_cast at e1 e2
  rw [abs_abs] at e1
  obtain ⟨s1, s2⟩ := signed hx hr z2 (by norm_num) (e := |((fval x : ℚ) : ℝ)| ^ 33 / 33 + |((fval x : ℚ) : ℝ)| / 2 ^ 115) (by
    refine (abs_sub_le _ ((atanSum 16 |fval x| : ℚ) : ℝ) _).trans ((add_le_add e2 ((abs_sub_comm _ _).trans_le e1)).trans (le_of_eq ?_))
    rw [add_comm]
    norm_num)
  refine ⟨_, ?_, s1, s2⟩
  rw [F192.atan]
  simp only [if_neg g]
  rw [z1, pure_bind]

private theorem div_one {a : F192} (ha : FValid a) (hr : a.exp < 2 ^ 48 + 2 ^ 26 ∧ 2 ^ 48 - 2 ^ 26 < a.exp) : ∃ q δ, F192.div ONE a = pure q ∧ FValid q ∧ 0 ≤ δ ∧ δ ≤ 1 / 2 ^ 124 ∧
    fval q = 1 / fval a * (1 + δ) := by
  obtain ⟨w1, w2, w4, w3⟩ := divRange_small (x := ONE) (y := a) ⟨by decide, by decide⟩ ⟨by omega, by omega⟩
  have := C62_div_partial (show FValid ONE by decide) ha w1 w2 w4 w3
  rwa [one_val] at this

private theorem big_exp {x : F192} (hx : FValid x) (hr : ArcRange x) (h : 1 < |fval x|) :
    (if F192.is_neg x then F192.neg x else x).exp < 2 ^ 48 + 2 ^ 26 ∧ 2 ^ 48 - 2 ^ 26 < (if F192.is_neg x then F192.neg x else x).exp := by
  obtain ⟨a1, a2⟩ := abs_if hx hr
  have ra : Rng (2 ^ 25 + 128) (if F192.is_neg x then F192.neg x else x) := ⟨a1, by rw [a2, abs_abs, abs_eq_zero]; exact (arc_rng hx hr).2⟩
  rcases ra.exp with h' | h'
  · rw [a2] at h'; linarith
  · constructor <;> omega

private theorem recip_rng {K : ℤ} {a : ℚ} (h0 : 0 < a) (h : 2 ^ (-K) ≤ a ∧ a ≤ 2 ^ K) : 2 ^ (-K) ≤ 1 / a ∧ 1 / a ≤ 2 ^ K := by
  obtain ⟨l, u⟩ := h
  rw [one_div]
  rw [zpow_neg] at *
  exact ⟨inv_anti₀ h0 u, inv_le_of_inv_le₀ (zpow_pos (by norm_num) _) l⟩

private theorem atan_big {a t : ℚ} (ha : 14 / 10 ≤ a) (ht : |t - atanSum 16 (1 / a)| ≤ 1 / a / 2 ^ 115) :
    |(t : ℝ) - Real.arctan (a : ℝ)⁻¹| ≤ 1 / (33 * (a : ℝ) ^ 33) + 1 / (2 ^ 115 * (a : ℝ)) ∧ t ≤ 9 / 10 := by
  have h0 : 0 < a := by linarith
  have hr : (14 / 10 : ℝ) ≤ a := by
    have := (Rat.cast_le (K := ℝ)).2 ha
    push_cast at this
    exact this
  have hr0 : (0 : ℝ) < a := by linarith
  have e1 := RealSeries.atanSum_abs (n := 16) (by decide) (1 / a)
  have e2 := (Rat.cast_le (K := ℝ)).2 ht
  push_cast at e1 e2
  rw [one_div, abs_of_pos (inv_pos.2 hr0)] at e1
  have key : |(t : ℝ) - Real.arctan (a : ℝ)⁻¹| ≤ 1 / (33 * (a : ℝ) ^ 33) + 1 / (2 ^ 115 * (a : ℝ)) := by
    refine (abs_sub_le _ ((atanSum 16 (1 / a) : ℚ) : ℝ) _).trans ((add_le_add e2 ((abs_sub_comm _ _).trans_le e1)).trans (le_of_eq ?_))
    rw [add_comm, inv_pow]
    congr 1
    · norm_num
      ring
    · rw [div_div, mul_comm]
  refine ⟨key, ?_⟩
  have hi : (a : ℝ)⁻¹ ≤ 1 := inv_le_one_of_one_le₀ (by linarith)
  have h1 : Real.arctan (a : ℝ)⁻¹ ≤ Real.pi / 4 := by
    rw [← Real.arctan_one]
    exact Real.arctan_le_arctan_iff.2 hi
  have h2 : 1 / (33 * (a : ℝ) ^ 33) ≤ 1 / 33 := by
    refine one_div_le_one_div_of_le (by norm_num) (le_mul_of_one_le_right (by norm_num) (one_le_pow₀ (by linarith)))
  have h3 : 1 / (2 ^ 115 * (a : ℝ)) ≤ 1 / 2 ^ 115 := by
    refine one_div_le_one_div_of_le (by norm_num) (le_mul_of_one_le_right (by norm_num) (by linarith))
  have h4 := Real.pi_lt_d2
  have h5 := (abs_le.1 key).2
  have : (t : ℝ) ≤ ((9 / 10 : ℚ) : ℝ) := by
    push_cast
    refine le_trans (sub_le_iff_le_add.1 h5) ((add_le_add (add_le_add h2 h3) h1).trans ?_)
    norm_num at h4 ⊢
    linarith
  exact_mod_cast this

/-- The same for `|x|` above about `√2`, where the reciprocal is used. -/
theorem C72_atan_large_partial {x : F192} (hx : FValid x) (hr : ArcRange x) (h1 : (1 + 1 / 2 ^ 124) / fval ONE_OVER_SQRT_2 ≤ |fval x|)
    (hg : ∀ n ≤ 8, ∀ k : ℤ, 2 ^ k * (1 / 2 ^ 90) ≤ |atanSum (2 * n) (1 / |fval x|) - 2 ^ k|) :
    ∃ z, F192.atan x = pure z ∧ FValid z ∧
      |((fval z : ℚ) : ℝ) - Real.arctan ((fval x : ℚ) : ℝ)| ≤ 1 / (33 * |((fval x : ℚ) : ℝ)| ^ 33) + 1 / (2 ^ 115 * |((fval x : ℚ) : ℝ)|) + 1 / 2 ^ 123 := by
  obtain ⟨a1, a2⟩ := abs_if hx hr
  have hhi := rsqrt_hi
  have hlo := rsqrt_lo
  have hs0 : 0 < fval ONE_OVER_SQRT_2 := by linarith
  have h14 : 14 / 10 ≤ |fval x| := by
    refine le_trans ?_ h1
    rw [le_div_iff₀ hs0]
    norm_num
    linarith
  have hx0 : 0 < |fval x| := by linarith
  obtain ⟨q, δ, q1, q2, q3, q4, q5⟩ := div_one a1 (big_exp hx hr (by linarith))
  rw [a2] at q5
  have hv0 : 0 < 1 / |fval x| := by positivity
  have eq : |fval q - 1 / (|fval x|)| ≤ 1 / 2 ^ 123 * (1 / |fval x|) := by
    have e : fval q - 1 / |fval x| = δ * (1 / |fval x|) := by rw [q5]; ring
    rw [e, abs_of_nonneg (by positivity)]
    exact mul_le_mul_of_nonneg_right (q4.trans (by norm_num)) hv0.le
  have hq : fval q ≤ fval ONE_OVER_SQRT_2 := by
    rw [q5, div_mul_eq_mul_div, one_mul, div_le_iff₀ hx0]
    rw [div_le_iff₀ hs0] at h1
    linarith
  obtain ⟨t, t1, t2, t3, t4⟩ := atanUnit_c (Or.inr (recip_rng hx0 ((rng_abs hx hr).resolve_left hx0.ne'))) hv0.le hg q2 (by rw [q5]; positivity) eq hq
    (by norm_num) (by norm_num)
  have g : gt (if F192.is_neg x then F192.neg x else x) ONE = true := by
    rw [(C39_ops a1 (show FValid ONE by decide)).2.1, a2, one_val]
    linarith
  obtain ⟨e1, ht9⟩ := atan_big h14 t4
  obtain ⟨z, z1, z2, z3⟩ := half_sub t2 (by norm_num) (by norm_num) ht9 (by linarith)
  have hxr : 0 < |((fval x : ℚ) : ℝ)| := by
    have := (Rat.cast_lt (K := ℝ)).2 hx0
    push_cast at this
    exact this
  rw [Rat.cast_abs, Real.arctan_inv_of_pos hxr] at e1
  have ez : |((fval z : ℚ) : ℝ) - Real.arctan (|((fval x : ℚ) : ℝ)|)| ≤
      1 / (33 * |((fval x : ℚ) : ℝ)| ^ 33) + 1 / (2 ^ 115 * |((fval x : ℚ) : ℝ)|) + 1 / 2 ^ 123 := by
    have e2 := (Rat.cast_le (K := ℝ)).2 z3
    have e3 := pi_err
    push_cast at e2
    generalize 1 / (33 * |((fval x : ℚ) : ℝ)| ^ 33) + 1 / (2 ^ 115 * |((fval x : ℚ) : ℝ)|) = b at *
    rw [abs_le] at *
    norm_num at *
    constructor <;> linarith
  have rz : Rng 64 z := by
    have plo := pi_lo
    have phi := pi_hi
    have := abs_le.1 z3
    norm_num at this
    exact F192.rng_const z2 (by linarith) (by linarith)
  obtain ⟨s1, s2⟩ := signed hx hr rz (by norm_num) ez
  refine ⟨_, ?_, s1, s2⟩
  rw [F192.atan]
  simp only [if_pos g]
  rw [q1, pure_bind, t1, pure_bind, z1, pure_bind]

/-- Between `1/√2` and about `√2` (where it is not implemented) the inverse tangent panics. -/
theorem C72_atan_panics {x : F192} (hx : FValid x) (hr : ArcRange x) (h1 : fval ONE_OVER_SQRT_2 < |fval x|) (h2 : |fval x| < 1 / fval ONE_OVER_SQRT_2) :
    Panics (F192.atan x) := by
  obtain ⟨a1, a2⟩ := abs_if hx hr
  have hlo := rsqrt_lo
  have hs0 : 0 < fval ONE_OVER_SQRT_2 := by linarith
  have hx0 : 0 < |fval x| := by linarith
  rw [F192.atan]
  by_cases g : gt (if F192.is_neg x then F192.neg x else x) ONE = true
  · have g' := g
    rw [(C39_ops a1 (show FValid ONE by decide)).2.1, a2, one_val] at g'
    obtain ⟨q, δ, q1, q2, q3, q4, q5⟩ := div_one a1 (big_exp hx hr g')
    rw [a2] at q5
    have gq : gt q ONE_OVER_SQRT_2 = true := by
      rw [(C39_ops q2 (show FValid ONE_OVER_SQRT_2 by decide)).2.1, q5]
      refine lt_of_lt_of_le ?_ (le_mul_of_one_le_right (by positivity) (by linarith))
      rw [lt_div_iff₀ hs0] at h2
      rw [lt_div_iff₀ hx0]
      linarith
    refine ⟨.explicit, ?_⟩
    simp only [if_pos g]
    rw [q1, pure_bind, F192.atanUnit, if_pos gq]
    rfl
  · have ga : gt (if F192.is_neg x then F192.neg x else x) ONE_OVER_SQRT_2 = true := by
      rw [(C39_ops a1 (show FValid ONE_OVER_SQRT_2 by decide)).2.1, a2]
      exact h1
    refine ⟨.explicit, ?_⟩
    simp only [if_neg g]
    rw [F192.atanUnit, if_pos ga]
    rfl

example : FValid ONE ∧ ArcRange ONE ∧ fval ONE_OVER_SQRT_2 < |fval ONE| ∧ |fval ONE| < 1 / fval ONE_OVER_SQRT_2 :=
  ⟨by decide, Or.inr (by decide), by rw [one_val, rsqrt_val]; norm_num, by rw [one_val, rsqrt_val]; norm_num⟩

private theorem gap_half : ∀ n ≤ 8, ∀ k : ℤ, (2 : ℚ) ^ k * (1 / 2 ^ 90) ≤ |atanSum (2 * n) (1 / 2) - 2 ^ k| := by
  intro n hn k
  have hp : (0 : ℚ) < 2 ^ k := zpow_pos (by norm_num) _
  rcases Nat.eq_zero_or_pos n with rfl | h0
  · rw [show atanSum (2 * 0) (1 / 2) = 0 by simp [atanSum], zero_sub, abs_neg, abs_of_pos hp]
    exact mul_le_of_le_one_right hp.le (by norm_num)
  have hS : 2 / 5 ≤ atanSum (2 * n) (1 / 2) ∧ atanSum (2 * n) (1 / 2) ≤ 12 / 25 := by
    interval_cases n <;> decide +kernel
  obtain ⟨l, u⟩ := hS
  rcases le_or_gt k (-2) with hk | hk
  · have : (2 : ℚ) ^ k ≤ 2 ^ (-2 : ℤ) := zpow_le_zpow_right₀ (by norm_num) hk
    norm_num at this
    refine le_trans ?_ (le_abs_self _)
    norm_num
    linarith
  · have : (2 : ℚ) ^ (-1 : ℤ) ≤ 2 ^ k := zpow_le_zpow_right₀ (by norm_num) (by omega)
    norm_num at this
    refine le_trans ?_ (neg_le_abs _)
    norm_num
    linarith

/-- one half -/
example : FValid ⟨0, 281474976710528⟩ ∧ ArcRange ⟨0, 281474976710528⟩ ∧ |fval ⟨0, 281474976710528⟩| ≤ fval ONE_OVER_SQRT_2 ∧
    ∀ n ≤ 8, ∀ k : ℤ, 2 ^ k * (1 / 2 ^ 90) ≤ |atanSum (2 * n) |fval ⟨0, 281474976710528⟩| - 2 ^ k| := by
  have ha : |fval ⟨0, 281474976710528⟩| = 1 / 2 := by rw [half_val]; norm_num [abs_of_pos]
  refine ⟨by decide, Or.inr (by decide), by rw [ha, rsqrt_val]; norm_num, by rw [ha]; exact gap_half⟩

private theorem two_val : fval ⟨0, 281474976710530⟩ = 2 := by
  have := F192.fval_mk (s := false) (m := 170141183460469231731687303715884105728) (e := 281474976710656 - 126) ⟨by norm_num, by norm_num⟩ (F192.nz_exp (by omega))
  rw [F192.mg_coeff_sub (by omega), F192.sgn_false, one_mul] at this
  exact this.trans (by norm_num)

/-- two -/
example : FValid ⟨0, 281474976710530⟩ ∧ ArcRange ⟨0, 281474976710530⟩ ∧ (1 + 1 / 2 ^ 124) / fval ONE_OVER_SQRT_2 ≤ |fval ⟨0, 281474976710530⟩| ∧
    ∀ n ≤ 8, ∀ k : ℤ, 2 ^ k * (1 / 2 ^ 90) ≤ |atanSum (2 * n) (1 / |fval ⟨0, 281474976710530⟩|) - 2 ^ k| := by
  have ha : |fval ⟨0, 281474976710530⟩| = 2 := by rw [two_val]; norm_num [abs_of_pos]
  refine ⟨by decide, Or.inr (by decide), by rw [ha, rsqrt_val]; norm_num, by rw [ha]; exact gap_half⟩

private theorem atan_wit : F192.atanE ⟨0, 281474976710430⟩ = pure ⟨170141183460469231731687303715884105728, 281474976710422⟩ := by decide +kernel

/-- The inverse tangent of `2^-99` comes out as `-2^-107`: each subtraction rounds up to a power of two and mistakes it for the negative of its half. -/
theorem C72_atan_counterexample : ∃ x z, FValid x ∧ ArcRange x ∧ fval x = 2 ^ (-99 : ℤ) ∧ F192.atan x = pure z ∧ fval z = -2 ^ (-107 : ℤ) ∧
    0 < Real.arctan ((fval x : ℚ) : ℝ) := by
  have hx : fval ⟨0, 281474976710430⟩ = 2 ^ (-99 : ℤ) := by
    have := F192.fval_mk (s := false) (m := 170141183460469231731687303715884105728) (e := 281474976710656 - 226) ⟨by norm_num, by norm_num⟩ (F192.nz_exp (by omega))
    rw [F192.mg_coeff_sub (by omega), F192.sgn_false, one_mul] at this
    exact this.trans (by norm_num)
  have hz : fval ⟨170141183460469231731687303715884105728, 281474976710422⟩ = -2 ^ (-107 : ℤ) := by
    have := F192.fval_mk (s := true) (m := 170141183460469231731687303715884105728) (e := 281474976710656 - 234) ⟨by norm_num, by norm_num⟩ (F192.nz_exp (by omega))
    rw [F192.mg_coeff_sub (by omega), F192.sgn_true] at this
    exact this.trans (by norm_num)
  refine ⟨_, _, by decide, Or.inr (by decide), hx, (F192.atanE_c _).ret atan_wit, hz, Real.arctan_pos.2 ?_⟩
  rw [hx]
  push_cast
  exact zpow_pos (by norm_num) _

end Props
end Hmath
