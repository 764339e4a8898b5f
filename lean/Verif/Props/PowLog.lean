import Verif.Props.Series
import Mathlib.Analysis.SpecialFunctions.Log.Base

/-!
# `log_iter` and `pow_iter` (C57)
-/

namespace Hmath
namespace Props
open Ratio Nat

/-- the small fraction `±n/d` in the limb representation -/
private def rq (n d : Nat) (neg : Bool := false) : Ratio := ⟨⟨[d], false⟩, ⟨[n], neg⟩⟩

/-- the error bound of `ln_iter(x, k)` for `l = ln x` (C53) -/
noncomputable def lnErr (l : ℝ) (k : Nat) : ℝ :=
  1 / (k + 1) + (2 * |l| + 2) / ((6 * k + 13) * 2 ^ (6 * k + 12))

private theorem quot_err {a b A B ε δ : ℝ} (h1 : |A - a| ≤ ε) (h2 : |B - b| ≤ δ) (h3 : δ < |b|) :
    B ≠ 0 ∧ |A / B - a / b| ≤ (ε + |a / b| * δ) / (|b| - δ) := by
  have hb : b ≠ 0 := by
    rintro rfl
    rw [abs_zero] at h3
    exact absurd (abs_nonneg (B - 0)) (by linarith)
  have hB : |b| - δ ≤ |B| := by
    have := abs_sub_abs_le_abs_sub b B
    rw [abs_sub_comm] at this
    linarith
  have hB0 : B ≠ 0 := by
    rintro rfl
    rw [abs_zero] at hB
    linarith
  refine ⟨hB0, ?_⟩
  have e : A / B - a / b = ((A - a) - a / b * (B - b)) / B := by
    field_simp
    ring
  rw [e, abs_div]
  have h4 : |A - a - a / b * (B - b)| ≤ ε + |a / b| * δ := by
    refine (abs_sub _ _).trans ?_
    rw [abs_mul]
    gcongr
  have h5 : 0 < |b| - δ := by linarith
  gcongr
  exact (abs_nonneg _).trans h4

/-- `log_iter(base, x, k)` is near `log x / log base`, as soon as the error of the denominator is
smaller than the denominator. -/
theorem C57_log {b x : Ratio} (hb : RValid b) (hx : RValid x) (hb0 : 0 < rval b) (hx0 : 0 < rval x)
    (lb1 : b.numer.mag.length ≤ 2 ^ 27) (lb2 : b.denom.mag.length ≤ 2 ^ 27)
    (lx1 : x.numer.mag.length ≤ 2 ^ 27) (lx2 : x.denom.mag.length ≤ 2 ^ 27) {k : Nat} (hk : k ≤ 205)
    (h : lnErr (Real.log (rval b : ℚ)) k < |Real.log (rval b : ℚ)|) :
    ∃ r, log_iter b x k = pure r ∧ RValid r ∧
      |((rval r : ℚ) : ℝ) - Real.logb (rval b : ℚ) (rval x : ℚ)| ≤
        (lnErr (Real.log (rval x : ℚ)) k
          + |Real.logb (rval b : ℚ) (rval x : ℚ)| * lnErr (Real.log (rval b : ℚ)) k)
        / (|Real.log (rval b : ℚ)| - lnErr (Real.log (rval b : ℚ)) k) := by
  obtain ⟨r1, e1, v1, d1⟩ := C53_ln hx hx0 lx1 lx2 hk
  obtain ⟨r2, e2, v2, d2⟩ := C53_ln hb hb0 lb1 lb2 hk
  obtain ⟨h0, hq⟩ := quot_err d1 d2 h
  have h0' : rval r2 ≠ 0 := by exact_mod_cast h0
  refine ⟨ofRat (rval r1 / rval r2), ?_, rvalid_ofRat _, ?_⟩
  · rw [log_iter, e1, pure_bind, e2, pure_bind]
    conv_lhs => rw [v1.eq_ofRat, v2.eq_ofRat]
    exact div_c h0'
  · rw [rval_ofRat, Rat.cast_div]
    exact hq
/-- the hypothesis holds for base 2 from the second iteration on -/
example : lnErr (Real.log (rval (rq 2 1) : ℚ)) 2 < |Real.log (rval (rq 2 1) : ℚ)| := by
  have e : rval (rq 2 1) = 2 := by decide +kernel
  rw [e]
  have h1 := Real.log_two_gt_d9
  have h2 := Real.log_two_lt_d9
  rw [lnErr, Rat.cast_ofNat, abs_of_pos (by linarith)]
  have : (2 * Real.log 2 + 2) / ((6 * (2 : Nat) + 13) * 2 ^ (6 * 2 + 12)) ≤ 1 / 1000 := by
    rw [div_le_iff₀ (by positivity)]
    norm_num
    linarith
  push_cast at this ⊢
  linarith

private theorem ln_nonpos {x : Ratio} (hx : RValid x) (h : rval x ≤ 0) (k : Nat) :
    ln_iter x k = throw .explicit := by
  rw [hx.eq_ofRat, ln_iter, is_neg_c, is_zero_c]
  by_cases h' : rval x < 0
  · rw [decide_eq_true h', if_pos rfl]
  · rw [decide_eq_false h', if_neg (by decide), decide_eq_true (by linarith), if_pos rfl]

/-- A non-positive argument or base panics. -/
theorem C57_log_panics {b x : Ratio} (k : Nat) :
    (RValid x → rval x ≤ 0 → Panics (log_iter b x k)) ∧
    (RValid b → rval b ≤ 0 → ¬ Returns (log_iter b x k)) := by
  constructor
  · intro hx h
    exact ⟨.explicit, by rw [log_iter, ln_nonpos hx h]; rfl⟩
  · rintro hb h ⟨r, e⟩
    rw [log_iter, ln_nonpos hb h] at e
    rcases hl : ln_iter x k with _ | (p | y) <;> rw [hl] at e
    · exact absurd e (by intro h; injection h)
    · exact absurd e (by intro h; injection h with h; injection h)
    · exact absurd e (by intro h; injection h with h; injection h)
example : Panics (log_iter (rq 2 1) (rq 3 1 true) 5) :=
  (C57_log_panics 5).1 (by decide) (by decide +kernel)

theorem C57_pow_panics {a : Ratio} (ha : RValid a) (h : rval a < 0) (b : Ratio) (k : Nat) :
    Panics (pow_iter a b k) := by
  have hz : a.is_zero = false := by
    rw [ha.eq_ofRat, is_zero_c, decide_eq_false h.ne]
  exact ⟨.explicit, by rw [pow_iter, hz, if_neg (by decide), ln_nonpos ha h.le]; rfl⟩
example : Panics (pow_iter (rq 3 1 true) (rq 2 1) 5) :=
  C57_pow_panics (by decide) (by decide +kernel) _ 5

private theorem ln_one {k : Nat} (hk : k ≤ 205) : ln_iter Ratio.one k = pure Ratio.zero := by
  obtain ⟨T, hT⟩ : ∃ T : Nat, T = 2 ^ 32 := ⟨_, rfl⟩
  have h1T : (1 : Int) < 2 ^ T := by
    have : (2 : Int) ^ 1 ≤ 2 ^ T := pow_le_pow_right₀ (by norm_num) (by rw [hT]; norm_num)
    linarith
  obtain ⟨rn, a1, a2, a3⟩ := bi_log2_c hT 1 (by norm_num) h1T
  have hl : lnLog2 (ofRat 1) = pure 0 := by
    rw [lnLog2, numer_ofRat, denom_ofRat]
    have e1 : (1 : ℚ).num = 1 := rfl
    have e2 : (((1 : ℚ).den : Nat) : Int) = 1 := rfl
    rw [e1, e2, a1, pure_bind, pure_bind, BigI.sub_c, pure_bind, BigI.shift_right_c, sub_self, Int.zero_tdiv,
      BigI.to_i64_c, pure_bind, if_pos (by omega), unwrapR_ok]
  rw [one_c, ln_iter, is_neg_c, decide_eq_false (by norm_num), if_neg (by decide), is_zero_c,
    decide_eq_false (by norm_num), if_neg (by decide), hl, pure_bind, lnScale_c (by norm_num), pure_bind,
    sub_i32_mut_c _ isI32_one (by omega), pure_bind, Int.cast_one, lnLoop_c _ (by omega), pure_bind, ln2_iter_c hk,
    pure_bind, BigI.from_i64_c (by omega) (by omega), pure_bind, mul_bi_c, pure_bind, Ratio.add_c, zero_c]
  refine congrArg (fun q => pure (ofRat q)) ?_
  simp [logSum]

/-- Base 1: the code divides by zero without noticing, and what it returns, if anything, is not a
number (`x/0`). -/
theorem C57_log_base_one_counterexample {x : Ratio} (hx : RValid x) (h0 : 0 < rval x)
    (hn : x.numer.mag.length ≤ 2 ^ 27) (hd : x.denom.mag.length ≤ 2 ^ 27) {k : Nat} (hk : k ≤ 205) :
    Panics (log_iter Ratio.one x k) ∨ ∃ r, log_iter Ratio.one x k = pure r ∧ ival r.denom = 0 := by
  obtain ⟨r, e, v, _⟩ := C53_ln hx h0 hn hd hk
  rw [log_iter, e, pure_bind, ln_one hk, pure_bind, zero_c, v.eq_ofRat]
  simp only [div, denom_ofRat, numer_ofRat, BigI.mul_c, pure_bind, from_denom_and_numer,
    from_denom_and_numer_raw]
  have e1 : (0 : ℚ).num = 0 := rfl
  rw [e1, mul_zero]
  by_cases hz : (rval r).num * ((0 : ℚ).den : Int) = 0
  · rw [hz, fit_zero_zero]
    exact .inl ⟨_, rfl⟩
  · rw [fit_zero hz]
    exact .inr ⟨_, rfl, ival_ofInt 0⟩
example : Panics (log_iter Ratio.one (rq 2 1) 5) ∨ ∃ r, log_iter Ratio.one (rq 2 1) 5 = pure r ∧ ival r.denom = 0 :=
  C57_log_base_one_counterexample (by decide) (by decide +kernel) (by decide) (by decide) (by norm_num)

private theorem pow_err {r t l b ε δ y : ℝ} (h1 : |r - Real.exp t| ≤ δ * Real.exp t)
    (h2 : |t - b * l| ≤ |b| * ε) (hδ : 0 ≤ δ) (hy : y = Real.exp (b * l)) :
    |r - y| ≤ ((1 + δ) * Real.exp (|b| * ε) - 1) * y := by
  rw [hy]
  have hp := Real.exp_pos (b * l)
  have et : Real.exp t = Real.exp (b * l) * Real.exp (t - b * l) := by
    rw [← Real.exp_add]; congr 1; ring
  have hu : |Real.exp (t - b * l) - 1| ≤ Real.exp (|b| * ε) - 1 := by
    have g1 := Real.exp_le_exp.2 ((abs_le.1 h2).2)
    have g2 := Real.exp_le_exp.2 ((abs_le.1 h2).1)
    have g3 := Real.add_one_le_exp (|b| * ε)
    have g4 : 1 - |b| * ε ≤ Real.exp (-(|b| * ε)) := by
      have := Real.add_one_le_exp (-(|b| * ε)); linarith
    rw [abs_le]
    constructor <;> linarith
  have hu' : Real.exp (t - b * l) ≤ Real.exp (|b| * ε) := Real.exp_le_exp.2 ((abs_le.1 h2).2)
  calc |r - Real.exp (b * l)| ≤ |r - Real.exp t| + |Real.exp t - Real.exp (b * l)| := abs_sub_le _ _ _
    _ ≤ δ * (Real.exp (b * l) * Real.exp (|b| * ε)) + Real.exp (b * l) * (Real.exp (|b| * ε) - 1) := by
        refine add_le_add (h1.trans ?_) ?_
        · rw [et]; gcongr
        · rw [et, show Real.exp (b * l) * Real.exp (t - b * l) - Real.exp (b * l)
            = Real.exp (b * l) * (Real.exp (t - b * l) - 1) by ring, abs_mul, abs_of_pos hp]
          gcongr
    _ = _ := by ring

/-- `pow_iter(a, b, k)` is near `a^b` for positive `a`: with `ε` the error of the logarithm and `δ`
the relative error of the exponential, the relative error is at most `(1 + δ) e^(|b| ε) - 1`. -/
theorem C57_pow {a b : Ratio} (ha : RValid a) (hb : RValid b) (h0 : 0 < rval a)
    (hn : a.numer.mag.length ≤ 2 ^ 27) (hd : a.denom.mag.length ≤ 2 ^ 27) {k : Nat} (hk : k ≤ 205)
    {ε T δ : ℝ} (hε : ε = lnErr (Real.log (rval a : ℚ)) k)
    (hT : T = |((rval b : ℚ) : ℝ)| * (|Real.log (rval a : ℚ)| + ε)) (hT' : T < 2147483648)
    (hδ : δ = 6 / (k + 1)! + 14 * T / (k + 20)!) :
    ∃ r, pow_iter a b k = pure r ∧ RValid r ∧
      |((rval r : ℚ) : ℝ) - ((rval a : ℚ) : ℝ) ^ ((rval b : ℚ) : ℝ)| ≤
        ((1 + δ) * Real.exp (|((rval b : ℚ) : ℝ)| * ε) - 1) * ((rval a : ℚ) : ℝ) ^ ((rval b : ℚ) : ℝ) := by
  obtain ⟨l, e1, v1, d1⟩ := C53_ln ha h0 hn hd hk
  have d1' : |((rval l : ℚ) : ℝ) - Real.log (rval a : ℚ)| ≤ ε := by rw [hε]; exact d1
  have hdiff : |((rval b * rval l : ℚ) : ℝ) - ((rval b : ℚ) : ℝ) * Real.log (rval a : ℚ)|
      ≤ |((rval b : ℚ) : ℝ)| * ε := by
    rw [Rat.cast_mul, ← mul_sub, abs_mul]
    gcongr
  have hlT : |((rval b * rval l : ℚ) : ℝ)| ≤ T := by
    rw [Rat.cast_mul, abs_mul, hT]
    have : |((rval l : ℚ) : ℝ)| ≤ |Real.log (rval a : ℚ)| + ε := by
      have := abs_sub_abs_le_abs_sub ((rval l : ℚ) : ℝ) (Real.log (rval a : ℚ))
      linarith
    gcongr
  have hlt : |rval b * rval l| < 2147483648 := by
    have : |((rval b * rval l : ℚ) : ℝ)| < 2147483648 := hlT.trans_lt hT'
    exact_mod_cast this
  obtain ⟨r, e2, v2, d2⟩ := C52_exp (x := ofRat (rval b * rval l)) (rvalid_ofRat _)
    (by rw [rval_ofRat]; exact hlt) (k := k) (by omega)
  rw [rval_ofRat] at d2
  have hT0 : 0 ≤ T := (abs_nonneg _).trans hlT
  refine ⟨r, ?_, v2, ?_⟩
  · have hz : a.is_zero = false := by
      rw [ha.eq_ofRat, is_zero_c, decide_eq_false h0.ne']
    rw [pow_iter, hz, if_neg (by decide), e1, pure_bind]
    conv_lhs => rw [hb.eq_ofRat, v1.eq_ofRat]
    rw [Ratio.mul_c, pure_bind, e2]
  · have ha0 : (0 : ℝ) < ((rval a : ℚ) : ℝ) := by exact_mod_cast h0
    refine pow_err (d2.trans ?_) hdiff (by rw [hδ]; positivity) ?_
    · rw [hδ]
      gcongr
    · rw [Real.rpow_def_of_pos ha0, mul_comm]
/-- the bounds are small: for `(3/2)^(-5/4)` at `k = 10` the hypothesis on `T` holds -/
example : |((rval (rq 5 4 true) : ℚ) : ℝ)| * (|Real.log (rval (rq 3 2) : ℚ)|
    + lnErr (Real.log (rval (rq 3 2) : ℚ)) 10) < 2147483648 := by
  have e1 : rval (rq 5 4 true) = -(5 / 4) := by decide +kernel
  have e2 : rval (rq 3 2) = 3 / 2 := by decide +kernel
  rw [e1, e2, lnErr]
  have hl : |Real.log ((3 / 2 : ℚ) : ℝ)| ≤ 1 := by
    have g1 := Real.log_le_sub_one_of_pos (x := ((3 / 2 : ℚ) : ℝ)) (by norm_num)
    have g2 := Real.log_nonneg (x := ((3 / 2 : ℚ) : ℝ)) (by norm_num)
    rw [abs_of_nonneg g2]
    refine g1.trans ?_
    norm_num
  generalize |Real.log ((3 / 2 : ℚ) : ℝ)| = L at hl
  have : (2 * L + 2) / ((6 * (10 : Nat) + 13) * 2 ^ (6 * 10 + 12)) ≤ 4 := by
    rw [div_le_iff₀ (by positivity)]
    have : (1 : ℝ) ≤ (6 * (10 : Nat) + 13) * 2 ^ (6 * 10 + 12) := by
      have : (1 : ℝ) ≤ 2 ^ (6 * 10 + 12) := one_le_pow₀ (by norm_num)
      push_cast
      linarith
    linarith
  have h5 : |((-(5 / 4) : ℚ) : ℝ)| = 5 / 4 := by push_cast; rw [abs_neg, abs_of_pos (by norm_num)]
  rw [h5]
  have h6 : (1 : ℝ) / ((10 : Nat) + 1) ≤ 1 := by norm_num
  linarith

/-- `0^b` is 0 for every `b`; the documentation says so for `0^0`, but for negative `b` no number is
the right answer. -/
theorem C57_pow_zero (b : Ratio) (k : Nat) : pow_iter Ratio.zero b k = pure Ratio.zero := rfl

end Props
end Hmath
