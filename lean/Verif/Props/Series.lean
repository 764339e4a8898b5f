import Verif.Proofs.SeriesErr
import Verif.Props.Ratio

/-!
# The iterative functions (C32, C33, C44, C45, C50–C54)
-/

namespace Hmath
namespace Props
open Ratio Nat

/-- the small fraction `±n/d` in the limb representation -/
private def rq (n d : Nat) (neg : Bool := false) : Ratio := ⟨⟨[d], false⟩, ⟨[n], neg⟩⟩

/-! ## C32 e -/

/-- `e_iter(k)` is the sum of `1/i!` for `i` from 0 to `19 + k`. -/
theorem C32_sum {k : Nat} (hk : k ≤ 2147483627) :
    ComputesR (e_iter k) (∑ i ∈ Finset.range (k + 20), 1 / (i ! : ℚ)) := by
  have h : expSum (k + 20) 1 = ∑ i ∈ Finset.range (k + 20), 1 / (i ! : ℚ) :=
    Finset.sum_congr rfl fun i _ => by rw [one_pow]
  rw [← h]
  exact computesR_of_eq (e_iter_c hk)
example : ComputesR (e_iter 3) (∑ i ∈ Finset.range 23, 1 / (i ! : ℚ)) := C32_sum (by norm_num)

/-- For larger `k` the `i32` loop counter overflows. -/
theorem C32_overflow {k : Nat} (hk : 2147483627 < k) : Panics (e_iter k) := ⟨_, e_iter_big hk⟩
example : Panics (e_iter 2147483648) := C32_overflow (by norm_num)

/-- The result is below e, by at most `2/(k+20)!`. -/
theorem C32_below_e {k : Nat} (hk : k ≤ 2147483627) :
    ∃ r, e_iter k = pure r ∧ RValid r ∧ ((rval r : ℚ) : ℝ) < Real.exp 1 ∧
      Real.exp 1 - ((rval r : ℚ) : ℝ) ≤ 2 / (k + 20)! := by
  obtain ⟨h1, h2⟩ := RealSeries.e_bound (n := k + 20) (by omega)
  refine ⟨_, e_iter_c hk, rvalid_ofRat _, ?_⟩
  rw [rval_ofRat]
  exact ⟨by linarith, h2⟩
example : ∃ r, e_iter 3 = pure r ∧ RValid r ∧ ((rval r : ℚ) : ℝ) < Real.exp 1 ∧
    Real.exp 1 - ((rval r : ℚ) : ℝ) ≤ 2 / (3 + 20)! := C32_below_e (by norm_num)

theorem C32_increasing {j k : Nat} (hjk : j < k) (hk : k ≤ 2147483627) :
    ∃ r s, e_iter j = pure r ∧ e_iter k = pure s ∧ rval r < rval s := by
  refine ⟨_, _, e_iter_c (by omega), e_iter_c hk, ?_⟩
  rw [rval_ofRat, rval_ofRat, expSum, expSum]
  refine Finset.sum_lt_sum_of_subset (i := j + 20) (Finset.range_subset_range.2 (by omega))
    (Finset.mem_range.2 (by omega)) (by simp) ?_ (fun i _ _ => ?_)
  · have := Nat.factorial_pos (j + 20)
    positivity
  · positivity
example : ∃ r s, e_iter 2 = pure r ∧ e_iter 5 = pure s ∧ rval r < rval s :=
  C32_increasing (by norm_num) (by norm_num)

/-! ## C33 constants -/

theorem ofRat_of_parts {r : Ratio} (h : RValid r) {q : ℚ} (hq : rval r = q) : r = ofRat q := by
  rw [h.eq_ofRat, hq]

theorem C33_e : e_iter 15 = pure e_const := by
  rw [e_iter_c (by norm_num)]
  refine congrArg pure (ofRat_of_parts (by decide +kernel) ?_).symm
  decide +kernel

theorem C33_pi : pi_iter 7 = pure pi_const := by
  rw [pi_iter_c (by norm_num)]
  refine congrArg pure (ofRat_of_parts (by decide +kernel) ?_).symm
  decide +kernel

theorem C33_ln2 : ln2_iter 11 = pure ln2_const := by
  rw [ln2_iter_c (by norm_num)]
  refine congrArg pure (ofRat_of_parts (by decide +kernel) ?_).symm
  decide +kernel

/-- All three constants are below the number they stand for, by less than `10^-19`, `10^-24`,
`10^-39`. -/
theorem C33_accuracy :
    (0 < Real.pi - ((rval pi_const : ℚ) : ℝ) ∧ Real.pi - ((rval pi_const : ℚ) : ℝ) < 1 / 10 ^ 19) ∧
    (0 < Real.exp 1 - ((rval e_const : ℚ) : ℝ) ∧ Real.exp 1 - ((rval e_const : ℚ) : ℝ) < 1 / 10 ^ 39) ∧
    (0 ≤ Real.log 2 - ((rval ln2_const : ℚ) : ℝ) ∧
      Real.log 2 - ((rval ln2_const : ℚ) : ℝ) < 1 / 10 ^ 25) := by
  have hp : rval pi_const = bbpSum 16 := by decide +kernel
  have he : rval e_const = expSum 35 1 := by decide +kernel
  have hl : rval ln2_const = ln2Sum 78 := by decide +kernel
  rw [hp, he, hl]
  obtain ⟨p1, p2⟩ := RealSeries.pi_bound (n := 16) (by norm_num)
  obtain ⟨e1, e2⟩ := RealSeries.e_bound (n := 35) (by norm_num)
  obtain ⟨l1, l2⟩ := RealSeries.ln2_bound 78
  refine ⟨⟨p1, p2.trans_le (by norm_num)⟩, ⟨e1, e2.trans_lt ?_⟩, ⟨l1, l2.trans_lt (by norm_num)⟩⟩
  have h : 35! = 10333147966386144929666651337523200000000 := by decide +kernel
  rw [h]
  norm_num

/-! ## C50 pi_iter and ln2_iter -/

/-- `pi_iter(k)` is the sum of the first `2k + 2` terms of the Bailey–Borwein–Plouffe series. -/
theorem C50_pi_sum {k : Nat} (hk : k ≤ 255) : ComputesR (pi_iter k) (bbpSum (2 * k + 2)) :=
  computesR_of_eq (pi_iter_c hk)
example : ComputesR (pi_iter 3) (bbpSum 8) := C50_pi_sum (by norm_num)

theorem C50_pi_panics {k : Nat} (hk : 255 < k) : Panics (pi_iter k) := ⟨_, pi_iter_big hk⟩
example : Panics (pi_iter 256) := C50_pi_panics (by norm_num)

/-- `pi_iter(k)` is below pi, by less than `256^-(k+1) / 2`. -/
theorem C50_pi_error {k : Nat} (hk : k ≤ 255) : ∃ r, pi_iter k = pure r ∧ RValid r ∧
    0 < Real.pi - ((rval r : ℚ) : ℝ) ∧ Real.pi - ((rval r : ℚ) : ℝ) < 1 / (2 * 256 ^ (k + 1)) := by
  refine ⟨_, pi_iter_c hk, rvalid_ofRat _, ?_⟩
  rw [rval_ofRat]
  have := RealSeries.pi_bound (n := 2 * k + 2) (by omega)
  rw [show (256 : ℝ) = 16 ^ 2 by norm_num, ← pow_mul, show 2 * (k + 1) = 2 * k + 2 by ring]
  exact this
example : ∃ r, pi_iter 7 = pure r ∧ RValid r ∧ 0 < Real.pi - ((rval r : ℚ) : ℝ) ∧
    Real.pi - ((rval r : ℚ) : ℝ) < 1 / (2 * 256 ^ (7 + 1)) := C50_pi_error (by norm_num)

theorem C50_pi_increasing {j k : Nat} (hjk : j < k) (hk : k ≤ 255) :
    ∃ r s, pi_iter j = pure r ∧ pi_iter k = pure s ∧ rval r < rval s := by
  refine ⟨_, _, pi_iter_c (by omega), pi_iter_c hk, ?_⟩
  rw [rval_ofRat, rval_ofRat, bbpSum, bbpSum]
  exact Finset.sum_lt_sum_of_subset (i := 2 * j + 2) (Finset.range_subset_range.2 (by omega))
    (Finset.mem_range.2 (by omega)) (by simp) (bbp_term_pos _) (fun i _ _ => (bbp_term_pos _).le)
example : ∃ r s, pi_iter 2 = pure r ∧ pi_iter 5 = pure s ∧ rval r < rval s :=
  C50_pi_increasing (by norm_num) (by norm_num)

/-- `ln2_iter(k)` is the sum of the first `6k + 12` terms of `Σ 1/(i 2^i)`. -/
theorem C50_ln2_sum {k : Nat} (hk : k ≤ 205) : ComputesR (ln2_iter k) (ln2Sum (6 * k + 12)) :=
  computesR_of_eq (ln2_iter_c hk)
example : ComputesR (ln2_iter 3) (ln2Sum 30) := C50_ln2_sum (by norm_num)

theorem C50_ln2_panics {k : Nat} (hk : 205 < k) : Panics (ln2_iter k) := ⟨_, ln2_iter_big hk⟩
example : Panics (ln2_iter 206) := C50_ln2_panics (by norm_num)

theorem C50_ln2_error {k : Nat} (hk : k ≤ 205) : ∃ r, ln2_iter k = pure r ∧ RValid r ∧
    0 ≤ Real.log 2 - ((rval r : ℚ) : ℝ) ∧
    Real.log 2 - ((rval r : ℚ) : ℝ) ≤ 1 / ((6 * k + 13) * 2 ^ (6 * k + 12)) := by
  refine ⟨_, ln2_iter_c hk, rvalid_ofRat _, ?_⟩
  rw [rval_ofRat]
  have := RealSeries.ln2_bound (6 * k + 12)
  rw [show (((6 * k + 12 : Nat) : ℝ) + 1) = 6 * k + 13 by push_cast; ring] at this
  exact this
example : ∃ r, ln2_iter 11 = pure r ∧ RValid r ∧ 0 ≤ Real.log 2 - ((rval r : ℚ) : ℝ) ∧
    Real.log 2 - ((rval r : ℚ) : ℝ) ≤ 1 / ((6 * (11 : Nat) + 13) * 2 ^ (6 * 11 + 12)) :=
  C50_ln2_error (by norm_num)

/-! ## C44 exact partial sums -/

theorem qtrunc_small {q : ℚ} (h : |q| < 2147483648) : |qtrunc q| ≤ 2147483647 := by
  rw [abs_lt] at h
  rw [abs_le]
  rcases le_total 0 q with h0 | h0
  · rw [qtrunc_nonneg q h0]
    have h1 : (⌊q⌋ : ℚ) ≤ q := Int.floor_le q
    have h2 : 0 ≤ ⌊q⌋ := Int.floor_nonneg.2 h0
    have h3 : (⌊q⌋ : ℚ) < ((2147483648 : Int) : ℚ) := lt_of_le_of_lt h1 (by exact_mod_cast h.2)
    have h4 : ⌊q⌋ < 2147483648 := by exact_mod_cast h3
    omega
  · rw [qtrunc_nonpos q h0]
    have h1 : q ≤ (⌈q⌉ : ℚ) := Int.le_ceil q
    have h2 : ⌈q⌉ ≤ 0 := Int.ceil_le.2 (by exact_mod_cast h0)
    have h3 : ((-2147483648 : Int) : ℚ) < (⌈q⌉ : ℚ) := lt_of_lt_of_le (by push_cast; exact h.1) h1
    have h4 : -2147483648 < ⌈q⌉ := by exact_mod_cast h3
    omega

theorem qtrunc_large {q : ℚ} (h : 2147483648 ≤ |q|) : 2147483647 < qtrunc q ∨ qtrunc q < -2147483647 := by
  rcases le_total 0 q with h0 | h0
  · rw [abs_of_nonneg h0] at h
    left
    rw [qtrunc_nonneg q h0]
    have : (2147483648 : Int) ≤ ⌊q⌋ := Int.le_floor.2 (by exact_mod_cast h)
    omega
  · rw [abs_of_nonpos h0] at h
    right
    rw [qtrunc_nonpos q h0]
    have : ⌈q⌉ ≤ (-2147483648 : Int) := Int.ceil_le.2 (by push_cast; linarith)
    omega

/-- `exp_iter(x, k)` is `S · E^t`, where `t` is `x` truncated towards zero, `f = x - t`,
`E = Σ_{i<k+20} 1/i!`, and `S` is the sum of the first `k + 1` terms of the series of `e^f`, or for
`f ≥ 9/10` the quotient of `E` and the first `k + 1` terms of the series of `e^(1-f)`. -/
theorem C44_exp {x : Ratio} (hx : RValid x) (h : |rval x| < 2147483648) {k : Nat}
    (hk : k ≤ 2147483627) :
    ∃ t : ℤ, t = (if 0 ≤ rval x then ⌊rval x⌋ else ⌈rval x⌉) ∧
    ComputesR (exp_iter x k) ((if 9 / 10 ≤ rval x - t then
        expSum (k + 20) 1 / expSum (k + 1) (1 - (rval x - t)) else expSum (k + 1) (rval x - t))
      * expSum (k + 20) 1 ^ t) := by
  have key := exp_iter_c (k := k) hk (qtrunc_small h)
  refine ⟨qtrunc (rval x), ?_, ?_⟩
  · split_ifs with h0
    · exact qtrunc_nonneg _ h0
    · exact qtrunc_nonpos _ (le_of_not_ge h0)
  · rw [← hx.eq_ofRat] at key
    exact computesR_of_eq key
example : ∃ t : ℤ, t = (if 0 ≤ rval (rq 7 2 true) then ⌊rval (rq 7 2 true)⌋ else ⌈rval (rq 7 2 true)⌉) ∧
    ComputesR (exp_iter (rq 7 2 true) 4) ((if 9 / 10 ≤ rval (rq 7 2 true) - t then
        expSum (4 + 20) 1 / expSum (4 + 1) (1 - (rval (rq 7 2 true) - t))
        else expSum (4 + 1) (rval (rq 7 2 true) - t)) * expSum (4 + 20) 1 ^ t) :=
  C44_exp (by decide) (by decide +kernel) (by norm_num)

/-- `to_i32().unwrap()` fails for arguments outside `i32`; `-2^31` fails in `pow_i32`. -/
theorem C44_exp_panics {x : Ratio} (hx : RValid x) (h : 2147483648 ≤ |rval x|) (k : Nat) :
    Panics (exp_iter x k) := by
  rw [hx.eq_ofRat]
  exact exp_iter_range k (qtrunc_large h)
example : Panics (exp_iter (rq 2147483648 1 true) 3) := C44_exp_panics (by decide) (by decide +kernel) 3

/-- `sin_iter(x, k)`: with `P = pi_iter(k)` the argument is `(m/2 + h) P`, `|h| ≤ 1/4`, and the
result is `±` one of the first `2k + 2` terms of the sine or the cosine series at `h P`, chosen as
`sin (m π/2 + h P)` demands. -/
theorem C44_sin {x : Ratio} (hx : RValid x) {k : Nat} (hk : k ≤ 255) :
    ∃ (m : ℤ) (h : ℚ), |h| ≤ 1 / 4 ∧ rval x = (m / 2 + h) * bbpSum (2 * k + 2) ∧
      ComputesR (sin_iter x k) (quarter m (sinSum (2 * k + 2) (h * bbpSum (2 * k + 2)))
        (cosSum (2 * k + 2) (h * bbpSum (2 * k + 2)))) := by
  obtain ⟨m, h, h1, h2, h3⟩ := sin_iter_c (rval x) hk
  rw [← hx.eq_ofRat] at h3
  exact ⟨m, h, h1, h2, computesR_of_eq h3⟩
example : ∃ (m : ℤ) (h : ℚ), |h| ≤ 1 / 4 ∧ rval (rq 5 1) = (m / 2 + h) * bbpSum 6 ∧
    ComputesR (sin_iter (rq 5 1) 2) (quarter m (sinSum 6 (h * bbpSum 6)) (cosSum 6 (h * bbpSum 6))) :=
  C44_sin (k := 2) (by decide) (by norm_num)

theorem C44_cos {x : Ratio} (hx : RValid x) {k : Nat} (hk : k ≤ 255) :
    ∃ (m : ℤ) (h : ℚ), |h| ≤ 1 / 4 ∧ rval x = (m / 2 + h) * bbpSum (2 * k + 2) ∧
      ComputesR (cos_iter x k) (quarter (m + 1) (sinSum (2 * k + 2) (h * bbpSum (2 * k + 2)))
        (cosSum (2 * k + 2) (h * bbpSum (2 * k + 2)))) := by
  obtain ⟨m, h, h1, h2, h3⟩ := cos_iter_c (rval x) hk
  rw [← hx.eq_ofRat] at h3
  exact ⟨m, h, h1, h2, computesR_of_eq h3⟩
example : ∃ (m : ℤ) (h : ℚ), |h| ≤ 1 / 4 ∧ rval (rq 5 1) = (m / 2 + h) * bbpSum 6 ∧
    ComputesR (cos_iter (rq 5 1) 2)
      (quarter (m + 1) (sinSum 6 (h * bbpSum 6)) (cosSum 6 (h * bbpSum 6))) :=
  C44_cos (k := 2) (by decide) (by norm_num)

/-- Beyond the table of `pi_iter` the trigonometric functions panic. -/
theorem C44_trig_panics {x : Ratio} {k : Nat} (hk : 255 < k) :
    Panics (sin_iter x k) ∧ Panics (cos_iter x k) ∧ Panics (tan_iter x k) ∧ Panics (acos_iter x k) := by
  refine ⟨⟨.index, ?_⟩, ⟨.index, ?_⟩, ⟨.index, ?_⟩, ⟨.index, ?_⟩⟩
  · rw [sin_iter, pi_iter_big hk]; rfl
  · rw [cos_iter, pi_iter_big hk]; rfl
  · rw [tan_iter, sin_iter, pi_iter_big hk]; rfl
  · rw [acos_iter, pi_iter_big hk]; rfl
example : Panics (sin_iter (rq 1 2) 256) := (C44_trig_panics (by norm_num)).1

theorem C44_atan_small {x : Ratio} (hx : RValid x) (h : |rval x| ≤ 1) {k : Nat} (hk : k < 500000000) :
    ComputesR (atan_iter x k) (atanSum (2 * k + 2) (rval x)) := by
  have key := atan_iter_small h hk
  rw [← hx.eq_ofRat] at key
  exact computesR_of_eq key
example : ComputesR (atan_iter (rq 2 3 true) 5) (atanSum 12 (rval (rq 2 3 true))) :=
  C44_atan_small (by decide) (by decide +kernel) (by norm_num)

theorem C44_atan_large {x : Ratio} (hx : RValid x) (h : 1 < |rval x|) {k : Nat} (hk : k ≤ 255) :
    ComputesR (atan_iter x k)
      ((if rval x < 0 then -(bbpSum (2 * k + 2) / 2) else bbpSum (2 * k + 2) / 2)
        - atanSum (2 * k + 2) (rval x)⁻¹) := by
  have key := atan_iter_large h hk
  rw [← hx.eq_ofRat] at key
  exact computesR_of_eq key
example : ComputesR (atan_iter (rq 5 3 true) 5)
    ((if rval (rq 5 3 true) < 0 then -(bbpSum 12 / 2) else bbpSum 12 / 2)
      - atanSum 12 (rval (rq 5 3 true))⁻¹) :=
  C44_atan_large (by decide) (by decide +kernel) (by norm_num)

/-- The `i32` coefficients of `asin_iter` are exact up to `iter = 643`. -/
theorem C44_asin_partial {x : Ratio} (hx : RValid x) (h : |rval x| ≤ 1) {k : Nat} (hk : k ≤ 643) :
    ComputesR (asin_iter x k) (asinSum (k + 2) (rval x)) := by
  have key := asin_iter_c h hk
  rw [← hx.eq_ofRat] at key
  exact computesR_of_eq key
example : ComputesR (asin_iter (rq 2 3 true) 5) (asinSum 7 (rval (rq 2 3 true))) :=
  C44_asin_partial (by decide) (by decide +kernel) (by norm_num)

theorem C44_asin_panics {x : Ratio} (hx : RValid x) (h : 1 < |rval x|) (k : Nat) :
    Panics (asin_iter x k) := by
  rw [hx.eq_ofRat]
  exact ⟨_, asin_iter_panics h k⟩
example : Panics (asin_iter (rq 4 3 true) 5) := C44_asin_panics (by decide) (by decide +kernel) 5

/-- One more iteration and a coefficient wraps around in `as i32`: the term added has the wrong
sign.  For every positive argument the result of 644 iterations is below the result of 643
iterations, although the sum of the series is above both. -/
theorem C44_asin_counterexample {x : Ratio} (hx : RValid x) (h0 : 0 < rval x) (h1 : rval x < 1) :
    ∃ r s, asin_iter x 643 = pure r ∧ asin_iter x 644 = pure s ∧ rval s < rval r ∧
      ((rval r : ℚ) : ℝ) ≤ Real.arcsin (rval x : ℚ) ∧ rval s ≠ asinSum 646 (rval x) := by
  have habs : |rval x| ≤ 1 := by rw [abs_of_pos h0]; exact h1.le
  have k1 := asin_iter_c (k := 643) habs (by norm_num)
  have k2 := asin_iter_wraps habs
  rw [← hx.eq_ofRat] at k1 k2
  refine ⟨_, _, k1, k2, ?_⟩
  rw [rval_ofRat, rval_ofRat]
  have hc : 0 < asinCoeff 644 := by
    have h1 : (0 : ℚ) < (2 * 644)! := by exact_mod_cast (2 * 644).factorial_pos
    have h2 : (0 : ℚ) < 644 ! := by exact_mod_cast (644).factorial_pos
    unfold asinCoeff
    positivity
  have hp : (0 : ℚ) < rval x ^ 1291 := by positivity
  have hneg : asinCoeff 644 * (2143362090 : ℤ) / (-2146614196 : ℤ) * rval x ^ 1291 < 0 := by
    refine mul_neg_of_neg_of_pos (div_neg_of_pos_of_neg (mul_pos hc ?_) ?_) hp
    · norm_num
    · norm_num
  have hlt : asinSum 645 (rval x) + asinCoeff 644 * (2143362090 : ℤ) / (-2146614196 : ℤ) * rval x ^ 1291
      < asinSum 645 (rval x) := by linarith
  refine ⟨hlt, ?_, ?_⟩
  · have hb := (RealSeries.rasin_bound (n := 645) (x := (rval x : ℝ)) (by norm_num) (by exact_mod_cast h0.le)
      (by exact_mod_cast h1)).1
    rw [← RealSeries.rasin_cast] at hb
    show ((asinSum 645 (rval x) : ℚ) : ℝ) ≤ _
    linarith
  · have hs : asinSum 645 (rval x) ≤ asinSum 646 (rval x) := by
      have e := asinSum_succ 645 (rval x)
      have : 0 ≤ asinCoeff 645 * rval x ^ (2 * 645 + 1) := by
        have h1 : (0 : ℚ) < (2 * 645)! := by exact_mod_cast (2 * 645).factorial_pos
        have h2 : (0 : ℚ) < 645 ! := by exact_mod_cast (645).factorial_pos
        unfold asinCoeff
        positivity
      rw [show (646 : Nat) = 645 + 1 from rfl, e]
      linarith
    exact (lt_of_lt_of_le hlt hs).ne
example : ∃ r s, asin_iter (rq 1 2) 643 = pure r ∧ asin_iter (rq 1 2) 644 = pure s ∧ rval s < rval r ∧
    ((rval r : ℚ) : ℝ) ≤ Real.arcsin (rval (rq 1 2) : ℚ) ∧ rval s ≠ asinSum 646 (rval (rq 1 2)) :=
  C44_asin_counterexample (by decide) (by decide +kernel) (by decide +kernel)

theorem C44_acos {x : Ratio} (hx : RValid x) (h : |rval x| ≤ 1) {k : Nat} (hk : k ≤ 255) :
    ComputesR (acos_iter x k) (bbpSum (2 * k + 2) / 2 - asinSum (k + 2) (rval x)) := by
  have key := asin_iter_c (k := k) h (by omega)
  rw [← hx.eq_ofRat] at key
  rw [acos_iter, pi_iter_c hk, pure_bind, Ratio.div_i32_c _ isI32_two (by norm_num) (by norm_num), pure_bind, key,
    pure_bind, Ratio.sub_c]
  refine computesR_of_eq (congrArg (fun q => pure (ofRat q)) ?_)
  push_cast
  rfl
example : ComputesR (acos_iter (rq 2 3 true) 5) (bbpSum 12 / 2 - asinSum 7 (rval (rq 2 3 true))) :=
  C44_acos (by decide) (by decide +kernel) (by norm_num)

/-- `tan_iter` is the quotient of the two results where the cosine part is not zero. -/
theorem C44_tan {x : Ratio} (hx : RValid x) {k : Nat} (hk : k ≤ 255) :
    ∃ s c, ComputesR (sin_iter x k) s ∧ ComputesR (cos_iter x k) c ∧
      (c ≠ 0 → ComputesR (tan_iter x k) (s / c)) := by
  obtain ⟨m, h, _, _, h3⟩ := sin_iter_c (rval x) hk
  obtain ⟨m', h', _, _, h3'⟩ := cos_iter_c (rval x) hk
  rw [← hx.eq_ofRat] at h3 h3'
  refine ⟨_, _, computesR_of_eq h3, computesR_of_eq h3', fun hc => ?_⟩
  rw [tan_iter, h3, h3', pure_bind, pure_bind, div_c hc]
  exact computesR_of_eq rfl
example : ∃ s c, ComputesR (sin_iter (rq 5 3) 2) s ∧ ComputesR (cos_iter (rq 5 3) 2) c ∧
    (c ≠ 0 → ComputesR (tan_iter (rq 5 3) 2) (s / c)) := C44_tan (by decide) (by norm_num)

/-- At half the approximation of pi the cosine part is exactly zero and `tan_iter` returns a
`Ratio` with denominator zero. -/
theorem C44_tan_counterexample {k : Nat} (hk : k ≤ 255) :
    ∃ p x r, pi_iter k = pure p ∧ RValid x ∧ rval x = rval p / 2 ∧ tan_iter x k = pure r ∧
      ival r.denom = 0 := by
  have hP := bbpSum_pos (2 * k + 1)
  have hm : ∀ (m : ℤ) (h : ℚ), |h| ≤ 1 / 4 → bbpSum (2 * k + 2) / 2 = (m / 2 + h) * bbpSum (2 * k + 2) →
      m = 1 ∧ h = 0 := by
    intro m h h1 h2
    have h3 : (1 : ℚ) / 2 = m / 2 + h := by
      have hP' : bbpSum (2 * k + 2) ≠ 0 := hP.ne'
      field_simp at h2 ⊢
      linarith
    rw [abs_le] at h1
    have h4 : (m : ℚ) < 2 := by linarith
    have h5 : (0 : ℚ) < m := by linarith
    have h6 : m = 1 := by
      have : m < 2 := by exact_mod_cast h4
      have : 0 < m := by exact_mod_cast h5
      omega
    refine ⟨h6, ?_⟩
    rw [h6] at h3
    push_cast at h3
    linarith
  obtain ⟨m, h, h1, h2, h3⟩ := sin_iter_c (bbpSum (2 * k + 2) / 2) hk
  obtain ⟨rfl, rfl⟩ := hm m h h1 h2
  obtain ⟨m, h, h1', h2', h3'⟩ := cos_iter_c (bbpSum (2 * k + 2) / 2) hk
  obtain ⟨rfl, rfl⟩ := hm m h h1' h2'
  have hs : sinSum (2 * k + 2) 0 = 0 := Finset.sum_eq_zero fun j _ => by simp
  have hc : cosSum (2 * k + 2) 0 = 1 := by
    rw [cosSum, Finset.sum_range_succ']
    simp
  rw [zero_mul, hs, hc] at h3 h3'
  have e1 : quarter 1 0 1 = 1 := by decide +kernel
  have e2 : quarter (1 + 1) 0 1 = 0 := by decide +kernel
  rw [e1] at h3
  rw [e2] at h3'
  obtain ⟨r, hr, hr0⟩ := (C24_counterexample (rvalid_ofRat 1) (rvalid_ofRat 0) (rval_ofRat 0)
    (by rw [rval_ofRat]; norm_num)).1
  refine ⟨_, ofRat (bbpSum (2 * k + 2) / 2), r, pi_iter_c hk, rvalid_ofRat _, ?_, ?_, hr0⟩
  · rw [rval_ofRat, rval_ofRat]
  · rw [tan_iter, h3, h3', pure_bind, pure_bind, hr]
example : ∃ p x r, pi_iter 7 = pure p ∧ RValid x ∧ rval x = rval p / 2 ∧ tan_iter x 7 = pure r ∧
    ival r.denom = 0 := C44_tan_counterexample (by norm_num)

/-- the two hypotheses of `ln_iter_c` from the lengths -/
theorem lt_of_length {T : Nat} (hT : T = 2 ^ 32) {x : Ratio} (hx : RValid x)
    (hn : x.numer.mag.length ≤ 2 ^ 27) (hd : x.denom.mag.length ≤ 2 ^ 27) :
    (rval x).num < 2 ^ T ∧ ((rval x).den : Int) < 2 ^ T := by
  have key : ∀ {a : UBig}, Valid a → a.length ≤ 2 ^ 27 → val a < 2 ^ T := by
    intro a ha hl
    have h1 := val_lt ha.limbs'
    have h2 : B32 ^ a.length ≤ 2 ^ T := by
      rw [UBig.B32_pow]
      exact Nat.pow_le_pow_right (by norm_num) (by omega)
    omega
  have e := hx.eq_ofRat
  have h1 := key hx.numer.1 hn
  have h2 := key hx.denom.1 hd
  rw [e] at h1 h2
  rw [numer_ofRat, BigI.mag_ofInt, val_ofNat] at h1
  rw [denom_ofRat, BigI.mag_ofInt, val_ofNat, Int.natAbs_natCast] at h2
  constructor
  · have h3 := Int.le_natAbs (a := (rval x).num)
    calc (rval x).num ≤ ((rval x).num.natAbs : Int) := h3
      _ < ((2 ^ T : Nat) : Int) := by exact_mod_cast h1
      _ = 2 ^ T := by push_cast; rfl
  · calc ((rval x).den : Int) < ((2 ^ T : Nat) : Int) := by exact_mod_cast h2
      _ = 2 ^ T := by push_cast; rfl

/-- `ln_iter(x, k)`: `x = (1 + a) 2^l` and the result is the sum of `2k + 1` terms of the series of
`ln (1 + a)` plus `l · ln2_iter(k)`. -/
theorem C44_ln {x : Ratio} (hx : RValid x) (h0 : 0 < rval x) (hn : x.numer.mag.length ≤ 2 ^ 27)
    (hd : x.denom.mag.length ≤ 2 ^ 27) {k : Nat} (hk : k ≤ 205) :
    ∃ (l : ℤ) (a : ℚ), rval x = (1 + a) * 2 ^ l ∧ -(1 / 2) - 1 / 2 ^ 109 < a ∧ a < 1 + 1 / 2 ^ 108 ∧
      ComputesR (ln_iter x k) (logSum (2 * k + 1) a + ln2Sum (6 * k + 12) * l) := by
  obtain ⟨T, hT⟩ : ∃ T : Nat, T = 2 ^ 32 := ⟨_, rfl⟩
  obtain ⟨g1, g2⟩ := lt_of_length hT hx hn hd
  obtain ⟨l, a, h1, _, h3, h4, h5⟩ := ln_iter_c hT h0 g1 g2 hk
  rw [← hx.eq_ofRat] at h5
  exact ⟨l, a, h1, h3, h4, computesR_of_eq h5⟩
example : ∃ (l : ℤ) (a : ℚ), rval (rq 3 40) = (1 + a) * 2 ^ l ∧ -(1 / 2) - 1 / 2 ^ 109 < a ∧
    a < 1 + 1 / 2 ^ 108 ∧ ComputesR (ln_iter (rq 3 40) 3) (logSum 7 a + ln2Sum 30 * l) :=
  C44_ln (k := 3) (by decide) (by decide +kernel) (by decide) (by decide) (by norm_num)

theorem C44_ln_panics {x : Ratio} (hx : RValid x) (h : rval x ≤ 0) (k : Nat) : Panics (ln_iter x k) := by
  rw [hx.eq_ofRat]
  exact ⟨_, ln_iter_neg h k⟩
example : Panics (ln_iter (rq 3 4 true) 3) := C44_ln_panics (by decide) (by decide +kernel) 3

/-! ## C51 sine and cosine are near the true values -/

theorem C51_sin {x : Ratio} (hx : RValid x) {k : Nat} (hk : k ≤ 255) :
    ∃ r, sin_iter x k = pure r ∧ RValid r ∧ |((rval r : ℚ) : ℝ) - Real.sin (rval x : ℚ)|
      ≤ 1 / (4 * k + 4)! + (|((rval x : ℚ) : ℝ)| / 3 + 1 / 4) / (2 * 256 ^ (k + 1)) := by
  obtain ⟨r, h1, h2⟩ := RealSeries.sin_iter_err (rval x) hk
  rw [← hx.eq_ofRat] at h1
  exact ⟨_, h1, rvalid_ofRat _, by rw [rval_ofRat]; exact h2⟩
example : ∃ r, sin_iter (rq 5 1) 2 = pure r ∧ RValid r ∧ |((rval r : ℚ) : ℝ) - Real.sin (rval (rq 5 1) : ℚ)|
    ≤ 1 / (4 * 2 + 4)! + (|((rval (rq 5 1) : ℚ) : ℝ)| / 3 + 1 / 4) / (2 * 256 ^ (2 + 1)) :=
  C51_sin (by decide) (by norm_num)

theorem C51_cos {x : Ratio} (hx : RValid x) {k : Nat} (hk : k ≤ 255) :
    ∃ r, cos_iter x k = pure r ∧ RValid r ∧ |((rval r : ℚ) : ℝ) - Real.cos (rval x : ℚ)|
      ≤ 1 / (4 * k + 4)! + (|((rval x : ℚ) : ℝ)| / 3 + 1 / 4) / (2 * 256 ^ (k + 1)) := by
  obtain ⟨r, h1, h2⟩ := RealSeries.cos_iter_err (rval x) hk
  rw [← hx.eq_ofRat] at h1
  exact ⟨_, h1, rvalid_ofRat _, by rw [rval_ofRat]; exact h2⟩
example : ∃ r, cos_iter (rq 5 1) 2 = pure r ∧ RValid r ∧ |((rval r : ℚ) : ℝ) - Real.cos (rval (rq 5 1) : ℚ)|
    ≤ 1 / (4 * 2 + 4)! + (|((rval (rq 5 1) : ℚ) : ℝ)| / 3 + 1 / 4) / (2 * 256 ^ (2 + 1)) :=
  C51_cos (by decide) (by norm_num)

/-! ## C52 the exponential is near the true value -/

theorem C52_exp {x : Ratio} (hx : RValid x) (h : |rval x| < 2147483648) {k : Nat}
    (hk : k ≤ 2147483627) :
    ∃ r, exp_iter x k = pure r ∧ RValid r ∧ |((rval r : ℚ) : ℝ) - Real.exp (rval x : ℚ)|
      ≤ (6 / (k + 1)! + 14 * |((rval x : ℚ) : ℝ)| / (k + 20)!) * Real.exp (rval x : ℚ) := by
  obtain ⟨r, h1, h2⟩ := RealSeries.exp_iter_err hk (qtrunc_small h)
  rw [← hx.eq_ofRat] at h1
  exact ⟨_, h1, rvalid_ofRat _, by rw [rval_ofRat]; exact h2⟩
example : ∃ r, exp_iter (rq 7 2 true) 9 = pure r ∧ RValid r ∧
    |((rval r : ℚ) : ℝ) - Real.exp (rval (rq 7 2 true) : ℚ)|
    ≤ (6 / (9 + 1)! + 14 * |((rval (rq 7 2 true) : ℚ) : ℝ)| / (9 + 20)!) * Real.exp (rval (rq 7 2 true) : ℚ) :=
  C52_exp (by decide) (by decide +kernel) (by norm_num)

/-! ## C53 the logarithm is near the true value -/

theorem C53_ln {x : Ratio} (hx : RValid x) (h0 : 0 < rval x) (hn : x.numer.mag.length ≤ 2 ^ 27)
    (hd : x.denom.mag.length ≤ 2 ^ 27) {k : Nat} (hk : k ≤ 205) :
    ∃ r, ln_iter x k = pure r ∧ RValid r ∧ |((rval r : ℚ) : ℝ) - Real.log (rval x : ℚ)|
      ≤ 1 / (k + 1) + (2 * |Real.log (rval x : ℚ)| + 2) / ((6 * k + 13) * 2 ^ (6 * k + 12)) := by
  obtain ⟨T, hT⟩ : ∃ T : Nat, T = 2 ^ 32 := ⟨_, rfl⟩
  obtain ⟨g1, g2⟩ := lt_of_length hT hx hn hd
  obtain ⟨r, h1, h2⟩ := RealSeries.ln_iter_err hT h0 g1 g2 hk
  rw [← hx.eq_ofRat] at h1
  exact ⟨_, h1, rvalid_ofRat _, by rw [rval_ofRat]; exact h2⟩
example : ∃ r, ln_iter (rq 3 40) 30 = pure r ∧ RValid r ∧
    |((rval r : ℚ) : ℝ) - Real.log (rval (rq 3 40) : ℚ)|
    ≤ 1 / ((30 : Nat) + 1) + (2 * |Real.log (rval (rq 3 40) : ℚ)| + 2) / ((6 * (30 : Nat) + 13) * 2 ^ (6 * 30 + 12)) :=
  C53_ln (by decide) (by decide +kernel) (by decide) (by decide) (by norm_num)

/-! ## C54 the inverse trigonometric functions are near the true values -/

theorem C54_atan {x : Ratio} (hx : RValid x) {k : Nat} (hk : k ≤ 255) :
    ∃ r, atan_iter x k = pure r ∧ RValid r ∧ |((rval r : ℚ) : ℝ) - Real.arctan (rval x : ℚ)|
      ≤ (min |((rval x : ℚ) : ℝ)| |((rval x : ℚ) : ℝ)|⁻¹) ^ (4 * k + 5) / (4 * k + 5)
        + if 1 < |rval x| then 1 / (4 * 256 ^ (k + 1)) else 0 := by
  obtain ⟨r, h1, h2⟩ := RealSeries.atan_iter_err (rval x) hk
  rw [← hx.eq_ofRat] at h1
  exact ⟨_, h1, rvalid_ofRat _, by rw [rval_ofRat]; exact h2⟩
example : ∃ r, atan_iter (rq 5 3 true) 4 = pure r ∧ RValid r ∧
    |((rval r : ℚ) : ℝ) - Real.arctan (rval (rq 5 3 true) : ℚ)|
    ≤ (min |((rval (rq 5 3 true) : ℚ) : ℝ)| |((rval (rq 5 3 true) : ℚ) : ℝ)|⁻¹) ^ (4 * 4 + 5) / (4 * (4 : Nat) + 5)
      + if 1 < |rval (rq 5 3 true)| then 1 / (4 * 256 ^ (4 + 1)) else 0 :=
  C54_atan (by decide) (by norm_num)

theorem C54_asin {x : Ratio} (hx : RValid x) (h : |rval x| < 1) {k : Nat} (hk : k ≤ 643) :
    ∃ r, asin_iter x k = pure r ∧ RValid r ∧ |((rval r : ℚ) : ℝ) - Real.arcsin (rval x : ℚ)|
      ≤ |((rval x : ℚ) : ℝ)| ^ (2 * k + 5) / ((2 * k + 5) * (1 - ((rval x : ℚ) : ℝ) ^ 2)) := by
  obtain ⟨r, h1, h2⟩ := RealSeries.asin_iter_err h hk
  rw [← hx.eq_ofRat] at h1
  exact ⟨_, h1, rvalid_ofRat _, by rw [rval_ofRat]; exact h2⟩
example : ∃ r, asin_iter (rq 2 3 true) 4 = pure r ∧ RValid r ∧
    |((rval r : ℚ) : ℝ) - Real.arcsin (rval (rq 2 3 true) : ℚ)|
    ≤ |((rval (rq 2 3 true) : ℚ) : ℝ)| ^ (2 * 4 + 5)
      / ((2 * (4 : Nat) + 5) * (1 - ((rval (rq 2 3 true) : ℚ) : ℝ) ^ 2)) :=
  C54_asin (by decide) (by decide +kernel) (by norm_num)

theorem C54_acos {x : Ratio} (hx : RValid x) (h : |rval x| < 1) {k : Nat} (hk : k ≤ 255) :
    ∃ r, acos_iter x k = pure r ∧ RValid r ∧ |((rval r : ℚ) : ℝ) - Real.arccos (rval x : ℚ)|
      ≤ |((rval x : ℚ) : ℝ)| ^ (2 * k + 5) / ((2 * k + 5) * (1 - ((rval x : ℚ) : ℝ) ^ 2))
        + 1 / (4 * 256 ^ (k + 1)) := by
  obtain ⟨r, h1, h2, h3⟩ := C44_acos hx h.le hk
  obtain ⟨s, g1, _, g3⟩ := C54_asin (k := k) hx h (by omega)
  obtain ⟨s', g1', _, g3'⟩ := C44_asin_partial (k := k) hx h.le (by omega)
  obtain rfl : s = s' := by
    rw [g1] at g1'
    exact (Except.ok.inj (Option.some.inj g1'))
  obtain ⟨p, q1, _, q2, q3⟩ := C50_pi_error hk
  obtain ⟨p', q1', _, q3'⟩ := C50_pi_sum hk
  obtain rfl : p = p' := by
    rw [q1] at q1'
    exact (Except.ok.inj (Option.some.inj q1'))
  refine ⟨r, h1, h2, ?_⟩
  rw [h3, ← q3', ← g3', Real.arccos]
  rw [abs_le] at g3 ⊢
  have e : (1 : ℝ) / (4 * 256 ^ (k + 1)) = 1 / (2 * 256 ^ (k + 1)) / 2 := by
    rw [div_div]; ring_nf
  rw [e]
  push_cast
  constructor <;> linarith [g3.1, g3.2]
example : ∃ r, acos_iter (rq 2 3 true) 4 = pure r ∧ RValid r ∧
    |((rval r : ℚ) : ℝ) - Real.arccos (rval (rq 2 3 true) : ℚ)|
    ≤ |((rval (rq 2 3 true) : ℚ) : ℝ)| ^ (2 * 4 + 5)
      / ((2 * (4 : Nat) + 5) * (1 - ((rval (rq 2 3 true) : ℚ) : ℝ) ^ 2)) + 1 / (4 * 256 ^ (4 + 1)) :=
  C54_acos (by decide) (by decide +kernel) (by norm_num)

/-! ## C45 square root -/

/-- the quotient of integer square roots, as a real number -/
private theorem sqrt_near {q : ℚ} (h0 : 0 < q) (k : Nat) :
    √((q : ℚ) : ℝ) * (1 - 1 / 65536 ^ (k + 1))
      ≤ (Nat.sqrt (q.num.natAbs * B32 ^ (k + 1)) : ℝ) / Nat.sqrt (q.den * B32 ^ (k + 1)) ∧
    (Nat.sqrt (q.num.natAbs * B32 ^ (k + 1)) : ℝ) / Nat.sqrt (q.den * B32 ^ (k + 1))
      * (1 - 1 / 65536 ^ (k + 1)) ≤ √((q : ℚ) : ℝ) := by
  have hn : 0 < q.num := Rat.num_pos.2 h0
  have key := RealSeries.sqrt_quot (n := q.num.natAbs) (d := q.den) (B := B32 ^ (k + 1))
    (by omega) q.den_pos (by positivity)
  have e1 : √((B32 ^ (k + 1) : Nat) : ℝ) = 65536 ^ (k + 1) := by
    rw [show ((B32 ^ (k + 1) : Nat) : ℝ) = ((65536 : ℝ) ^ (k + 1)) ^ 2 by
      push_cast; rw [← pow_mul, Nat.mul_comm, pow_mul]; norm_num]
    exact Real.sqrt_sq (by positivity)
  have e2 : ((q.num.natAbs : Nat) : ℝ) / (q.den : ℝ) = ((q : ℚ) : ℝ) := by
    have : ((q.num.natAbs : Nat) : ℝ) = (q.num : ℝ) := by
      have h : ((q.num.natAbs : Nat) : Int) = q.num := Int.natAbs_of_nonneg hn.le
      rw [← h]; simp
    rw [this, ← Rat.cast_def]
  rw [e1, e2] at key
  exact key

/-- Whenever `sqrt_iter` does not panic, its result for `x > 0` lies within a factor
`1 - 2^(-16(k+1))` of the square root, on either side. -/
theorem C45_sqrt_returned {x : Ratio} (hx : RValid x) (h0 : 0 < rval x) (k : Nat) :
    Panics (sqrt_iter x k) ∨ ∃ r, sqrt_iter x k = pure r ∧ RValid r ∧
      √((rval x : ℚ) : ℝ) * (1 - 1 / 65536 ^ (k + 1)) ≤ ((rval r : ℚ) : ℝ) ∧
      ((rval r : ℚ) : ℝ) * (1 - 1 / 65536 ^ (k + 1)) ≤ √((rval x : ℚ) : ℝ) := by
  rcases sqrt_iter_or (rval x) k with h | h
  · left; rwa [hx.eq_ofRat]
  right
  rw [← hx.eq_ofRat] at h
  refine ⟨_, h, rvalid_ofRat _, ?_⟩
  rw [rval_ofRat, if_neg (not_lt.2 h0.le), one_mul]
  push_cast
  exact sqrt_near h0 k
example : Panics (sqrt_iter (rq 2 1) 3) ∨ ∃ r, sqrt_iter (rq 2 1) 3 = pure r ∧ RValid r ∧
    √((rval (rq 2 1) : ℚ) : ℝ) * (1 - 1 / 65536 ^ (3 + 1)) ≤ ((rval r : ℚ) : ℝ) ∧
    ((rval r : ℚ) : ℝ) * (1 - 1 / 65536 ^ (3 + 1)) ≤ √((rval (rq 2 1) : ℚ) : ℝ) :=
  C45_sqrt_returned (by decide) (by decide +kernel) 3

private theorem parts {x : Ratio} (hx : RValid x) :
    ofNat (rval x).num.natAbs = x.numer.mag ∧ (rval x).num.natAbs = val x.numer.mag ∧
    ofNat (rval x).den = x.denom.mag ∧ (rval x).den = val x.denom.mag := by
  have e := hx.eq_ofRat
  have h1 : x.numer.mag = ofNat (rval x).num.natAbs := by
    conv_lhs => rw [e]
    rw [numer_ofRat, BigI.mag_ofInt]
  have h2 : x.denom.mag = ofNat (rval x).den := by
    conv_lhs => rw [e]
    rw [denom_ofRat, BigI.mag_ofInt, Int.natAbs_natCast]
  exact ⟨h1.symm, by rw [h1, val_ofNat], h2.symm, by rw [h2, val_ofNat]⟩

/-- `sqrt_iter` returns when the number formed by the two leading limbs (the second one is zero
for a number of one limb) is below `2^64 - 120283536^2` for both numerator and denominator.
All other numbers panic (`C45_sqrt_counterexample`), so that nothing more can be shown. -/
theorem C45_sqrt_partial {x : Ratio} (hx : RValid x) (h0 : 0 < rval x) (k : Nat)
    (hn : val x.numer.mag * 2 ^ 32 / (2 ^ 32) ^ (x.numer.mag.length - 1) < 2 ^ 64 - 120283536 ^ 2)
    (hd : val x.denom.mag * 2 ^ 32 / (2 ^ 32) ^ (x.denom.mag.length - 1) < 2 ^ 64 - 120283536 ^ 2) :
    ∃ r, sqrt_iter x k = pure r ∧ RValid r ∧
      √((rval x : ℚ) : ℝ) * (1 - 1 / 65536 ^ (k + 1)) ≤ ((rval r : ℚ) : ℝ) ∧
      ((rval r : ℚ) : ℝ) * (1 - 1 / 65536 ^ (k + 1)) ≤ √((rval x : ℚ) : ℝ) := by
  obtain ⟨p1, p2, p3, p4⟩ := parts hx
  have key := sqrt_iter_eq (rval x) k
    (bi_sqrt_shift (n := (rval x).den) (by rw [Int.natAbs_natCast, p3, p4]; simpa using hd))
    (bi_sqrt_shift (n := (rval x).num) (by rw [p1, p2]; simpa using hn))
  rw [← hx.eq_ofRat] at key
  refine ⟨_, key, rvalid_ofRat _, ?_⟩
  rw [rval_ofRat, if_neg (not_lt.2 h0.le), one_mul]
  push_cast
  exact sqrt_near h0 k
example : ∃ r, sqrt_iter (rq 2 1) 3 = pure r ∧ RValid r ∧
    √((rval (rq 2 1) : ℚ) : ℝ) * (1 - 1 / 65536 ^ (3 + 1)) ≤ ((rval r : ℚ) : ℝ) ∧
    ((rval r : ℚ) : ℝ) * (1 - 1 / 65536 ^ (3 + 1)) ≤ √((rval (rq 2 1) : ℚ) : ℝ) :=
  C45_sqrt_partial (by decide) (by decide +kernel) 3 (by decide) (by decide)

/-- A numerator or denominator whose two leading limbs form a number of `2^64 - 120283536^2` or
more makes `sqrt_iter` panic, however many iterations are asked for. -/
theorem C45_sqrt_counterexample {x : Ratio} (hx : RValid x) (k : Nat)
    (h : 2 ^ 64 - 120283536 ^ 2 ≤ val x.numer.mag * 2 ^ 32 / (2 ^ 32) ^ (x.numer.mag.length - 1) ∨
      2 ^ 64 - 120283536 ^ 2 ≤ val x.denom.mag * 2 ^ 32 / (2 ^ 32) ^ (x.denom.mag.length - 1)) :
    Panics (sqrt_iter x k) := by
  obtain ⟨p1, p2, p3, p4⟩ := parts hx
  rw [hx.eq_ofRat]
  refine sqrt_iter_panics k ?_
  rw [p1, p2, p3, p4]
  simpa using h
example : Panics (sqrt_iter (rq 4294967295 1) 20) :=
  C45_sqrt_counterexample (by decide) 20 (by decide)
/-- the least whole number that panics -/
example : Panics (sqrt_iter (rq 4291598673 1) 20) ∧ ∃ r, sqrt_iter (rq 4291598672 1) 20 = pure r ∧
    RValid r := by
  obtain ⟨r, h1, h2, -⟩ := C45_sqrt_partial (x := rq 4291598672 1) (by decide) (by decide +kernel) 20
    (by decide) (by decide)
  exact ⟨C45_sqrt_counterexample (by decide) 20 (by decide), r, h1, h2⟩

/-- The documentation says `sqrt(abs(x))`; for a negative argument the result is negative. -/
theorem C45_sqrt_sign_counterexample {x : Ratio} (hx : RValid x) (h0 : rval x < 0) (k : Nat)
    (hn : val x.numer.mag * 2 ^ 32 / (2 ^ 32) ^ (x.numer.mag.length - 1) < 2 ^ 64 - 120283536 ^ 2)
    (hd : val x.denom.mag * 2 ^ 32 / (2 ^ 32) ^ (x.denom.mag.length - 1) < 2 ^ 64 - 120283536 ^ 2) :
    ∃ r, sqrt_iter x k = pure r ∧ RValid r ∧ rval r < 0 := by
  obtain ⟨p1, p2, p3, p4⟩ := parts hx
  have h := sqrt_iter_eq (rval x) k
    (bi_sqrt_shift (n := (rval x).den) (by rw [Int.natAbs_natCast, p3, p4]; simpa using hd))
    (bi_sqrt_shift (n := (rval x).num) (by rw [p1, p2]; simpa using hn))
  rw [← hx.eq_ofRat] at h
  refine ⟨_, h, rvalid_ofRat _, ?_⟩
  rw [rval_ofRat, if_pos h0]
  have hn : 0 < (rval x).num.natAbs := Int.natAbs_pos.2 (Rat.num_neg.2 h0).ne
  have h1 : (0 : ℚ) < Nat.sqrt ((rval x).num.natAbs * B32 ^ (k + 1)) := by
    exact_mod_cast Nat.sqrt_pos.2 (by positivity)
  have h2 : (0 : ℚ) < Nat.sqrt ((rval x).den * B32 ^ (k + 1)) := by
    exact_mod_cast Nat.sqrt_pos.2 (Nat.mul_pos (rval x).den_pos (by positivity))
  have := div_pos h1 h2
  linarith
example : ∃ r, sqrt_iter (rq 2 1 true) 3 = pure r ∧ RValid r ∧ rval r < 0 :=
  C45_sqrt_sign_counterexample (by decide) (by decide +kernel) 3 (by decide) (by decide)

theorem C45_sqrt_zero (k : Nat) : ComputesR (sqrt_iter Ratio.zero k) 0 := by
  have key := sqrt_iter_eq 0 k (bi_sqrt_shift (n := ((0 : ℚ).den : Int)) (by simp [ofNat_lt]))
    (bi_sqrt_shift (n := (0 : ℚ).num) (by simp [ofNat_lt]))
  have e : ((if (0 : ℚ) < 0 then (-1 : ℚ) else 1) *
      ((Nat.sqrt ((0 : ℚ).num.natAbs * B32 ^ (k + 1)) : ℚ) / Nat.sqrt ((0 : ℚ).den * B32 ^ (k + 1)))) = 0 := by
    simp
  rw [e] at key
  have hz : Ratio.zero = ofRat 0 := by rw [zero_c]
  rw [hz]
  exact computesR_of_eq key

end Props
end Hmath
