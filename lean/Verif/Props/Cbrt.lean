import Verif.Proofs.Cbrt
import Verif.Spec.BigInt

/-!
# Cube roots (C76)

`cbrt_iter`: "It returns `cbrt(x)`. It gets more accurate as `iter` gets bigger."
-/

namespace Hmath
namespace Props
open Ratio

/-- the result is relatively within `1500^-(2^iter) + 2^-127` of the real cube root, also for negative numbers -/
theorem C76_error_partial {x : Ratio} (hx : RValid x) (hn : x.numer.mag.length < 2 ^ 27) (hd : x.denom.mag.length < 2 ^ 27) (iter : Nat)
    {c : ℝ} (hc : c ^ 3 = rval x) :
    ∃ r, cbrt_iter x iter = pure r ∧ RValid r ∧ |(rval r : ℝ) - c| ≤ ((1 / 1500) ^ 2 ^ iter + 1 / 2 ^ 127) * |c| := by
  obtain ⟨q, rfl⟩ : ∃ q, x = ofRat q := ⟨_, hx.eq_ofRat⟩
  rw [rval_ofRat] at hc
  by_cases h0 : q = 0
  · subst h0
    have : c = 0 := by
      rw [Rat.cast_zero] at hc
      exact pow_eq_zero_iff (by norm_num) |>.1 hc
    refine ⟨_, cbrt_iter_zero iter, rvalid_ofRat _, ?_⟩
    rw [rval_ofRat, this]; simp
  · obtain ⟨a, h1, h2⟩ := cbrt_iter_c h0 hn hd iter hc
    exact ⟨_, h1, rvalid_ofRat _, by rwa [rval_ofRat]⟩

/-- the cube root of -27/8 -/
example : ∃ r, cbrt_iter ⟨⟨[8], false⟩, ⟨[27], true⟩⟩ 3 = pure r ∧ RValid r ∧
    |(rval r : ℝ) - (-3 / 2)| ≤ ((1 / 1500) ^ 2 ^ 3 + 1 / 2 ^ 127) * |(-3 / 2 : ℝ)| :=
  C76_error_partial (by decide) (by decide) (by decide) 3 (by
    rw [show rval ⟨⟨[8], false⟩, ⟨[27], true⟩⟩ = -27 / 8 by decide +kernel]; norm_num)

/-- one round squares the error, apart from what is lost with the digits that are removed: their number depends on
the length of the previous approximation -/
theorem C76_round {x a : Ratio} (hx : RValid x) (ha : RValid a) {c e : ℝ} (hc : c ≠ 0) (hx' : c ^ 3 = rval x) (he0 : 0 ≤ e)
    (he : e ≤ 1 / 1000) (he' : |(rval a : ℝ) - c| ≤ e * |c|) :
    ∃ t s r, from_denom_and_numer_i32 3 2 = pure t ∧ div_i32 x 3 = pure s ∧ cbrtRound t s a = pure r ∧ RValid r ∧
      |(rval r : ℝ) - c| ≤ (1.01 * e ^ 2 + 1.01 / (2 ^ 32) ^ (min a.denom.mag.length a.numer.mag.length + 3)) * |c| := by
  obtain ⟨q, rfl⟩ : ∃ q, x = ofRat q := ⟨_, hx.eq_ofRat⟩
  obtain ⟨b, rfl⟩ : ∃ q, a = ofRat q := ⟨_, ha.eq_ofRat⟩
  rw [rval_ofRat] at hx' he'
  obtain ⟨r, h1, h2⟩ := cbrtRound_c hc hx' he0 he he'
  refine ⟨ofRat (2 / 3), ofRat (q / 3), ofRat r, ?_, ?_, h1, rvalid_ofRat _, ?_⟩
  · rw [from_dn_i32_c (by unfold IsI32; omega) (by unfold IsI32; omega) (by omega) (by omega) (by omega)]
    norm_num
  · rw [div_i32_c _ (by unfold IsI32; omega) (by omega) (by omega)]
    norm_num
  · rw [rval_ofRat, show (2 : ℝ) ^ 32 = 4294967296 by norm_num]
    exact h2

/-- from 3001/2000 towards 3/2 -/
example : ∃ t s r, from_denom_and_numer_i32 3 2 = pure t ∧ div_i32 ⟨⟨[8], false⟩, ⟨[27], false⟩⟩ 3 = pure s ∧
    cbrtRound t s ⟨⟨[2000], false⟩, ⟨[3001], false⟩⟩ = pure r ∧ RValid r ∧
      |(rval r : ℝ) - 3 / 2| ≤ (1.01 * (1 / 3000) ^ 2 + 1.01 / (2 ^ 32) ^ (min 1 1 + 3)) * |(3 / 2 : ℝ)| :=
  C76_round (x := ⟨⟨[8], false⟩, ⟨[27], false⟩⟩) (a := ⟨⟨[2000], false⟩, ⟨[3001], false⟩⟩) (by decide) (by decide) (by norm_num)
    (by rw [show rval ⟨⟨[8], false⟩, ⟨[27], false⟩⟩ = 27 / 8 by decide +kernel]; norm_num) (by norm_num) (by norm_num)
    (by rw [show rval ⟨⟨[2000], false⟩, ⟨[3001], false⟩⟩ = 3001 / 2000 by decide +kernel]; norm_num [abs_of_pos])

theorem C76_zero (iter : Nat) : cbrt_iter zero iter = pure zero := by
  rw [zero_c, cbrt_iter_zero]

/-! ## more rounds do not always help -/

/-- `2^256` and `2^256 + 1` -/
def stuckDen : Nat := 2 ^ 256
def stuckNum : Nat := 2 ^ 256 + 1

theorem stuck_log : BigI.log2_accurate (ofInt ((stuckNum : Int) * (B32 ^ 1 : Nat))) = BigI.log2_accurate (ofInt ((stuckDen : Int) * (B32 ^ 1 : Nat))) := by
  have h : UBig.logInit (ofNat (stuckNum * B32)) = UBig.logInit (ofNat (stuckDen * B32)) := by
    rw [show ofNat (stuckNum * B32) = [0, 1, 0, 0, 0, 0, 0, 0, 0, 1] by decide +kernel,
      show ofNat (stuckDen * B32) = [0, 0, 0, 0, 0, 0, 0, 0, 0, 1] by decide +kernel]
    rfl
  rw [BigI.log2_accurate, BigI.log2_accurate, BigI.mag_ofInt, BigI.mag_ofInt, Int.natAbs_mul, Int.natAbs_mul, Int.natAbs_natCast, Int.natAbs_natCast,
    Int.natAbs_natCast, pow_one, UBig.log2_accurate, UBig.log2_accurate, h]

theorem stuck_round : cbrtRound (ofRat (2 / 3)) (ofRat ((1 + 1 / 2 ^ 256) / 3)) (ofRat 1) = pure (ofRat 1) := by
  obtain ⟨b, hb⟩ : ∃ b : ℚ, b = 1 * (2 / 3) + (1 + 1 / 2 ^ 256) / 3 / 1 / 1 := ⟨_, rfl⟩
  rw [cbrtRound, mul_c, pure_bind, div_c one_ne_zero, pure_bind, div_c one_ne_zero, pure_bind, add_c, pure_bind, ← hb]
  simp only [denom_ofRat, numer_ofRat, BigI.mag_ofInt, Int.natAbs_natCast]
  change (if lenMin 1 + 4 < lenMin b then fit ⟨BigI.shift_right_mut (ofInt b.den) (lenMin b - lenMin 1 - 4),
      BigI.shift_right_mut (ofInt b.num) (lenMin b - lenMin 1 - 4)⟩ else pure (ofRat b)) = _
  have l1 : lenMin 1 = 1 := by decide +kernel
  have l2 : lenMin b = 9 := by rw [hb]; decide +kernel
  have e1 : b.den = 3 * 2 ^ 256 := by rw [hb]; decide +kernel
  have e2 : b.num = 3 * 2 ^ 256 + 1 := by rw [hb]; decide +kernel
  rw [l1, l2, if_pos (by decide), e1, e2, BigI.shift_right_mut_c, BigI.shift_right_mut_c]
  exact fit_c (by decide +kernel) (by decide +kernel)

/-- the cube root of `1 + 2^-256` is 1 for every number of iterations: the removal of digits undoes each round -/
theorem C76_counterexample_stuck : ∃ x : Ratio, RValid x ∧ rval x = 1 + 1 / 2 ^ 256 ∧ ∀ iter, cbrt_iter x iter = pure one := by
  refine ⟨ofRat (1 + 1 / 2 ^ 256), rvalid_ofRat _, rval_ofRat _, fun iter => ?_⟩
  have e1 : (1 + 1 / 2 ^ 256 : ℚ).den = stuckDen := by decide +kernel
  have e2 : (1 + 1 / 2 ^ 256 : ℚ).num = stuckNum := by decide +kernel
  have hloop : ∀ k, cbrtLoop (ofRat (2 / 3)) (ofRat ((1 + 1 / 2 ^ 256) / 3)) k (ofRat 1) = pure (ofRat 1) := by
    intro k
    induction k with
    | zero => rfl
    | succ k ih => rw [cbrtLoop, stuck_round, pure_bind, ih]
  obtain ⟨T, hT⟩ : ∃ T : Nat, T = 2 ^ 32 := ⟨_, rfl⟩
  obtain ⟨d, d1, d2, -⟩ := cbrtPart_c hT (z := (stuckDen : Int)) (by decide +kernel)
    (shifted_lt hT (by decide +kernel)) false
  have n1 : cbrtPart (ofInt (stuckNum : Int)) false = cbrtPart (ofInt (stuckDen : Int)) false := by
    rw [cbrtPart, cbrtPart, BigI.shift_left_c, BigI.shift_left_c, stuck_log]
  rw [cbrt_iter, is_zero_c, decide_eq_false (by positivity), if_neg (by decide), denom_ofRat, numer_ofRat, is_neg_c,
    decide_eq_false (not_lt.2 (by positivity)), e1, e2, n1, d1, pure_bind, pure_bind, if_neg (by decide),
    from_dn_c (q := 1) (by exact_mod_cast d2.ne') (div_self (by exact_mod_cast d2.ne')), pure_bind,
    div_i32_c _ (by unfold IsI32; omega) (by omega) (by omega), pure_bind,
    from_dn_i32_c (by unfold IsI32; omega) (by unfold IsI32; omega) (by omega) (by omega) (by omega), pure_bind, one_c, ← hloop iter]
  norm_num

end Props
end Hmath
