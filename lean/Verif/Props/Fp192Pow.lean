import Verif.Proofs.Fp192Pow
import Verif.Props.Fp192Div

/-!
# C63: integer powers of 192-bit floating point numbers
-/

namespace Hmath
namespace Props

open F192 (mk' mg ulp sgn Nrm Z ZERO ONE)

/-- `n` times the binary logarithm of `x` (a little more) stays below `b`; `x.exp - (2^48 - 127)` is the position
of the leading bit of `x` -/
def PowRange (x : F192) (n : Nat) (b : Int) : Prop := (n : Int) * (|(x.exp : Int) - (2 ^ 48 - 127)| + 2) ≤ b

/-- `n` times the leading exponent of `x` (a little more) is neither below nor above the exponents there are -/
def PowBounds (x : F192) (n : Nat) : Prop := -(2 ^ 48 - 254) ≤ (n : Int) * lead x ∧ (n : Int) * (max (lead x) 0 + 2) < 2 ^ 64 - 2 ^ 49 + 254

/-- The power never exceeds the exact one in magnitude and is at most `n * 2^-124` (relatively) too small. -/
theorem C63_powi_partial {x : F192} (hx : FValid x) (h0 : fval x ≠ 0) {n : Nat} (hr : PowBounds x n) :
    ∃ (z : F192) (δ : ℚ), F192.powi x n = pure z ∧ FValid z ∧ 0 ≤ δ ∧ δ ≤ n / 2 ^ 124 ∧ fval z = fval x ^ n * (1 - δ) := by
  obtain ⟨s, m, e, hm, he, rfl⟩ := F192.exists_mk hx
  have hz : ¬Z s m e := by
    intro hz
    obtain ⟨rfl, rfl, rfl⟩ := hz
    exact h0 F192.fval_zero
  have hr' : F192.PRange e n := by
    obtain ⟨r1, r2⟩ := hr
    rw [lead, F192.mk_exp] at r1 r2
    norm_num at r1 r2
    exact ⟨r1, by omega⟩
  obtain ⟨m', e', g1, g2, g3, g4, g5, g6⟩ := F192.powi_nonneg_c (s := s) hm hr'
  obtain ⟨b1, b2, -⟩ := hr'.bounds
  generalize (n : Int) * ((e : Int) - 281474976710529) = P at *
  have hq := pow_pos (F192.mg_pos (e := e) hm) n
  refine ⟨_, 1 - mg m' e' / mg m e ^ n, g1, F192.valid_mk g2 (by omega), ?_, ?_, ?_⟩
  · rw [sub_nonneg, div_le_one hq]; exact g6
  · rw [sub_le_comm, le_div_iff₀ hq, mul_comm]; exact g5
  · rw [F192.fval_mk g2 (F192.nz_exp (by omega)), F192.fval_mk hm hz, F192.sgn_psign, sub_sub_cancel, mul_pow, mul_assoc,
      mul_div_cancel₀ _ hq.ne']

/-- `(-3)^100` -/
example : ∃ (z : F192) (δ : ℚ), F192.powi (mk' true (3 * 2 ^ 126) (2 ^ 48 - 126)) (100 : Nat) = pure z ∧ 0 ≤ δ ∧ δ ≤ 100 / 2 ^ 124 ∧
    fval z = (-3) ^ 100 * (1 - δ) := by
  have hv : fval (mk' true (3 * 2 ^ 126) (2 ^ 48 - 126)) = -3 := by
    rw [F192.fval_mk ⟨by norm_num, by norm_num⟩ (F192.nz_exp (by norm_num)), show 2 ^ 48 - 126 = 281474976710656 - 126 by norm_num,
      F192.mg_coeff_sub (by norm_num), F192.sgn_true]; norm_num
  obtain ⟨z, δ, h1, -, h2, h3, h4⟩ := C63_powi_partial (x := mk' true (3 * 2 ^ 126) (2 ^ 48 - 126)) (n := 100)
    (by decide) (by rw [hv]; norm_num) (by rw [PowBounds, lead, F192.mk_exp]; decide)
  exact ⟨z, δ, h1, h2, by exact_mod_cast h3, by rw [h4, hv]⟩

/-- `4^(4 * 10^18)`, near the largest numbers -/
example : ∃ z δ, F192.powi ⟨0, 2 ^ 48 - 125⟩ (4 * 10 ^ 18 : Nat) = pure z ∧ FValid z ∧ 0 ≤ δ ∧ δ ≤ ((4 * 10 ^ 18 : Nat) : ℚ) / 2 ^ 124 ∧
    fval z = fval ⟨0, 2 ^ 48 - 125⟩ ^ (4 * 10 ^ 18 : Nat) * (1 - δ) :=
  C63_powi_partial (x := ⟨0, 2 ^ 48 - 125⟩) (by decide) (fun h => absurd (F192.fval_inj (by decide) (by decide) (h.trans F192.fval_zero.symm)) (by decide))
    (by unfold PowBounds lead; decide)

/-- A power whose leading exponent would be `2^64 - 2^48 + 127` or more panics. -/
theorem C63_powi_overflow {x : F192} (hx : FValid x) (h0 : 0 ≤ lead x) {n : Nat} (hn : 2 ^ 64 - 2 ^ 48 + 127 ≤ (n : Int) * lead x) :
    Panics (F192.powi x n) := by
  obtain ⟨s, m, e, hm, he, rfl⟩ := F192.exists_mk hx
  rw [lead, F192.mk_exp] at h0 hn
  norm_num at h0 hn
  exact F192.powi_overflow hm (by omega) he (by omega)

/-- `8^(7 * 10^18)`: the leading exponent would be `21 * 10^18` -/
example : Panics (F192.powi ⟨0, 2 ^ 48 - 124⟩ (7 * 10 ^ 18 : Nat)) := C63_powi_overflow (by decide) (by decide) (by decide)

/-- A power that is too small becomes zero. -/
theorem C63_powi_underflow {x : F192} (hx : FValid x) (h0 : fval x ≠ 0) (h1 : |fval x| ≤ 1) {n : Nat}
    (hn : (n : Int) * (4 * lead x + 5) < -4 * (2 ^ 48 - 127)) : F192.powi x n = pure ZERO := by
  obtain ⟨s, m, e, hm, he, rfl⟩ := F192.exists_mk hx
  have hz : ¬Z s m e := by
    rintro ⟨rfl, rfl, rfl⟩
    exact h0 F192.fval_zero
  rw [F192.fval_mk hm hz, abs_mul, F192.abs_sgn, one_mul, abs_of_pos (F192.mg_pos hm)] at h1
  rw [lead, F192.mk_exp] at hn
  norm_num at hn
  exact F192.powi_underflow hm h1 hz (by omega)

/-- `(-1/8)^(10^15)` -/
example : F192.powi (mk' true (2 ^ 127) (2 ^ 48 - 130)) (10 ^ 15 : Nat) = pure ZERO := by
  have hv : fval (mk' true (2 ^ 127) (2 ^ 48 - 130)) = -1 / 8 := by
    rw [F192.fval_mk ⟨by norm_num, by norm_num⟩ (F192.nz_exp (by norm_num)), show 2 ^ 48 - 130 = 281474976710656 - 130 by norm_num,
      F192.mg_coeff_sub (by norm_num), F192.sgn_true]
    norm_num
  exact C63_powi_underflow (by decide) (by rw [hv]; norm_num) (by rw [hv]; norm_num) (by rw [lead, F192.mk_exp]; decide)

/-- For a negative exponent the result is never too small in magnitude and at most `(n + 2) * 2^-124` (relatively) too large. -/
theorem C63_powi_neg_partial {x : F192} (hx : FValid x) (h0 : fval x ≠ 0) {n : Nat} (hn : 0 < n) (hr : PowRange x n (2 ^ 39 - 2)) :
    ∃ (z : F192) (δ : ℚ), F192.powi x (-n) = pure z ∧ FValid z ∧ 0 ≤ δ ∧ δ ≤ (n + 2) / 2 ^ 124 ∧ fval z = (fval x ^ n)⁻¹ * (1 + δ) := by
  obtain ⟨s, m, e, hm, he, rfl⟩ := F192.exists_mk hx
  have hz : ¬Z s m e := by
    intro hz
    obtain ⟨rfl, rfl, rfl⟩ := hz
    exact h0 F192.fval_zero
  have hr' : (n : Int) * (|(e : Int) - 281474976710529| + 2) ≤ 549755813886 := by
    unfold PowRange at hr
    rw [F192.mk_exp] at hr
    norm_num at hr
    exact hr
  obtain ⟨m', e', g1, g2, g3, g5, g6⟩ := F192.powi_neg_c (s := s) hm hn hr'
  have f1 := g3.1
  have f2 := g3.2
  have hq := inv_pos.2 (pow_pos (F192.mg_pos (e := e) hm) n)
  refine ⟨_, mg m' e' / (mg m e ^ n)⁻¹ - 1, g1, F192.valid_mk g2 (by omega), ?_, ?_, ?_⟩
  · rw [sub_nonneg, le_div_iff₀ hq, one_mul]; exact g5
  · rw [sub_le_iff_le_add, div_le_iff₀ hq, add_comm, mul_comm]; exact g6
  · rw [F192.fval_mk g2 (F192.nz_exp (by omega)), F192.fval_mk hm hz, F192.sgn_psign, add_sub_cancel, mul_pow, mul_inv, mul_assoc,
      mul_div_cancel₀ _ hq.ne', ← inv_pow]
    congr 2
    cases s <;> norm_num [sgn]

/-- `3^-5` -/
example : ∃ (z : F192) (δ : ℚ), F192.powi (mk' false (3 * 2 ^ 126) (2 ^ 48 - 126)) (-(5 : Nat)) = pure z ∧ 0 ≤ δ ∧ δ ≤ 7 / 2 ^ 124 ∧
    fval z = 1 / 243 * (1 + δ) := by
  have hv : fval (mk' false (3 * 2 ^ 126) (2 ^ 48 - 126)) = 3 := by
    rw [F192.fval_mk ⟨by norm_num, by norm_num⟩ (F192.nz_exp (by norm_num)), show 2 ^ 48 - 126 = 281474976710656 - 126 by norm_num,
      F192.mg_coeff_sub (by norm_num), F192.sgn_false]; norm_num
  obtain ⟨z, δ, h1, -, h2, h3, h4⟩ := C63_powi_neg_partial (x := mk' false (3 * 2 ^ 126) (2 ^ 48 - 126)) (n := 5)
    (by decide) (by rw [hv]; norm_num) (by norm_num) (by rw [PowRange, F192.mk_exp]; decide)
  refine ⟨z, δ, h1, h2, le_trans h3 (by norm_num), by rw [h4, hv]; norm_num⟩

private instance : DecidableEq (M F192) := inferInstanceAs (DecidableEq (Option (Except Panic F192)))

/-- Powers of zero; the exponent zero gives one for every base; the smallest exponent panics for every base. -/
theorem C63_powi_edge (x : F192) (n : Nat) : F192.powi x 0 = pure ONE ∧ F192.powi x 1 = pure x ∧
    (0 < n → n < 2 ^ 63 → F192.powi ZERO n = pure ZERO ∧ Panics (F192.powi ZERO (-n))) ∧
    Panics (F192.powi x (-2 ^ 63)) := by
  have hz : ∀ n, 0 < n → F192.powi_abs ZERO n = pure ZERO := by
    intro n
    induction n using Nat.strong_induction_on with
    | _ n ih =>
      intro hn
      by_cases h8 : n < 8
      · interval_cases n <;> rw [F192.powi_abs] <;> decide +kernel
      · rw [F192.powi_abs, if_neg h8, ih _ (by omega) (by omega), pure_bind]
        have : F192.mul ZERO ZERO = pure ZERO := rfl
        rw [this, pure_bind]
        split <;> rfl
  refine ⟨?_, ?_, fun hn h63 => ⟨?_, ⟨.explicit, ?_⟩⟩, ⟨.overflow, rfl⟩⟩
  · rw [F192.powi, F192.i64Abs_c (by norm_num), pure_bind]
    rw [F192.powi_abs, if_pos (by norm_num), if_pos (by norm_num)]
    rfl
  · rw [F192.powi, F192.i64Abs_c (by norm_num), pure_bind]
    rw [F192.powi_abs, if_pos (by norm_num), if_pos (by norm_num)]
    rfl
  · rw [F192.powi, F192.i64Abs_c (by omega), pure_bind, Int.natAbs_natCast, hz n hn, pure_bind, if_neg (by omega)]
  · rw [F192.powi, F192.i64Abs_c (by omega), pure_bind, Int.natAbs_neg, Int.natAbs_natCast, hz n hn, pure_bind, if_pos (by omega)]
    rfl

example : Panics (F192.powi ZERO (-(3 : Nat))) := ((C63_powi_edge ZERO 3).2.2.1 (by norm_num) (by norm_num)).2

/-- The range of `C63_powi_neg_partial` is needed: the division of `2^(-2^40)` starts from a wrong estimate, and the result is at least 1/2. -/
theorem C63_powi_neg_counterexample : fval ⟨0, 2 ^ 48 - 126⟩ = 2 ∧
    ∃ z, F192.powi ⟨0, 2 ^ 48 - 126⟩ (-2 ^ 40) = pure z ∧ FValid z ∧ 1 / 2 ≤ |fval z| := by
  constructor
  · refine (F192.fval_mk (s := false) (m := 170141183460469231731687303715884105728) (e := 281474976710656 - 126)
      ⟨by norm_num, by norm_num⟩ (F192.nz_exp (by norm_num))).trans ?_
    rw [F192.mg_coeff_sub (by norm_num), F192.sgn_false, one_mul]; norm_num
  have hp : F192.powi_abs ⟨0, 2 ^ 48 - 126⟩ (2 ^ 40) = pure ⟨0, 2 ^ 48 - 127 + 2 ^ 40⟩ := by decide +kernel
  obtain ⟨t, ht⟩ : ∃ t : ℤ, t = lead ONE - lead ⟨0, 2 ^ 48 - 127 + 2 ^ 40⟩ - (wrapLead ONE - wrapLead ⟨0, 2 ^ 48 - 127 + 2 ^ 40⟩) := ⟨_, rfl⟩
  obtain ⟨z, h1, h2, h3, -⟩ := C62_div_residue (x := ONE) (y := ⟨0, 2 ^ 48 - 127 + 2 ^ 40⟩) (by decide) (by decide) (by decide)
    (by decide) (by decide) ht
  have hv := C62_div_range_counterexample.1 (-t) (by rw [ht]; decide)
  refine ⟨z, ?_, h2, ?_⟩
  · rw [F192.powi, F192.i64Abs_c (by decide), pure_bind, show (-2 ^ 40 : Int).natAbs = 2 ^ 40 by decide, hp, pure_bind, if_pos (by decide), h1]
  · rw [hv, show fval ONE = 1 from F192.fval_one false, one_div, zpow_neg, inv_inv, abs_of_pos (by positivity)] at h3
    have hT : (0 : ℚ) < 2 ^ t := by positivity
    generalize (2 : ℚ) ^ t = T at *
    have : 1 * T ≤ |fval z| * 2 * T := by linarith
    have := le_of_mul_le_mul_right this hT
    linarith

end Props
end Hmath
