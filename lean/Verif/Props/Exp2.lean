import Verif.Proofs.Exp2
import Verif.Spec.BigInt

/-!
# Scaled power of two (C75)

`UBigInt::exp2_accurate`.  Its documentation promises `truncate(2^(n/4294967296))`.
-/

namespace Hmath
namespace Props
open UBig

/-- the result is the nearest integer to a number that is relatively within `2^-32` above and `2^-59` below the
real power `2^(n/2^32)`; a further `2^-30` may be lost before rounding -/
theorem C75_error {a : UBig} (ha : Valid a) (h : val a < 2 ^ 96) : ∃ r : Nat, Computes (exp2_accurate a) r ∧
    (2 : ℝ) ^ ((val a : ℝ) / 2 ^ 32) * (1 - 1 / 2 ^ 59) - 1 / 2 - 1 / 2 ^ 30 ≤ r ∧
    (r : ℝ) ≤ (2 : ℝ) ^ ((val a : ℝ) / 2 ^ 32) * (1 + 1 / 2 ^ 32) + 1 / 2 := by
  obtain ⟨r, h1, h2, h3, -⟩ := exp2_accurate_c h
  rw [← ha.eq_ofNat] at h1
  rw [show (2 : ℝ) ^ 32 = 4294967296 by norm_num] at h3 ⊢
  exact ⟨r, ⟨_, h1, valid_ofNat _, val_ofNat _⟩, h2, h3⟩

/-- `2^10.3` -/
example : ∃ r : Nat, Computes (exp2_accurate [1288490188, 10]) r ∧
    (2 : ℝ) ^ ((val [1288490188, 10] : ℝ) / 2 ^ 32) * (1 - 1 / 2 ^ 59) - 1 / 2 - 1 / 2 ^ 30 ≤ r ∧
    (r : ℝ) ≤ (2 : ℝ) ^ ((val [1288490188, 10] : ℝ) / 2 ^ 32) * (1 + 1 / 2 ^ 32) + 1 / 2 :=
  C75_error (by decide) (by decide)

/-- whole exponents: the result is exact, as `truncate` requires -/
theorem C75_whole {a : UBig} (ha : Valid a) {k : Nat} (h : val a = k * 2 ^ 32) (hk : k < 2 ^ 64) : Computes (exp2_accurate a) (2 ^ k) := by
  obtain ⟨r, h1, -, -, h4⟩ := exp2_accurate_c (n := val a) (by omega)
  rw [← ha.eq_ofNat] at h1
  rw [h4 (by omega), show val a / 4294967296 = k by omega] at h1
  exact ⟨_, h1, valid_ofNat _, val_ofNat _⟩

example : Computes (exp2_accurate [0, 100]) (2 ^ 100) := C75_whole (by decide) (by decide) (by decide)

/-- up to `2^30` the result is the documented one or the next integer -/
theorem C75_near_partial {a : UBig} (ha : Valid a) (h : val a ≤ 30 * 2 ^ 32) : ∃ r : Nat, Computes (exp2_accurate a) r ∧
    (r = ⌊(2 : ℝ) ^ ((val a : ℝ) / 2 ^ 32)⌋₊ ∨ r = ⌊(2 : ℝ) ^ ((val a : ℝ) / 2 ^ 32)⌋₊ + 1) := by
  obtain ⟨r, h1, h2, h3⟩ := C75_error ha (by omega)
  refine ⟨r, h1, ?_⟩
  have g1 : (2 : ℝ) ^ ((val a : ℝ) / 2 ^ 32) ≤ 1073741824 := by
    have : (2 : ℝ) ^ ((val a : ℝ) / 2 ^ 32) ≤ (2 : ℝ) ^ ((30 : Nat) : ℝ) := by
      refine Real.rpow_le_rpow_of_exponent_le (by norm_num) ?_
      rw [div_le_iff₀ (by norm_num)]
      exact_mod_cast h
    rw [Real.rpow_natCast] at this
    norm_num at this ⊢
    exact this
  have g0 : (0 : ℝ) < (2 : ℝ) ^ ((val a : ℝ) / 2 ^ 32) := Real.rpow_pos_of_pos (by norm_num) _
  generalize (2 : ℝ) ^ ((val a : ℝ) / 2 ^ 32) = X at *
  have f1 := Nat.floor_le g0.le
  have f2 := Nat.lt_floor_add_one X
  generalize ⌊X⌋₊ = F at *
  have k1 : (F : ℝ) < r + 1 := by linarith
  have k2 : (r : ℝ) < F + 2 := by linarith
  have k1' : F < r + 1 := by exact_mod_cast k1
  have k2' : r < F + 2 := by exact_mod_cast k2
  omega

example : ∃ r : Nat, Computes (exp2_accurate [5, 29]) r ∧
    (r = ⌊(2 : ℝ) ^ ((val [5, 29] : ℝ) / 2 ^ 32)⌋₊ ∨ r = ⌊(2 : ℝ) ^ ((val [5, 29] : ℝ) / 2 ^ 32)⌋₊ + 1) :=
  C75_near_partial (by decide) (by decide)

/-- "the inverse function of `log2_accurate`": up to `2^30` it takes every logarithm back to its number -/
theorem C75_inverse_partial {a : UBig} (ha : Valid a) (h0 : 0 < val a) (h1 : val a ≤ 2 ^ 30) :
    ∃ l, log2_accurate a = pure l ∧ Computes (exp2_accurate l) (val a) := by
  obtain ⟨l, e1, e2⟩ := exp2_log2_c h0 h1
  rw [← ha.eq_ofNat] at e1 e2
  exact ⟨l, e1, _, e2, ha, rfl⟩

example : ∃ l, log2_accurate [1000000007] = pure l ∧ Computes (exp2_accurate l) (val [1000000007]) :=
  C75_inverse_partial (by decide) (by decide) (by decide)

/-- exponents of `2^64` and more panic -/
theorem C75_panics {a : UBig} (ha : Valid a) (h : 2 ^ 96 ≤ val a) : Panics (exp2_accurate a) := by
  have := exp2_accurate_panics h
  rw [← ha.eq_ofNat] at this
  exact ⟨_, this⟩

example : Panics (exp2_accurate [0, 0, 0, 1]) := C75_panics (by decide) (by decide)

/-- the power is rounded, not truncated: `2^1.5 = 2.83` becomes 3 -/
theorem C75_counterexample_truncate :
    Computes (exp2_accurate [2147483648, 1]) 3 ∧ ⌊(2 : ℝ) ^ ((val [2147483648, 1] : ℝ) / 2 ^ 32)⌋₊ = 2 := by
  obtain ⟨r, h1, h2, h3⟩ := C75_error (a := [2147483648, 1]) (by decide) (by decide)
  have hv : ((val [2147483648, 1] : Nat) : ℝ) / 2 ^ 32 = 1 + 1 / 2 := by
    rw [show val [2147483648, 1] = 6442450944 by decide]; norm_num
  rw [hv] at h2 h3 ⊢
  have hx : (2 : ℝ) ^ ((1 : ℝ) + 1 / 2) = 2 * √2 := by
    rw [Real.rpow_add (by norm_num), Real.rpow_one, Real.sqrt_eq_rpow]
  rw [hx] at h2 h3 ⊢
  have s1 : (1.414 : ℝ) ≤ √2 := Real.le_sqrt_of_sq_le (by norm_num)
  have s2 : √2 ≤ 1.415 := Real.sqrt_le_iff.2 ⟨by norm_num, by norm_num⟩
  constructor
  · generalize √2 = S at *
    have k1 : (2 : ℝ) < r := by linarith
    have k2 : (r : ℝ) < 4 := by linarith
    have k1' : 2 < r := by exact_mod_cast k1
    have k2' : r < 4 := by exact_mod_cast k2
    rwa [show r = 3 by omega] at h1
  · rw [Nat.floor_eq_iff (by positivity)]
    constructor
    · push_cast; linarith
    · push_cast; linarith

end Props
end Hmath
