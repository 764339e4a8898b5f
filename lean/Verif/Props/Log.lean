import Verif.Proofs.Log
import Verif.Spec.BigInt

/-!
# Scaled logarithm (C46)
-/

namespace Hmath
namespace Props
open UBig

/-- `log2_accurate` returns `r` with `2^r ≤ n^(2^32) < 2^(r+1) (1 + 2^-109)`: the floor of
`2^32 · log2 n`, except that it may be one too small when `n^(2^32)` is within a relative
`2^-109` of the next power of two.  `2^27` limbs is `2^(2^32)`, twice the documented exponent. -/
theorem C46_log2_accurate {a : UBig} (ha : Valid a) (h0 : 0 < val a) (hl : a.length ≤ 2 ^ 27) :
    ∃ r, Computes (log2_accurate a) r ∧ r < 2 ^ 64 ∧ 2 ^ r ≤ val a ^ 2 ^ 32 ∧
      val a ^ 2 ^ 32 * 2 ^ 109 < 2 ^ (r + 1) * (2 ^ 109 + 1) := by
  obtain ⟨T, hT⟩ : ∃ T : Nat, T = 2 ^ 32 := ⟨_, rfl⟩
  have hlt : val a < 2 ^ T := by
    have h1 := val_lt ha.limbs'
    have h2 : B32 ^ a.length ≤ 2 ^ T := by
      rw [B32_pow]
      exact Nat.pow_le_pow_right (by norm_num) (by omega)
    omega
  obtain ⟨r, h1, h2, h3, h4⟩ := log2_accurate_aux (E := T) (K := 16) (val a) h0 hT rfl
    (hT.trans (by norm_num)) hlt
  rw [← ha.eq_ofNat] at h1
  rw [← hT]
  refine ⟨r, ⟨_, h1, valid_ofNat _, val_ofNat _⟩, h2, h3, ?_⟩
  have h5 : (val a : ℚ) ^ T * 2 ^ 109 < 2 ^ (r + 1) * (2 ^ 109 + 1) := by
    have h6 := mul_lt_mul_of_pos_right h4 (show (0 : ℚ) < 2 ^ 109 by norm_num)
    calc _ < _ := h6
      _ = 2 ^ (r + 1) * ((1 + 1 / 2 ^ 109) * 2 ^ 109) := by ring
      _ = _ := by norm_num
  exact_mod_cast h5

example : ∃ r, Computes (log2_accurate [5, 0, 3]) r ∧ r < 2 ^ 64 ∧ 2 ^ r ≤ val [5, 0, 3] ^ 2 ^ 32 ∧
    val [5, 0, 3] ^ 2 ^ 32 * 2 ^ 109 < 2 ^ (r + 1) * (2 ^ 109 + 1) :=
  C46_log2_accurate (by decide) (by decide) (by decide)

/-- the claim as first stated -/
theorem C46_log2_accurate_unit {a : UBig} (ha : Valid a) (h0 : 0 < val a)
    (hl : a.length ≤ 2 ^ 27) :
    ∃ r, Computes (log2_accurate a) r ∧ 2 ^ r ≤ val a ^ 2 ^ 32 ∧ val a ^ 2 ^ 32 < 2 ^ (r + 2) := by
  obtain ⟨r, h1, _, h3, h4⟩ := C46_log2_accurate ha h0 hl
  refine ⟨r, h1, h3, ?_⟩
  generalize val a ^ 2 ^ 32 = N at *
  have h5 : N * 2 ^ 109 < 2 ^ (r + 2) * 2 ^ 109 := by
    rw [show 2 ^ (r + 2) = 2 ^ (r + 1) * 2 by ring, Nat.mul_assoc]
    exact lt_of_lt_of_le h4 (Nat.mul_le_mul_left _ (by norm_num))
  exact Nat.lt_of_mul_lt_mul_right h5

/-- a three limb number: `3·2^64 + 5` -/
example : ∃ r, Computes (log2_accurate [5, 0, 3]) r ∧ 2 ^ r ≤ val [5, 0, 3] ^ 2 ^ 32 ∧
    val [5, 0, 3] ^ 2 ^ 32 < 2 ^ (r + 2) :=
  C46_log2_accurate_unit (by decide) (by decide) (by decide)

/-- zero does not panic: the result is 0 -/
theorem C46_log2_accurate_zero : Computes (log2_accurate [0]) 0 :=
  ⟨_, log2_accurate_zero, by decide, by decide⟩

/-- the signed version takes the logarithm of the absolute value -/
theorem C46_log2_accurate_bi {a : BigI} (ha : IValid a) (h0 : ival a ≠ 0)
    (hl : a.mag.length ≤ 2 ^ 27) :
    ∃ r : Nat, ComputesI (BigI.log2_accurate a) r ∧ 2 ^ r ≤ (ival a).natAbs ^ 2 ^ 32 ∧
      (ival a).natAbs ^ 2 ^ 32 < 2 ^ (r + 2) := by
  have hv : (ival a).natAbs = val a.mag := by
    rw [ival]; split <;> simp
  have hpos : 0 < val a.mag := by rw [← hv]; omega
  obtain ⟨r, ⟨m, h1, h1v, h1e⟩, h2, h3⟩ := C46_log2_accurate_unit ha.1 hpos hl
  rw [hv]
  refine ⟨r, ?_, h2, h3⟩
  rw [BigI.log2_accurate, h1, pure_bind]
  refine ⟨_, rfl, ⟨h1v, fun h => by simp [BigI.from_ubi] at h⟩, ?_⟩
  simp [BigI.from_ubi, ival, h1e]

example : ∃ r : Nat, ComputesI (BigI.log2_accurate ⟨[5, 7], true⟩) r ∧
    2 ^ r ≤ (ival ⟨[5, 7], true⟩).natAbs ^ 2 ^ 32 ∧
    (ival ⟨[5, 7], true⟩).natAbs ^ 2 ^ 32 < 2 ^ (r + 2) :=
  C46_log2_accurate_bi (by decide) (by decide) (by decide)

end Props
end Hmath
