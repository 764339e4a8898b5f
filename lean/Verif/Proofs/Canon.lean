import Verif.Proofs.DivRem

/-!
# `UBigInt` lemmas restated on canonical limb vectors `ofNat n`
-/

namespace Hmath
namespace UBig

variable (m n : Nat)

theorem add_c : add (ofNat m) (ofNat n) = pure (ofNat (m + n)) := by
  rw [add_eq (valid_ofNat _) (valid_ofNat _)]; simp only [val_ofNat]
theorem add_mut_c : add_mut (ofNat m) (ofNat n) = pure (ofNat (m + n)) := by
  rw [add_mut_eq (valid_ofNat _) (valid_ofNat _)]; simp only [val_ofNat]
theorem mul_c : mul (ofNat m) (ofNat n) = pure (ofNat (m * n)) := by
  rw [mul_eq (valid_ofNat _) (valid_ofNat _)]; simp only [val_ofNat]
theorem mul_mut_c : mul_mut (ofNat m) (ofNat n) = pure (ofNat (m * n)) := by
  rw [mul_mut_eq (valid_ofNat _) (valid_ofNat _)]; simp only [val_ofNat]
theorem lt_c : lt (ofNat m) (ofNat n) = decide (m < n) := by
  rw [lt_eq (valid_ofNat _) (valid_ofNat _)]; simp only [val_ofNat]
theorem gt_c : gt (ofNat m) (ofNat n) = decide (n < m) := by
  rw [gt_eq (valid_ofNat _) (valid_ofNat _)]; simp only [val_ofNat]
theorem leq_c : leq (ofNat m) (ofNat n) = decide (m ≤ n) := by
  rw [leq_eq (valid_ofNat _) (valid_ofNat _)]; simp only [val_ofNat]
theorem geq_c : geq (ofNat m) (ofNat n) = decide (n ≤ m) := by
  rw [geq_eq (valid_ofNat _) (valid_ofNat _)]; simp only [val_ofNat]
theorem eq_c : eq (ofNat m) (ofNat n) = decide (m = n) := by
  rw [eq_eq (valid_ofNat _) (valid_ofNat _)]; simp only [val_ofNat]
theorem neq_c : neq (ofNat m) (ofNat n) = decide (m ≠ n) := by
  rw [neq_eq (valid_ofNat _) (valid_ofNat _)]; simp only [val_ofNat]
theorem comp_c : comp (ofNat m) (ofNat n) = compare m n := by
  rw [comp_eq (valid_ofNat _) (valid_ofNat _)]; simp only [val_ofNat]
theorem is_zero_c : is_zero (ofNat m) = decide (m = 0) := by
  rw [is_zero_eq (valid_ofNat _)]; simp only [val_ofNat]
theorem is_one_c : is_one (ofNat m) = decide (m = 1) := by
  rw [is_one_eq (valid_ofNat _)]; simp only [val_ofNat]
theorem gcd_ubi_c : gcd_ubi (ofNat m) (ofNat n) = pure (ofNat (Nat.gcd m n)) := by
  rw [gcd_ubi_eq (valid_ofNat _) (valid_ofNat _)]; simp only [val_ofNat]
theorem mul_pow2_c : mul_pow2 (ofNat m) n = pure (ofNat (m * 2 ^ n)) := by
  rw [mul_pow2_eq (valid_ofNat _)]; simp only [val_ofNat]
theorem mul_pow2_mut_c : mul_pow2_mut (ofNat m) n = pure (ofNat (m * 2 ^ n)) := by
  rw [mul_pow2_mut_eq (valid_ofNat _)]; simp only [val_ofNat]
theorem shift_right_c : shift_right (ofNat m) n = ofNat (m / B32 ^ n) := by
  rw [shift_right_eq (valid_ofNat _)]; simp only [val_ofNat]
theorem shift_right_mut_c : shift_right_mut (ofNat m) n = ofNat (m / B32 ^ n) := by
  rw [shift_right_mut_eq (valid_ofNat _)]; simp only [val_ofNat]
theorem shift_left_c : shift_left (ofNat m) n = ofNat (m * B32 ^ n) := by
  rw [shift_left_eq (valid_ofNat _)]; simp only [val_ofNat]
theorem shift_left_mut_c : shift_left_mut (ofNat m) n = ofNat (m * B32 ^ n) := by
  rw [shift_left_mut_eq (valid_ofNat _)]; simp only [val_ofNat]
theorem to_u32_c : to_u32 (ofNat m) = pure (if m < B32 then .ok m else .error .notInRange) := by
  rw [to_u32_eq (valid_ofNat _)]; simp only [val_ofNat]
theorem to_u64_c : to_u64 (ofNat m) = pure (if m < B64 then .ok m else .error .notInRange) := by
  rw [to_u64_eq (valid_ofNat _)]; simp only [val_ofNat]
theorem to_u128_c :
    to_u128 (ofNat m) = pure (if m < B128 then .ok m else .error .notInRange) := by
  rw [to_u128_eq (valid_ofNat _)]; simp only [val_ofNat]

variable {m n}

theorem sub_c (h : n ≤ m) : sub (ofNat m) (ofNat n) = pure (ofNat (m - n)) := by
  rw [sub_eq (valid_ofNat _) (valid_ofNat _) (by simpa only [val_ofNat] using h)]
  simp only [val_ofNat]
theorem sub_mut_c (h : n ≤ m) : sub_mut (ofNat m) (ofNat n) = pure (ofNat (m - n)) := by
  rw [sub_mut_eq (valid_ofNat _) (valid_ofNat _) (by simpa only [val_ofNat] using h)]
  simp only [val_ofNat]
theorem div_c (h : 0 < n) : div (ofNat m) (ofNat n) = pure (ofNat (m / n)) := by
  rw [div_eq (valid_ofNat _) (valid_ofNat _) (by simpa only [val_ofNat] using h)]
  simp only [val_ofNat]
theorem div_mut_c (h : 0 < n) : div_mut (ofNat m) (ofNat n) = pure (ofNat (m / n)) := div_c h
theorem div_zero_c : div (ofNat m) (ofNat 0) = throw .divZero :=
  div_panics (valid_ofNat _) (valid_ofNat _) (val_ofNat 0)
theorem rem_c (h : 0 < n) : rem (ofNat m) (ofNat n) = pure (ofNat (m % n)) := by
  rw [rem_eq (valid_ofNat _) (valid_ofNat _) (by simpa only [val_ofNat] using h)]
  simp only [val_ofNat]
theorem rem_mut_c (h : 0 < n) : rem_mut (ofNat m) (ofNat n) = pure (ofNat (m % n)) := by
  rw [rem_mut_eq (valid_ofNat _) (valid_ofNat _) (by simpa only [val_ofNat] using h)]
  simp only [val_ofNat]
theorem add_u32_c (h : n < B32) : add_u32 (ofNat m) n = pure (ofNat (m + n)) := by
  rw [add_u32_eq (valid_ofNat _) h]; simp only [val_ofNat]
theorem add_u32_mut_c (h : n < B32) : add_u32_mut (ofNat m) n = pure (ofNat (m + n)) := by
  rw [add_u32_mut_eq (valid_ofNat _) h]; simp only [val_ofNat]
theorem sub_u32_c (h : n < B32) (h' : n ≤ m) : sub_u32 (ofNat m) n = pure (ofNat (m - n)) := by
  rw [sub_u32, sub_u32_mut_eq (valid_ofNat _) h (by simpa only [val_ofNat] using h')]
  simp only [val_ofNat]
theorem sub_u32_mut_c (h : n < B32) (h' : n ≤ m) :
    sub_u32_mut (ofNat m) n = pure (ofNat (m - n)) := by
  rw [sub_u32_mut_eq (valid_ofNat _) h (by simpa only [val_ofNat] using h')]
  simp only [val_ofNat]
theorem mul_u32_c (h : n < B32) : mul_u32 (ofNat m) n = pure (ofNat (m * n)) := by
  rw [mul_u32_eq (valid_ofNat _) h]; simp only [val_ofNat]
theorem mul_u32_mut_c (h : n < B32) : mul_u32_mut (ofNat m) n = pure (ofNat (m * n)) := by
  rw [mul_u32_mut_eq (valid_ofNat _) h]; simp only [val_ofNat]
theorem div_u32_c (h : n < B32) (h0 : 0 < n) : div_u32 (ofNat m) n = pure (ofNat (m / n)) := by
  rw [div_u32_eq (valid_ofNat _) h h0]; simp only [val_ofNat]
theorem div_u32_mut_c (h : n < B32) (h0 : 0 < n) :
    div_u32_mut (ofNat m) n = pure (ofNat (m / n)) := div_u32_c h h0
theorem lt_u32_c (h : n < B32) : lt_u32 (ofNat m) n = pure (decide (m < n)) := by
  rw [lt_u32_eq (valid_ofNat _) h]; simp only [val_ofNat]
theorem gt_u32_c (h : n < B32) : gt_u32 (ofNat m) n = pure (decide (n < m)) := by
  rw [gt_u32_eq (valid_ofNat _) h]; simp only [val_ofNat]
theorem eq_u32_c (h : n < B32) : eq_u32 (ofNat m) n = pure (decide (m = n)) := by
  rw [eq_u32_eq (valid_ofNat _) h]; simp only [val_ofNat]
theorem comp_u32_c (h : n < B32) : comp_u32 (ofNat m) n = pure (compare m n) := by
  rw [comp_u32_eq (valid_ofNat _) h]; simp only [val_ofNat]
theorem pow_u32_c (h : n < 2 ^ 31) : pow_u32 (ofNat m) n = pure (ofNat (m ^ n)) := by
  rw [pow_u32_eq (valid_ofNat _) h]; simp only [val_ofNat]

end UBig
end Hmath
