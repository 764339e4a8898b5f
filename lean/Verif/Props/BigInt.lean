import Verif.Proofs.BigInt

/-!
# Properties of `BigInt` (C11 gcd_bi, C18 – C22)
-/

namespace Hmath
namespace Props
open BigI

/-! ## C11 gcd of signed integers -/

theorem C11_gcd_bi {a b : BigI} (ha : IValid a) (hb : IValid b) :
    ∃ c, gcd_bi a b = pure c ∧ IValid c ∧ 0 ≤ ival c ∧ ival c ∣ ival a ∧ ival c ∣ ival b ∧
      ∀ d : Int, d ∣ ival a → d ∣ ival b → d ∣ ival c := by
  refine ⟨_, by rw [ha.eq_ofInt, hb.eq_ofInt, gcd_bi_c], ivalid_ofInt _, ?_⟩
  simp only [ival_ofInt]
  exact ⟨by positivity, Int.gcd_dvd_left .., Int.gcd_dvd_right .., fun d => Int.dvd_coe_gcd⟩

example : IValid ⟨[12], true⟩ ∧ IValid ⟨[18], false⟩ ∧
    gcd_bi ⟨[12], true⟩ ⟨[18], false⟩ = pure ⟨[6], false⟩ := by
  refine ⟨by decide, by decide, ?_⟩
  have h := gcd_bi_c (-12) 18
  rw [show ((Int.gcd (-12) 18 : Nat) : Int) = 6 from rfl] at h
  simpa [ofInt, ofNat_lt] using h

/-! ## C18 fixed-width conversions -/

theorem C18_u32_roundtrip {n : Nat} (h : n < 2 ^ 32) :
    UBig.to_u32 (UBig.from_u32 n) = pure (.ok n) := by
  rw [UBig.from_u32_eq h, UBig.to_u32_c, if_pos (by omega)]
example : UBig.to_u32 (UBig.from_u32 4294967295) = pure (.ok 4294967295) :=
  C18_u32_roundtrip (by norm_num)

theorem C18_u64_roundtrip {n : Nat} (h : n < 2 ^ 64) :
    UBig.to_u64 (UBig.from_u64 n) = pure (.ok n) := by
  rw [UBig.from_u64_eq h, UBig.to_u64_c, if_pos (by omega)]
example : UBig.to_u64 (UBig.from_u64 (2 ^ 64 - 1)) = pure (.ok (2 ^ 64 - 1)) :=
  C18_u64_roundtrip (by norm_num)

theorem C18_u128_roundtrip {n : Nat} (h : n < 2 ^ 128) :
    UBig.to_u128 (UBig.from_u128 n) = pure (.ok n) := by
  rw [UBig.from_u128_eq h, UBig.to_u128_c, if_pos (by omega)]
example : UBig.to_u128 (UBig.from_u128 (2 ^ 96 + 5)) = pure (.ok (2 ^ 96 + 5)) :=
  C18_u128_roundtrip (by norm_num)

/-- `from_uN` produce the canonical number. -/
theorem C18_from_unsigned :
    (∀ n < 2 ^ 32, Valid (UBig.from_u32 n) ∧ val (UBig.from_u32 n) = n) ∧
    (∀ n < 2 ^ 64, Valid (UBig.from_u64 n) ∧ val (UBig.from_u64 n) = n) ∧
    (∀ n < 2 ^ 128, Valid (UBig.from_u128 n) ∧ val (UBig.from_u128 n) = n) := by
  refine ⟨fun n h => ?_, fun n h => ?_, fun n h => ?_⟩
  · rw [UBig.from_u32_eq h]; exact ⟨valid_ofNat _, val_ofNat _⟩
  · rw [UBig.from_u64_eq h]; exact ⟨valid_ofNat _, val_ofNat _⟩
  · rw [UBig.from_u128_eq h]; exact ⟨valid_ofNat _, val_ofNat _⟩
example : Valid (UBig.from_u128 (2 ^ 100)) ∧ val (UBig.from_u128 (2 ^ 100)) = 2 ^ 100 :=
  C18_from_unsigned.2.2 _ (by norm_num)

/-- `to_uN` succeed, with the right value, exactly on the values that fit; otherwise they
return the range error. -/
theorem C18_to_unsigned {a : UBig} (ha : Valid a) :
    UBig.to_u32 a = pure (if val a < 2 ^ 32 then .ok (val a) else .error .notInRange) ∧
    UBig.to_u64 a = pure (if val a < 2 ^ 64 then .ok (val a) else .error .notInRange) ∧
    UBig.to_u128 a = pure (if val a < 2 ^ 128 then .ok (val a) else .error .notInRange) :=
  ⟨UBig.to_u32_eq ha, UBig.to_u64_eq ha, UBig.to_u128_eq ha⟩
example : UBig.to_u64 [0, 0, 1] = pure (.error .notInRange) := by
  have h := (C18_to_unsigned (a := [0, 0, 1]) (by decide)).2.1
  simpa [val, Nat.ofDigits] using h

/-- Converting a `usize` to `UBigInt` and back gives an error for every value `≥ 2^32`:
the code goes through `to_u32`. -/
theorem C18_usize_counterexample {n : Nat} (h : n < 2 ^ 64) (h' : 2 ^ 32 ≤ n) :
    UBig.to_usize (UBig.from_usize n) = pure (.error .notInRange) := by
  have h2 : n < B64 := by omega
  rw [UBig.from_usize, Nat.mod_eq_of_lt h2, UBig.from_u64_eq h, UBig.to_usize, UBig.to_u32_c,
    if_neg (by omega)]
example : UBig.to_usize (UBig.from_usize (2 ^ 32)) = pure (.error .notInRange) :=
  C18_usize_counterexample (by norm_num) le_rfl

/-- The `usize` round trip; missing from the claim: values from `2^32` on, where it is false
(`C18_usize_counterexample`). -/
theorem C18_usize_partial {n : Nat} (h : n < 2 ^ 32) :
    UBig.to_usize (UBig.from_usize n) = pure (.ok n) := by
  have h2 : n < B64 := by omega
  rw [UBig.from_usize, Nat.mod_eq_of_lt h2, UBig.from_u64_eq h2, UBig.to_usize, UBig.to_u32_c,
    if_pos (by omega)]
example : UBig.to_usize (UBig.from_usize 77) = pure (.ok 77) := C18_usize_partial (by norm_num)

/-- `to_iN` decide exactly whether the value fits (`to_i128` however also rejects `i128::MIN`). -/
theorem C18_to_signed_partial {a : BigI} (ha : IValid a) :
    to_i32 a = pure (if -2 ^ 31 ≤ ival a ∧ ival a < 2 ^ 31 then .ok (ival a)
      else .error .notInRange) ∧
    to_i64 a = pure (if -2 ^ 63 ≤ ival a ∧ ival a < 2 ^ 63 then .ok (ival a)
      else .error .notInRange) ∧
    to_i128 a = pure (if -2 ^ 127 < ival a ∧ ival a < 2 ^ 127 then .ok (ival a)
      else .error .notInRange) := by
  refine ⟨?_, ?_, ?_⟩
  · rw [ha.eq_ofInt, to_i32_c]; simp only [ival_ofInt]
    congr 1; norm_num [Int.le_iff_lt_add_one]
  · rw [ha.eq_ofInt, to_i64_c]; simp only [ival_ofInt]
    congr 1; norm_num [Int.le_iff_lt_add_one]
  · rw [ha.eq_ofInt, to_i128_c]; simp only [ival_ofInt]
    congr 1; norm_num [Int.le_iff_lt_add_one]
example : to_i32 ⟨[2147483648], true⟩ = pure (.ok (-2147483648)) := by
  have h := (C18_to_signed_partial (a := ⟨[2147483648], true⟩) (by decide)).1
  simpa [ival, val, Nat.ofDigits] using h

/-- `to_i128` rejects `i128::MIN`, which does fit. -/
theorem C18_to_i128_counterexample {a : BigI} (ha : IValid a) (h : ival a = -2 ^ 127) :
    to_i128 a = pure (.error .notInRange) := by
  rw [(C18_to_signed_partial ha).2.2, h, if_neg (by norm_num)]
example : IValid ⟨[0, 0, 0, 2147483648], true⟩ ∧ ival ⟨[0, 0, 0, 2147483648], true⟩ = -2 ^ 127 :=
  ⟨by decide, by simp [ival, val, Nat.ofDigits]⟩

/-- Signed round trips for every value except the minimum of the type. -/
theorem C18_signed_roundtrip_partial {n : Int} :
    (-2 ^ 31 < n → n < 2 ^ 31 → from_i32 n >>= to_i32 = pure (.ok n)) ∧
    (-2 ^ 63 < n → n < 2 ^ 63 → from_i64 n >>= to_i64 = pure (.ok n)) ∧
    (-2 ^ 127 < n → n < 2 ^ 127 → from_i128 n >>= to_i128 = pure (.ok n)) := by
  refine ⟨fun h1 h2 => ?_, fun h1 h2 => ?_, fun h1 h2 => ?_⟩ <;> norm_num at h1 h2
  · rw [from_i32_c ⟨by omega, by omega⟩ (by omega), pure_bind, to_i32_c, if_pos (by omega)]
  · rw [from_i64_c (by omega) (by omega), pure_bind, to_i64_c, if_pos (by omega)]
  · rw [from_i128_c (by omega) (by omega), pure_bind, to_i128_c, if_pos (by omega)]
example : from_i64 (-2 ^ 63 + 1) >>= to_i64 = pure (.ok (-2 ^ 63 + 1)) :=
  C18_signed_roundtrip_partial.2.1 (by norm_num) (by norm_num)

/-- The constructors panic on the minimum of the type (`n.abs()` overflows). -/
theorem C18_signed_min_counterexample :
    Panics (from_i32 (-2 ^ 31)) ∧ Panics (from_i64 (-2 ^ 63)) ∧ Panics (from_i128 (-2 ^ 127)) :=
  ⟨⟨.overflow, rfl⟩, ⟨.overflow, rfl⟩, ⟨.overflow, rfl⟩⟩

/-! ## C19 exact signed arithmetic -/

theorem C19_add {a b : BigI} (ha : IValid a) (hb : IValid b) :
    ComputesI (add a b) (ival a + ival b) ∧ ComputesI (add_mut a b) (ival a + ival b) := by
  constructor <;> rw [ha.eq_ofInt, hb.eq_ofInt] <;> simp only [ival_ofInt]
  · exact computesI_of_eq (add_c ..)
  · exact computesI_of_eq (add_mut_c ..)
example : ComputesI (add ⟨[5], true⟩ ⟨[5], false⟩) 0 := by
  have h := (C19_add (a := ⟨[5], true⟩) (b := ⟨[5], false⟩) (by decide) (by decide)).1
  simpa [ival] using h

theorem C19_sub {a b : BigI} (ha : IValid a) (hb : IValid b) :
    ComputesI (sub a b) (ival a - ival b) ∧ ComputesI (sub_mut a b) (ival a - ival b) := by
  constructor <;> rw [ha.eq_ofInt, hb.eq_ofInt] <;> simp only [ival_ofInt]
  · exact computesI_of_eq (sub_c ..)
  · exact computesI_of_eq (sub_mut_c ..)
example : ComputesI (sub ⟨[5], true⟩ ⟨[0, 1], true⟩) (2 ^ 32 - 5) := by
  have h := (C19_sub (a := ⟨[5], true⟩) (b := ⟨[0, 1], true⟩) (by decide) (by decide)).1
  simpa [ival, val, Nat.ofDigits] using h

theorem C19_mul {a b : BigI} (ha : IValid a) (hb : IValid b) :
    ComputesI (mul a b) (ival a * ival b) ∧ ComputesI (mul_mut a b) (ival a * ival b) := by
  constructor <;> rw [ha.eq_ofInt, hb.eq_ofInt] <;> simp only [ival_ofInt]
  · exact computesI_of_eq (mul_c ..)
  · exact computesI_of_eq (mul_mut_c ..)
example : ComputesI (mul ⟨[5], true⟩ ⟨[0], false⟩) 0 := by
  have h := (C19_mul (a := ⟨[5], true⟩) (b := ⟨[0], false⟩) (by decide) (by decide)).1
  simpa [ival, val, Nat.ofDigits] using h

theorem C19_mul_pow2 {a : BigI} (ha : IValid a) (e : Nat) :
    ComputesI (mul_pow2 a e) (ival a * 2 ^ e) ∧ ComputesI (mul_pow2_mut a e) (ival a * 2 ^ e) := by
  constructor <;> rw [ha.eq_ofInt] <;> simp only [ival_ofInt]
  · exact computesI_of_eq (mul_pow2_c ..)
  · exact computesI_of_eq (mul_pow2_mut_c ..)
example : ComputesI (mul_pow2 ⟨[3], true⟩ 33) (-3 * 2 ^ 33) := by
  have h := (C19_mul_pow2 (a := ⟨[3], true⟩) (by decide) 33).1
  simpa [ival, val, Nat.ofDigits] using h

theorem C19_neg_abs {a : BigI} (ha : IValid a) :
    (IValid (negate a) ∧ ival (negate a) = -ival a) ∧
    (IValid (negate_mut a) ∧ ival (negate_mut a) = -ival a) ∧
    (IValid (abs a) ∧ ival (abs a) = |ival a|) ∧
    (IValid (abs_mut a) ∧ ival (abs_mut a) = |ival a|) := by
  rw [ha.eq_ofInt]
  simp only [negate_c, negate_mut_c, abs_c, abs_mut_c, ival_ofInt, ivalid_ofInt, and_self]
example : ival (negate ⟨[7, 7], true⟩) = 7 + 7 * 2 ^ 32 := by
  have h := (C19_neg_abs (a := ⟨[7, 7], true⟩) (by decide)).1.2
  simpa [ival, val, Nat.ofDigits] using h

/-- Missing from the claim: exponents from `2^31` on, where `pow_u32` panics
(`C19_pow_counterexample`). -/
theorem C19_pow_partial {a : BigI} (ha : IValid a) {e : Nat} (he : e < 2 ^ 31) :
    ComputesI (pow_u32 a e) (ival a ^ e) ∧ ComputesI (pow_u32_mut a e) (ival a ^ e) := by
  constructor <;> rw [ha.eq_ofInt] <;> simp only [ival_ofInt]
  · exact computesI_of_eq (pow_u32_c he)
  · exact computesI_of_eq (pow_u32_mut_c he)
example : ComputesI (pow_u32 ⟨[3], true⟩ 5) (-243) := by
  have h := (C19_pow_partial (a := ⟨[3], true⟩) (by decide) (e := 5) (by norm_num)).1
  simpa [ival, val, Nat.ofDigits] using h

theorem C19_pow_counterexample {a : BigI} (ha : IValid a) {e : Nat} (he : 2 ^ 31 ≤ e) :
    Panics (pow_u32 a e) ∧ Panics (pow_u32_mut a e) := by
  have h := UBig.pow_u32_panics ha.mag he
  constructor
  · rw [pow_u32, h]; exact ⟨_, rfl⟩
  · rw [pow_u32_mut, UBig.pow_u32_mut, h]; exact ⟨_, rfl⟩
example : Panics (pow_u32 ⟨[1], true⟩ (2 ^ 31)) :=
  (C19_pow_counterexample (a := ⟨[1], true⟩) (by decide) le_rfl).1

theorem C19_shift {a : BigI} (ha : IValid a) (n : Nat) :
    (IValid (shift_right a n) ∧ ival (shift_right a n) = (ival a).tdiv (2 ^ (32 * n))) ∧
    (IValid (shift_right_mut a n) ∧ ival (shift_right_mut a n) = (ival a).tdiv (2 ^ (32 * n))) ∧
    (IValid (shift_left a n) ∧ ival (shift_left a n) = ival a * 2 ^ (32 * n)) ∧
    (IValid (shift_left_mut a n) ∧ ival (shift_left_mut a n) = ival a * 2 ^ (32 * n)) := by
  have e : ((B32 ^ n : Nat) : Int) = 2 ^ (32 * n) := by rw [pow_mul]; norm_num
  rw [ha.eq_ofInt]
  simp only [shift_right_c, shift_right_mut_c, shift_left_c, shift_left_mut_c, ival_ofInt,
    ivalid_ofInt, e, and_self]
example : ival (shift_right ⟨[5, 7], true⟩ 1) = -7 := by
  have h := (C19_shift (a := ⟨[5, 7], true⟩) (by decide) 1).1.2
  rw [h]; simp [ival, val, Nat.ofDigits]

/-! ## C20 division and remainder -/

/-- The truncated quotient, specified without `Int.tdiv`: the remainder `a - b*q` is smaller
than `b` in magnitude and does not have the opposite sign of `a`. -/
theorem C20_div {a b : BigI} (ha : IValid a) (hb : IValid b) (h : ival b ≠ 0) :
    ∃ q : Int, ComputesI (div a b) q ∧ ComputesI (div_mut a b) q ∧
      ComputesI (rem a b) (ival a - ival b * q) ∧ ComputesI (rem_mut a b) (ival a - ival b * q) ∧
      |ival a - ival b * q| < |ival b| ∧ 0 ≤ (ival a - ival b * q) * ival a := by
  have e : ival a - ival b * (ival a).tdiv (ival b) = (ival a).tmod (ival b) := by
    have := Int.tmod_add_mul_tdiv (ival a) (ival b); omega
  refine ⟨(ival a).tdiv (ival b), ?_⟩
  rw [e]
  refine ⟨?_, ?_, ?_, ?_, ?_, ?_⟩
  · apply computesI_of_eq; conv_lhs => rw [ha.eq_ofInt, hb.eq_ofInt]
    exact div_c h
  · apply computesI_of_eq; conv_lhs => rw [ha.eq_ofInt, hb.eq_ofInt]
    exact div_mut_c h
  · apply computesI_of_eq; conv_lhs => rw [ha.eq_ofInt, hb.eq_ofInt]
    exact rem_c h
  · apply computesI_of_eq; conv_lhs => rw [ha.eq_ofInt, hb.eq_ofInt]
    exact rem_mut_c h
  · have h1 := natAbs_tmod' (ival a) (ival b)
    have h2 := Nat.mod_lt (ival a).natAbs (show 0 < (ival b).natAbs by omega)
    rw [h1] at h2
    rw [Int.abs_eq_natAbs, Int.abs_eq_natAbs]; omega
  · rcases le_total 0 (ival a) with h1 | h1
    · exact mul_nonneg (Int.tmod_nonneg _ h1) h1
    · have := Int.tmod_nonneg (ival b) (a := -ival a) (by omega)
      rw [Int.neg_tmod] at this
      exact mul_nonneg_of_nonpos_of_nonpos (by omega) h1

example : IValid ⟨[7], true⟩ ∧ IValid ⟨[2], false⟩ ∧ ival ⟨[2], false⟩ ≠ 0 ∧
    ComputesI (div ⟨[7], true⟩ ⟨[2], false⟩) (-3) := by
  refine ⟨by decide, by decide, by simp [ival], computesI_of_eq ?_⟩
  have h := div_c (x := -7) (y := 2) (by norm_num)
  simpa [ofInt, ofNat_lt] using h

theorem C20_div_zero_panics {a b : BigI} (ha : IValid a) (hb : IValid b) (h : ival b = 0) :
    Panics (div a b) ∧ Panics (div_mut a b) ∧ Panics (rem a b) ∧ Panics (rem_mut a b) := by
  rw [ha.eq_ofInt, hb.eq_ofInt, h]
  exact ⟨⟨_, div_zero_c⟩, ⟨_, div_mut_zero_c⟩, ⟨_, rem_zero_c⟩, ⟨_, rem_mut_zero_c⟩⟩
example : Panics (div ⟨[7], true⟩ ⟨[0], false⟩) :=
  (C20_div_zero_panics (a := ⟨[7], true⟩) (b := ⟨[0], false⟩) (by decide) (by decide)
    (by simp [ival])).1

/-! ## C21 operations with an `i32` operand -/

/-- Exactness for every `i32` except `i32::MIN`, where every one of these operations panics
(`C21_i32_min_counterexample`). -/
theorem C21_arith_i32_partial {a : BigI} {o : Int} (ha : IValid a) (ho : IsI32 o)
    (h' : o ≠ -2 ^ 31) :
    ComputesI (add_i32 a o) (ival a + o) ∧ ComputesI (add_i32_mut a o) (ival a + o) ∧
    ComputesI (sub_i32 a o) (ival a - o) ∧ ComputesI (sub_i32_mut a o) (ival a - o) ∧
    ComputesI (mul_i32 a o) (ival a * o) ∧ ComputesI (mul_i32_mut a o) (ival a * o) := by
  norm_num at h'
  rw [ha.eq_ofInt]
  simp only [ival_ofInt]
  exact ⟨computesI_of_eq (add_i32_c ho h'), computesI_of_eq (add_i32_mut_c ho h'),
    computesI_of_eq (sub_i32_c ho h'), computesI_of_eq (sub_i32_mut_c ho h'),
    computesI_of_eq (mul_i32_c ho h'), computesI_of_eq (mul_i32_mut_c ho h')⟩
example : ComputesI (add_i32 ⟨[5], false⟩ (-2147483647)) (-2147483642) := by
  have h := (C21_arith_i32_partial (a := ⟨[5], false⟩) (o := -2147483647) (by decide)
    (by unfold IsI32; omega) (by norm_num)).1
  simpa [ival] using h

theorem C21_div_i32_partial {a : BigI} {o : Int} (ha : IValid a) (ho : IsI32 o)
    (h' : o ≠ -2 ^ 31) (h0 : o ≠ 0) :
    ComputesI (div_i32 a o) ((ival a).tdiv o) ∧ ComputesI (div_i32_mut a o) ((ival a).tdiv o) := by
  norm_num at h'
  rw [ha.eq_ofInt]
  simp only [ival_ofInt]
  exact ⟨computesI_of_eq (div_i32_c ho h' h0), computesI_of_eq (div_i32_mut_c ho h' h0)⟩
example : ComputesI (div_i32 ⟨[0, 1], true⟩ (-3)) 1431655765 := by
  have h := (C21_div_i32_partial (a := ⟨[0, 1], true⟩) (o := -3) (by decide)
    (by unfold IsI32; omega) (by norm_num) (by norm_num)).1
  simpa [ival, val, Nat.ofDigits, Int.neg_tdiv, Int.tdiv_neg] using h

theorem C21_div_i32_zero_panics {a : BigI} (ha : IValid a) :
    Panics (div_i32 a 0) ∧ Panics (div_i32_mut a 0) := by
  rw [ha.eq_ofInt]; exact ⟨⟨_, div_i32_zero_c⟩, ⟨_, div_i32_mut_zero_c⟩⟩
example : Panics (div_i32 ⟨[3], true⟩ 0) := (C21_div_i32_zero_panics (by decide)).1

/-- `rem_i32` (numbers of up to `2^32` limbs; its `u64` accumulator gains less than `2^32` per
limb). -/
theorem C21_rem_i32_partial {a : BigI} {o : Int} (ha : IValid a) (ho : IsI32 o)
    (h' : o ≠ -2 ^ 31) (h0 : o ≠ 0) (hl : a.mag.length ≤ 2 ^ 32) :
    ComputesI (rem_i32 a o) ((ival a).tmod o) := by
  norm_num at h' hl
  rw [ha.eq_ofInt] at hl ⊢
  simp only [ival_ofInt]
  exact computesI_of_eq (rem_i32_c ho h' h0 hl)
example : ComputesI (rem_i32 ⟨[0, 1], true⟩ 3) (-1) := by
  have h := C21_rem_i32_partial (a := ⟨[0, 1], true⟩) (o := 3) (by decide)
    (by unfold IsI32; omega) (by norm_num) (by norm_num) (by simp)
  simpa [ival, val, Nat.ofDigits, Int.neg_tmod] using h

/-- `rem_i32_mut` for small divisors and numbers of less than `2^16` limbs. -/
theorem C21_rem_i32_mut_partial {a : BigI} {o : Int} (ha : IValid a) (h1 : -65536 ≤ o)
    (h2 : o ≤ 65536) (h0 : o ≠ 0) (hl : a.mag.length < 65536) :
    ComputesI (rem_i32_mut a o) ((ival a).tmod o) := by
  rw [ha.eq_ofInt] at hl ⊢
  simp only [ival_ofInt]
  exact computesI_of_eq (rem_i32_mut_c h1 h2 h0 hl)
example : ComputesI (rem_i32_mut ⟨[0, 1], true⟩ 3) (-1) := by
  have h := C21_rem_i32_mut_partial (a := ⟨[0, 1], true⟩) (o := 3) (by decide)
    (by norm_num) (by norm_num) (by norm_num) (by simp)
  simpa [ival, val, Nat.ofDigits, Int.neg_tmod] using h

/-- `rem_i32_mut` overflows its `u32` accumulator for large divisors. -/
theorem C21_rem_i32_mut_counterexample :
    Panics (rem_i32_mut ⟨[0, 1000000000], false⟩ 2147483629) ∧
    IValid ⟨[0, 1000000000], false⟩ ∧ IsI32 2147483629 :=
  ⟨⟨.overflow, rfl⟩, by decide, by unfold IsI32; omega⟩

/-- On `i32::MIN` every one of the `i32` operations panics, for every left operand. -/
theorem C21_i32_min_counterexample (a : BigI) :
    Panics (add_i32 a (-2 ^ 31)) ∧ Panics (add_i32_mut a (-2 ^ 31)) ∧
    Panics (sub_i32 a (-2 ^ 31)) ∧ Panics (sub_i32_mut a (-2 ^ 31)) ∧
    Panics (mul_i32 a (-2 ^ 31)) ∧ Panics (mul_i32_mut a (-2 ^ 31)) ∧
    Panics (div_i32 a (-2 ^ 31)) ∧ Panics (div_i32_mut a (-2 ^ 31)) ∧
    Panics (rem_i32 a (-2 ^ 31)) ∧ Panics (rem_i32_mut a (-2 ^ 31)) := by
  have e : (-2 ^ 31 : Int) = -2147483648 := by norm_num
  have h := i32Abs_min
  rw [e]
  refine ⟨⟨.overflow, ?_⟩, ⟨.overflow, ?_⟩, ⟨.overflow, ?_⟩, ⟨.overflow, ?_⟩, ⟨.overflow, ?_⟩,
    ⟨.overflow, ?_⟩, ⟨.overflow, ?_⟩, ⟨.overflow, ?_⟩, ⟨.overflow, ?_⟩, ⟨.overflow, ?_⟩⟩
  · rw [add_i32, h]; split_ifs <;> rfl
  · rw [add_i32_mut, h]; split_ifs <;> rfl
  · rw [sub_i32, h]; split_ifs <;> rfl
  · rw [sub_i32_mut, h]; split_ifs <;> rfl
  · rw [mul_i32, h]; rfl
  · rw [mul_i32_mut, h]; rfl
  · rw [div_i32, h]; rfl
  · rw [div_i32_mut, h]; rfl
  · rw [rem_i32, h]; rfl
  · rw [rem_i32_mut, h]; rfl

/-! ## C22 comparisons -/

theorem C22_comp {a b : BigI} (ha : IValid a) (hb : IValid b) :
    comp a b = compare (ival a) (ival b) ∧
    lt a b = decide (ival a < ival b) ∧ gt a b = decide (ival a > ival b) ∧
    leq a b = decide (ival a ≤ ival b) ∧ geq a b = decide (ival a ≥ ival b) ∧
    eq a b = decide (ival a = ival b) ∧ neq a b = decide (ival a ≠ ival b) := by
  rw [ha.eq_ofInt, hb.eq_ofInt]
  simp only [ival_ofInt]
  exact ⟨comp_c .., lt_c .., gt_c .., leq_c .., geq_c .., eq_c .., neq_c ..⟩
example : lt ⟨[7, 1], true⟩ ⟨[6, 1], true⟩ = true := by
  have h := (C22_comp (a := ⟨[7, 1], true⟩) (b := ⟨[6, 1], true⟩) (by decide) (by decide)).2.1
  simpa [ival, val, Nat.ofDigits] using h

/-- Comparison with an `i32`.  Missing from the claim: `i32::MIN` against a negative number,
which panics (`C22_i32_min_counterexample`). -/
theorem C22_comp_i32_partial {a : BigI} {o : Int} (ha : IValid a) (ho : IsI32 o)
    (h' : o = -2 ^ 31 → 0 ≤ ival a) :
    comp_i32 a o = pure (compare (ival a) o) ∧
    lt_i32 a o = pure (decide (ival a < o)) ∧ gt_i32 a o = pure (decide (ival a > o)) ∧
    leq_i32 a o = pure (decide (ival a ≤ o)) ∧ geq_i32 a o = pure (decide (ival a ≥ o)) := by
  norm_num at h'
  rw [ha.eq_ofInt] at h' ⊢
  simp only [ival_ofInt] at h' ⊢
  exact ⟨comp_i32_c ho h', lt_i32_c ho h', gt_i32_c ho h', leq_i32_c ho h', geq_i32_c ho h'⟩
example : lt_i32 ⟨[7, 1], true⟩ (-5) = pure true := by
  have h := (C22_comp_i32_partial (a := ⟨[7, 1], true⟩) (o := -5) (by decide)
    (by unfold IsI32; omega) (by norm_num)).2.1
  rw [h]; simp [ival, val, Nat.ofDigits]

/-- `eq_i32`, `neq_i32`.  Missing from the claim: numbers of at least `2^32` in magnitude with
the sign of the `i32`, where they panic (`C22_eq_i32_counterexample`). -/
theorem C22_eq_i32_partial {a : BigI} {o : Int} (ha : IValid a) (ho : IsI32 o)
    (h' : o = -2 ^ 31 → 0 ≤ ival a) (hx : (ival a < 0 ↔ o < 0) → |ival a| < 2 ^ 32) :
    eq_i32 a o = pure (decide (ival a = o)) ∧ neq_i32 a o = pure (decide (ival a ≠ o)) := by
  norm_num at h'
  have hx' : (ival a < 0 ↔ o < 0) → (ival a).natAbs < B32 := by
    intro h; have := hx h; rw [Int.abs_eq_natAbs] at this; omega
  rw [ha.eq_ofInt] at h' hx' ⊢
  simp only [ival_ofInt] at h' hx' ⊢
  exact ⟨eq_i32_c ho h' hx', neq_i32_c ho h' hx'⟩
example : eq_i32 ⟨[7, 1], true⟩ 5 = pure false := by
  have h := (C22_eq_i32_partial (a := ⟨[7, 1], true⟩) (o := 5) (by decide)
    (by unfold IsI32; omega) (by norm_num) (by simp [ival, val, Nat.ofDigits])).1
  rw [h]; simp [ival, val, Nat.ofDigits]

theorem C22_eq_i32_counterexample {a : BigI} {o : Int} (ha : IValid a) (h : ival a < 0 ↔ o < 0)
    (hx : 2 ^ 32 ≤ |ival a|) : Panics (eq_i32 a o) ∧ Panics (neq_i32 a o) := by
  have hx' : B32 ≤ (ival a).natAbs := by rw [Int.abs_eq_natAbs] at hx; omega
  rw [ha.eq_ofInt]
  have e := eq_i32_panics h hx'
  exact ⟨⟨_, e⟩, ⟨.unwrap, by rw [neq_i32, e]; rfl⟩⟩
example : Panics (eq_i32 ⟨[0, 1], false⟩ 0) :=
  (C22_eq_i32_counterexample (a := ⟨[0, 1], false⟩) (o := 0) (by decide)
    (by simp [ival, val, Nat.ofDigits]) (by simp [ival, val, Nat.ofDigits])).1

theorem C22_i32_min_counterexample {a : BigI} (ha : IValid a) (h : ival a < 0) :
    Panics (comp_i32 a (-2 ^ 31)) ∧ Panics (lt_i32 a (-2 ^ 31)) ∧ Panics (gt_i32 a (-2 ^ 31)) := by
  have e : (-2 ^ 31 : Int) = -2147483648 := by norm_num
  have hc : comp_i32 a (-2147483648) = throw .overflow := by
    rw [ha.eq_ofInt, comp_i32, i32Abs_min, if_neg]
    · rfl
    · simp [h]
  rw [e]
  refine ⟨⟨_, hc⟩, ⟨.overflow, ?_⟩, ⟨.overflow, ?_⟩⟩
  · rw [lt_i32_of, hc]; rfl
  · rw [gt_i32_of, hc]; rfl
example : Panics (lt_i32 ⟨[7], true⟩ (-2 ^ 31)) :=
  (C22_i32_min_counterexample (a := ⟨[7], true⟩) (by decide) (by simp [ival])).2.1

end Props
end Hmath
