import Verif.Props.UBigInt
import Verif.Props.BigInt
import Verif.Props.Ratio

/-!
# Mutating forms agree with the non-mutating ones (C31)

An equation between calls includes the panics: both sides return the same value or panic alike.
-/

namespace Hmath
namespace Props

theorem C31_ubig {a b : UBig} (ha : Valid a) (hb : Valid b) :
    UBig.add_mut a b = UBig.add a b ∧ UBig.sub_mut a b = UBig.sub a b ∧
    UBig.mul_mut a b = UBig.mul a b ∧ UBig.div_mut a b = UBig.div a b ∧
    UBig.rem_mut a b = UBig.rem a b := by
  rw [ha.eq_ofNat, hb.eq_ofNat]
  refine ⟨by rw [UBig.add_c, UBig.add_mut_c], rfl, by rw [UBig.mul_c, UBig.mul_mut_c], rfl, ?_⟩
  rcases Nat.eq_zero_or_pos (val b) with h | h
  · rw [h]
    rw [UBig.rem_panics (valid_ofNat _) (valid_ofNat _) (val_ofNat 0), UBig.rem_mut,
      UBig.div_panics (valid_ofNat _) (valid_ofNat _) (val_ofNat 0)]; rfl
  · rw [UBig.rem_c h, UBig.rem_mut_c h]
example : UBig.add_mut [1, 2] [4294967295] = UBig.add [1, 2] [4294967295] :=
  (C31_ubig (by decide) (by decide)).1

theorem C31_ubig_word {a : UBig} {o : Nat} (ha : Valid a) (ho : o < 2 ^ 32) :
    UBig.add_u32_mut a o = UBig.add_u32 a o ∧ UBig.sub_u32_mut a o = UBig.sub_u32 a o ∧
    UBig.mul_u32_mut a o = UBig.mul_u32 a o ∧ UBig.div_u32_mut a o = UBig.div_u32 a o ∧
    UBig.pow_u32_mut a o = UBig.pow_u32 a o ∧ UBig.mul_pow2_mut a o = UBig.mul_pow2 a o ∧
    UBig.shift_right_mut a o = UBig.shift_right a o ∧
    UBig.shift_left_mut a o = UBig.shift_left a o ∧
    (o ≤ a.length → UBig.slice_right_mut a o = UBig.slice_right a o) := by
  have hs : o ≤ a.length → UBig.slice_right_mut a o = UBig.slice_right a o := fun h => by
    rw [UBig.slice_right_eq ha h, UBig.slice_right_mut_eq ha h]
  rw [ha.eq_ofNat] at hs ⊢
  exact ⟨by rw [UBig.add_u32_c ho, UBig.add_u32_mut_c ho], rfl,
    by rw [UBig.mul_u32_c ho, UBig.mul_u32_mut_c ho], rfl, rfl,
    by rw [UBig.mul_pow2_c, UBig.mul_pow2_mut_c],
    by rw [UBig.shift_right_c, UBig.shift_right_mut_c],
    by rw [UBig.shift_left_c, UBig.shift_left_mut_c], hs⟩
example : UBig.add_u32_mut [1, 2] 4294967295 = UBig.add_u32 [1, 2] 4294967295 :=
  (C31_ubig_word (by decide) (by norm_num)).1

/-- The remainder by a word: for small divisors and lengths the two forms agree.  Missing from the
claim: larger divisors, where it is false (`C31_rem_u32_counterexample`). -/
theorem C31_rem_u32_partial {a : UBig} {o : Nat} (ha : Valid a) (ho : o ≤ 2 ^ 16)
    (hl : a.length < 2 ^ 16) : (o ≠ 0 → UBig.rem_u32_mut a o = UBig.rem_u32 a o) ∧
      (Panics (UBig.rem_u32_mut a 0) ∧ Panics (UBig.rem_u32 a 0)) := by
  refine ⟨fun h0 => ?_, (C05_rem_u32_zero a).2, (C05_rem_u32_zero a).1⟩
  obtain ⟨c, h1, h2, h3⟩ := C05_rem_u32_partial ha (by omega : o < 2 ^ 32) h0 (by omega)
  obtain ⟨d, g1, g2, g3⟩ := C05_rem_u32_mut_partial ha h0 ho hl
  rw [h1, g1, h2.eq_ofNat, g2.eq_ofNat, h3, g3]
example : UBig.rem_u32_mut [1, 2, 3] 65536 = UBig.rem_u32 [1, 2, 3] 65536 :=
  (C31_rem_u32_partial (by decide) (by norm_num) (by simp)).1 (by norm_num)

/-- `rem_u32` returns where `rem_u32_mut` panics. -/
theorem C31_rem_u32_counterexample : ∃ (a : UBig) (o : Nat), Valid a ∧ 0 < o ∧ o < 2 ^ 32 ∧
    Panics (UBig.rem_u32_mut a o) ∧ Computes (UBig.rem_u32 a o) (val a % o) := by
  refine ⟨[0, 1000000000], 2147483629, by decide, by norm_num, by norm_num, ⟨.overflow, rfl⟩, ?_⟩
  exact C05_rem_u32_partial (by decide) (by norm_num) (by norm_num) (by simp)

theorem C31_bigint {a b : BigI} (ha : IValid a) (hb : IValid b) :
    BigI.add_mut a b = BigI.add a b ∧ BigI.sub_mut a b = BigI.sub a b ∧
    BigI.mul_mut a b = BigI.mul a b ∧ BigI.div_mut a b = BigI.div a b ∧
    BigI.rem_mut a b = BigI.rem a b ∧ BigI.negate_mut a = BigI.negate a ∧
    BigI.abs_mut a = BigI.abs a := by
  rw [ha.eq_ofInt, hb.eq_ofInt]
  refine ⟨by rw [BigI.add_c, BigI.add_mut_c], by rw [BigI.sub_c, BigI.sub_mut_c],
    by rw [BigI.mul_c, BigI.mul_mut_c], ?_, ?_, by rw [BigI.negate_c, BigI.negate_mut_c],
    by rw [BigI.abs_c, BigI.abs_mut_c]⟩ <;> by_cases h : ival b = 0
  · rw [h, BigI.div_zero_c, BigI.div_mut_zero_c]
  · rw [BigI.div_c h, BigI.div_mut_c h]
  · rw [h, BigI.rem_zero_c, BigI.rem_mut_zero_c]
  · rw [BigI.rem_c h, BigI.rem_mut_c h]
example : BigI.rem_mut ⟨[1, 2], true⟩ ⟨[0], false⟩ = BigI.rem ⟨[1, 2], true⟩ ⟨[0], false⟩ :=
  (C31_bigint (by decide) (by decide)).2.2.2.2.1

theorem C31_bigint_shift {a : BigI} (ha : IValid a) (n : Nat) :
    BigI.mul_pow2_mut a n = BigI.mul_pow2 a n ∧ BigI.shift_right_mut a n = BigI.shift_right a n ∧
    BigI.shift_left_mut a n = BigI.shift_left a n ∧
    (n < 2 ^ 31 → BigI.pow_u32_mut a n = BigI.pow_u32 a n) ∧
    (2 ^ 31 ≤ n → Panics (BigI.pow_u32_mut a n) ∧ Panics (BigI.pow_u32 a n)) := by
  have hp : 2 ^ 31 ≤ n → Panics (BigI.pow_u32_mut a n) ∧ Panics (BigI.pow_u32 a n) := fun h =>
    (C19_pow_counterexample ha h).symm
  rw [ha.eq_ofInt] at hp ⊢
  exact ⟨by rw [BigI.mul_pow2_c, BigI.mul_pow2_mut_c],
    by rw [BigI.shift_right_c, BigI.shift_right_mut_c],
    by rw [BigI.shift_left_c, BigI.shift_left_mut_c],
    fun h => by rw [BigI.pow_u32_c h, BigI.pow_u32_mut_c h], hp⟩
example : BigI.pow_u32_mut ⟨[3], true⟩ 5 = BigI.pow_u32 ⟨[3], true⟩ 5 :=
  (C31_bigint_shift (by decide) 5).2.2.2.1 (by norm_num)

/-- With an `i32` operand other than `i32::MIN` (on `i32::MIN` both forms panic,
`C21_i32_min_counterexample`). -/
theorem C31_bigint_i32 {a : BigI} {o : Int} (ha : IValid a) (ho : IsI32 o) (h' : o ≠ -2 ^ 31) :
    BigI.add_i32_mut a o = BigI.add_i32 a o ∧ BigI.sub_i32_mut a o = BigI.sub_i32 a o ∧
    BigI.mul_i32_mut a o = BigI.mul_i32 a o ∧ BigI.div_i32_mut a o = BigI.div_i32 a o := by
  norm_num at h'
  rw [ha.eq_ofInt]
  refine ⟨by rw [BigI.add_i32_c ho h', BigI.add_i32_mut_c ho h'],
    by rw [BigI.sub_i32_c ho h', BigI.sub_i32_mut_c ho h'],
    by rw [BigI.mul_i32_c ho h', BigI.mul_i32_mut_c ho h'], ?_⟩
  by_cases h : o = 0
  · rw [h, BigI.div_i32_zero_c, BigI.div_i32_mut_zero_c]
  · rw [BigI.div_i32_c ho h' h, BigI.div_i32_mut_c ho h' h]
example : BigI.sub_i32_mut ⟨[1, 2], true⟩ 7 = BigI.sub_i32 ⟨[1, 2], true⟩ 7 :=
  (C31_bigint_i32 (by decide) (by unfold IsI32; omega) (by norm_num)).2.1

theorem C31_ratio {a b : Ratio} (ha : RValid a) (hb : RValid b) :
    Ratio.add_mut a b = Ratio.add a b ∧ Ratio.sub_mut a b = Ratio.sub a b ∧
    Ratio.mul_mut a b = Ratio.mul a b ∧ Ratio.div_mut a b = Ratio.div a b ∧
    Ratio.negate_mut a = Ratio.negate a ∧ Ratio.abs_mut a = Ratio.abs a ∧
    Ratio.reci_mut a = Ratio.reci a ∧ Ratio.truncate_mut a = Ratio.truncate a ∧
    Ratio.frac_mut a = Ratio.frac a := by
  rw [ha.eq_ofRat, hb.eq_ofRat]
  refine ⟨by rw [Ratio.add_c, Ratio.add_mut_c], by rw [Ratio.sub_c, Ratio.sub_mut_c],
    by rw [Ratio.mul_c, Ratio.mul_mut_c], ?_, by rw [Ratio.negate_c, Ratio.negate_mut_c],
    by rw [Ratio.abs_c, Ratio.abs_mut_c], rfl, by rw [Ratio.truncate_c, Ratio.truncate_mut_c],
    by rw [Ratio.frac_c, Ratio.frac_mut_c]⟩
  simp only [Ratio.div, Ratio.div_mut, Ratio.denom_ofRat, Ratio.numer_ofRat, BigI.mul_c,
    BigI.mul_mut_c, pure_bind]
  rfl
example : Ratio.div_mut ⟨⟨[2], false⟩, ⟨[1], true⟩⟩ ⟨⟨[3], false⟩, ⟨[7], false⟩⟩ =
    Ratio.div ⟨⟨[2], false⟩, ⟨[1], true⟩⟩ ⟨⟨[3], false⟩, ⟨[7], false⟩⟩ :=
  (C31_ratio (by decide) (by decide)).2.2.2.1

theorem C31_ratio_bi {a : Ratio} {k : BigI} (ha : RValid a) (hk : IValid k) :
    Ratio.add_bi_mut a k = Ratio.add_bi a k ∧ Ratio.sub_bi_mut a k = Ratio.sub_bi a k ∧
    Ratio.mul_bi_mut a k = Ratio.mul_bi a k ∧ Ratio.div_bi_mut a k = Ratio.div_bi a k := by
  rw [ha.eq_ofRat, hk.eq_ofInt]
  exact ⟨by rw [Ratio.add_bi_c, Ratio.add_bi_mut_c], by rw [Ratio.sub_bi_c, Ratio.sub_bi_mut_c],
    rfl, rfl⟩
example : Ratio.add_bi_mut ⟨⟨[2], false⟩, ⟨[1], true⟩⟩ ⟨[3], false⟩ =
    Ratio.add_bi ⟨⟨[2], false⟩, ⟨[1], true⟩⟩ ⟨[3], false⟩ :=
  (C31_ratio_bi (by decide) (by decide)).1

/-- With an `i32` operand other than `i32::MIN` (on which both forms panic,
`C23_i32_min_counterexample`, `C27_min_counterexample`). -/
theorem C31_ratio_i32 {a : Ratio} {o : Int} (ha : RValid a) (ho : IsI32 o) (h' : o ≠ -2 ^ 31) :
    Ratio.add_i32_mut a o = Ratio.add_i32 a o ∧ Ratio.sub_i32_mut a o = Ratio.sub_i32 a o ∧
    Ratio.mul_i32_mut a o = Ratio.mul_i32 a o ∧ Ratio.div_i32_mut a o = Ratio.div_i32 a o ∧
    Ratio.pow_i32_mut a o = Ratio.pow_i32 a o := by
  norm_num at h'
  rw [ha.eq_ofRat]
  refine ⟨by rw [Ratio.add_i32_c _ ho h', Ratio.add_i32_mut_c _ ho h'],
    by rw [Ratio.sub_i32_c _ ho h', Ratio.sub_i32_mut_c _ ho h'],
    by rw [Ratio.mul_i32_c _ ho h', Ratio.mul_i32_mut_c _ ho h'], ?_,
    Ratio.pow_i32_mut_eq _ ho h'⟩
  simp only [Ratio.div_i32, Ratio.div_i32_mut, Ratio.denom_ofRat, Ratio.numer_ofRat,
    BigI.mul_i32_c ho h', BigI.mul_i32_mut_c ho h', pure_bind]
  rfl
example : Ratio.pow_i32_mut ⟨⟨[2], false⟩, ⟨[1], true⟩⟩ (-5) =
    Ratio.pow_i32 ⟨⟨[2], false⟩, ⟨[1], true⟩⟩ (-5) :=
  (C31_ratio_i32 (by decide) (by unfold IsI32; omega) (by norm_num)).2.2.2.2

end Props
end Hmath
