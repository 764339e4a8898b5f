import Verif.Proofs.Shrink

/-!
# Properties of `Ratio` (C23 – C27, C47)
-/

namespace Hmath
namespace Props
open Ratio

/-! ## C23 exact arithmetic in lowest terms -/

theorem C23_add {a b : Ratio} (ha : RValid a) (hb : RValid b) :
    ComputesR (add a b) (rval a + rval b) ∧ ComputesR (add_mut a b) (rval a + rval b) := by
  rw [ha.eq_ofRat, hb.eq_ofRat]; simp only [rval_ofRat]
  exact ⟨computesR_of_eq (add_c ..), computesR_of_eq (add_mut_c ..)⟩
example : ComputesR (add ⟨⟨[6], false⟩, ⟨[1], true⟩⟩ ⟨⟨[3], false⟩, ⟨[2], false⟩⟩) (1 / 2) := by
  have h := (C23_add (a := ⟨⟨[6], false⟩, ⟨[1], true⟩⟩) (b := ⟨⟨[3], false⟩, ⟨[2], false⟩⟩)
    (by decide) (by decide)).1
  have e : (-1 / 6 + 2 / 3 : ℚ) = 1 / 2 := by norm_num
  rw [← e]; simpa [rval, ival] using h

theorem C23_sub {a b : Ratio} (ha : RValid a) (hb : RValid b) :
    ComputesR (sub a b) (rval a - rval b) ∧ ComputesR (sub_mut a b) (rval a - rval b) := by
  rw [ha.eq_ofRat, hb.eq_ofRat]; simp only [rval_ofRat]
  exact ⟨computesR_of_eq (sub_c ..), computesR_of_eq (sub_mut_c ..)⟩
example : ComputesR (sub ⟨⟨[6], false⟩, ⟨[1], true⟩⟩ ⟨⟨[3], false⟩, ⟨[2], false⟩⟩) (-5 / 6) := by
  have h := (C23_sub (a := ⟨⟨[6], false⟩, ⟨[1], true⟩⟩) (b := ⟨⟨[3], false⟩, ⟨[2], false⟩⟩)
    (by decide) (by decide)).1
  have e : (-1 / 6 - 2 / 3 : ℚ) = -5 / 6 := by norm_num
  rw [← e]; simpa [rval, ival] using h

theorem C23_mul {a b : Ratio} (ha : RValid a) (hb : RValid b) :
    ComputesR (mul a b) (rval a * rval b) ∧ ComputesR (mul_mut a b) (rval a * rval b) := by
  rw [ha.eq_ofRat, hb.eq_ofRat]; simp only [rval_ofRat]
  exact ⟨computesR_of_eq (mul_c ..), computesR_of_eq (mul_mut_c ..)⟩
example : ComputesR (mul ⟨⟨[6], false⟩, ⟨[1], true⟩⟩ ⟨⟨[3], false⟩, ⟨[2], false⟩⟩) (-1 / 9) := by
  have h := (C23_mul (a := ⟨⟨[6], false⟩, ⟨[1], true⟩⟩) (b := ⟨⟨[3], false⟩, ⟨[2], false⟩⟩)
    (by decide) (by decide)).1
  have e : (-1 / 6 * (2 / 3) : ℚ) = -1 / 9 := by norm_num
  rw [← e]; simpa [rval, ival] using h

theorem C23_div {a b : Ratio} (ha : RValid a) (hb : RValid b) (h0 : rval b ≠ 0) :
    ComputesR (div a b) (rval a / rval b) ∧ ComputesR (div_mut a b) (rval a / rval b) := by
  rw [ha.eq_ofRat, hb.eq_ofRat]; simp only [rval_ofRat]
  exact ⟨computesR_of_eq (div_c h0), computesR_of_eq (div_mut_c h0)⟩
example : ComputesR (div ⟨⟨[6], false⟩, ⟨[1], false⟩⟩ ⟨⟨[3], false⟩, ⟨[2], true⟩⟩) (-1 / 4) := by
  have h := (C23_div (a := ⟨⟨[6], false⟩, ⟨[1], false⟩⟩) (b := ⟨⟨[3], false⟩, ⟨[2], true⟩⟩)
    (by decide) (by decide) (by simp [rval, ival])).1
  have e : (6⁻¹ / (-2 / 3) : ℚ) = -1 / 4 := by norm_num
  rw [← e]; simpa [rval, ival] using h

theorem C23_neg_abs {a : Ratio} (ha : RValid a) :
    (RValid (negate a) ∧ rval (negate a) = -rval a) ∧
    (RValid (negate_mut a) ∧ rval (negate_mut a) = -rval a) ∧
    (RValid (Ratio.abs a) ∧ rval (Ratio.abs a) = |rval a|) ∧
    (RValid (abs_mut a) ∧ rval (abs_mut a) = |rval a|) := by
  rw [ha.eq_ofRat, negate_c, negate_mut_c, abs_c, abs_mut_c]
  simp only [rval_ofRat, rvalid_ofRat, and_self]
example : rval (Ratio.abs ⟨⟨[6], false⟩, ⟨[1], true⟩⟩) = 1 / 6 := by
  have h := (C23_neg_abs (a := ⟨⟨[6], false⟩, ⟨[1], true⟩⟩) (by decide)).2.2.1.2
  have e : |(-1 / 6 : ℚ)| = 1 / 6 := by rw [abs_of_neg] <;> norm_num
  rw [h, ← e]; simp [rval, ival]

theorem C23_reci {a : Ratio} (ha : RValid a) (h0 : rval a ≠ 0) :
    ComputesR (reci a) (rval a)⁻¹ ∧ ComputesR (reci_mut a) (rval a)⁻¹ := by
  rw [ha.eq_ofRat]; simp only [rval_ofRat]
  exact ⟨computesR_of_eq (reci_c h0), computesR_of_eq (reci_c h0)⟩
example : ComputesR (reci ⟨⟨[3], false⟩, ⟨[2], true⟩⟩) (-3 / 2) := by
  have h := (C23_reci (a := ⟨⟨[3], false⟩, ⟨[2], true⟩⟩) (by decide) (by simp [rval, ival])).1
  have e : (-2 / 3 : ℚ)⁻¹ = -3 / 2 := by norm_num
  rw [← e]; simpa [rval, ival] using h

theorem C23_bi {a : Ratio} {k : BigI} (ha : RValid a) (hk : IValid k) :
    ComputesR (add_bi a k) (rval a + ival k) ∧ ComputesR (add_bi_mut a k) (rval a + ival k) ∧
    ComputesR (sub_bi a k) (rval a - ival k) ∧ ComputesR (sub_bi_mut a k) (rval a - ival k) ∧
    ComputesR (mul_bi a k) (rval a * ival k) ∧ ComputesR (mul_bi_mut a k) (rval a * ival k) ∧
    (ival k ≠ 0 → ComputesR (div_bi a k) (rval a / ival k) ∧
      ComputesR (div_bi_mut a k) (rval a / ival k)) := by
  rw [ha.eq_ofRat, hk.eq_ofInt]; simp only [rval_ofRat, ival_ofInt]
  exact ⟨computesR_of_eq (add_bi_c ..), computesR_of_eq (add_bi_mut_c ..),
    computesR_of_eq (sub_bi_c ..), computesR_of_eq (sub_bi_mut_c ..),
    computesR_of_eq (mul_bi_c ..), computesR_of_eq (mul_bi_mut_c ..),
    fun h => ⟨computesR_of_eq (div_bi_c _ h), computesR_of_eq (div_bi_mut_c _ h)⟩⟩
example : ComputesR (mul_bi ⟨⟨[6], false⟩, ⟨[1], true⟩⟩ ⟨[4], true⟩) (2 / 3) := by
  have h := (C23_bi (a := ⟨⟨[6], false⟩, ⟨[1], true⟩⟩) (k := ⟨[4], true⟩) (by decide)
    (by decide)).2.2.2.2.1
  have e : (-1 / 6 * -4 : ℚ) = 2 / 3 := by norm_num
  rw [← e]; simpa [rval, ival] using h

/-- Operations with an `i32`.  Missing from the claim: `i32::MIN`, where all of them panic
(`C23_i32_min_counterexample`). -/
theorem C23_i32_partial {a : Ratio} {o : Int} (ha : RValid a) (ho : IsI32 o) (h' : o ≠ -2 ^ 31) :
    ComputesR (add_i32 a o) (rval a + o) ∧ ComputesR (add_i32_mut a o) (rval a + o) ∧
    ComputesR (sub_i32 a o) (rval a - o) ∧ ComputesR (sub_i32_mut a o) (rval a - o) ∧
    ComputesR (mul_i32 a o) (rval a * o) ∧ ComputesR (mul_i32_mut a o) (rval a * o) ∧
    (o ≠ 0 → ComputesR (div_i32 a o) (rval a / o) ∧ ComputesR (div_i32_mut a o) (rval a / o)) := by
  norm_num at h'
  rw [ha.eq_ofRat]; simp only [rval_ofRat]
  exact ⟨computesR_of_eq (add_i32_c _ ho h'), computesR_of_eq (add_i32_mut_c _ ho h'),
    computesR_of_eq (sub_i32_c _ ho h'), computesR_of_eq (sub_i32_mut_c _ ho h'),
    computesR_of_eq (mul_i32_c _ ho h'), computesR_of_eq (mul_i32_mut_c _ ho h'),
    fun h => ⟨computesR_of_eq (div_i32_c _ ho h' h), computesR_of_eq (div_i32_mut_c _ ho h' h)⟩⟩
example : ComputesR (div_i32 ⟨⟨[6], false⟩, ⟨[1], true⟩⟩ (-4)) (1 / 24) := by
  have h := ((C23_i32_partial (a := ⟨⟨[6], false⟩, ⟨[1], true⟩⟩) (o := -4) (by decide)
    (by unfold IsI32; omega) (by norm_num)).2.2.2.2.2.2 (by norm_num)).1
  have e : (-1 / 6 / ((-4 : Int) : ℚ) : ℚ) = 1 / 24 := by norm_num
  rw [← e]; simpa [rval, ival] using h

theorem mul_i32_min (a : BigI) : BigI.mul_i32 a (-2147483648) = throw .overflow := by
  rw [BigI.mul_i32, BigI.i32Abs_min]; rfl
theorem mul_i32_mut_min (a : BigI) : BigI.mul_i32_mut a (-2147483648) = throw .overflow := by
  rw [BigI.mul_i32_mut, BigI.i32Abs_min]; rfl

/-- On `i32::MIN` every `_i32` operation panics, whatever the left operand. -/
theorem C23_i32_min_counterexample (a : Ratio) :
    Panics (add_i32 a (-2 ^ 31)) ∧ Panics (add_i32_mut a (-2 ^ 31)) ∧
    Panics (sub_i32 a (-2 ^ 31)) ∧ Panics (sub_i32_mut a (-2 ^ 31)) ∧
    Panics (mul_i32 a (-2 ^ 31)) ∧ Panics (mul_i32_mut a (-2 ^ 31)) ∧
    Panics (div_i32 a (-2 ^ 31)) ∧ Panics (div_i32_mut a (-2 ^ 31)) := by
  have e : (-2 ^ 31 : Int) = -2147483648 := by norm_num
  rw [e]
  refine ⟨⟨.overflow, ?_⟩, ⟨.overflow, ?_⟩, ⟨.overflow, ?_⟩, ⟨.overflow, ?_⟩, ⟨.overflow, ?_⟩,
    ⟨.overflow, ?_⟩, ⟨.overflow, ?_⟩, ⟨.overflow, ?_⟩⟩
  · rw [add_i32, mul_i32_min]; rfl
  · rw [add_i32_mut, mul_i32_min]; rfl
  · rw [sub_i32, mul_i32_min]; rfl
  · rw [sub_i32_mut, mul_i32_min]; rfl
  · rw [mul_i32, mul_i32_min]; rfl
  · rw [mul_i32_mut, mul_i32_mut_min]; rfl
  · rw [div_i32, mul_i32_min]; rfl
  · rw [div_i32_mut, mul_i32_mut_min]; rfl

/-- Building a `Ratio` from a numerator and a nonzero denominator. -/
theorem C23_from_denom_and_numer {d n : BigI} (hd : IValid d) (hn : IValid n) (h0 : ival d ≠ 0) :
    ComputesR (from_denom_and_numer d n) (ival n / ival d) := by
  rw [hd.eq_ofInt, hn.eq_ofInt]; simp only [ival_ofInt]
  exact computesR_of_eq (from_dn_c h0 rfl)
example : ComputesR (from_denom_and_numer ⟨[6], true⟩ ⟨[4], false⟩) (-2 / 3) := by
  have h := C23_from_denom_and_numer (d := ⟨[6], true⟩) (n := ⟨[4], false⟩) (by decide) (by decide)
    (by simp [ival])
  have e : (4 / -6 : ℚ) = -2 / 3 := by norm_num
  rw [← e]; simpa [ival] using h

/-- The `i32` version.  Missing from the claim: an operand `i32::MIN`, on which it panics
(`C23_from_i32_min_counterexample`). -/
theorem C23_from_denom_and_numer_i32_partial {d n : Int} (hd : IsI32 d) (hn : IsI32 n)
    (hd' : d ≠ -2 ^ 31) (hn' : n ≠ -2 ^ 31) (h0 : d ≠ 0) :
    ComputesR (from_denom_and_numer_i32 d n) (n / d) := by
  norm_num at hd' hn'
  exact computesR_of_eq (from_dn_i32_c hd hn hd' hn' h0)
example : ComputesR (from_denom_and_numer_i32 (-6) 4) (-2 / 3) := by
  have h := C23_from_denom_and_numer_i32_partial (d := -6) (n := 4) (by unfold IsI32; omega)
    (by unfold IsI32; omega) (by norm_num) (by norm_num) (by norm_num)
  have e : (4 / -6 : ℚ) = -2 / 3 := by norm_num
  rw [← e]; simpa [ival] using h

theorem C23_from_i32_min_counterexample (n : Int) :
    Panics (from_denom_and_numer_i32 (-2 ^ 31) n) ∧ Panics (from_denom_and_numer_i32 n (-2 ^ 31)) ∧
    Panics (from_i32 (-2 ^ 31)) := by
  have e : (-2 ^ 31 : Int) = -2147483648 := by norm_num
  rw [e]
  refine ⟨⟨.overflow, ?_⟩, ⟨.overflow, ?_⟩, ⟨.overflow, ?_⟩⟩
  · rw [from_denom_and_numer_i32, gcd_i32, BigI.i32Abs_min]; rfl
  · rw [from_denom_and_numer_i32, gcd_i32, BigI.i32Abs_min, i32AbsU32]
    split_ifs <;> rfl
  · rw [from_i32, BigI.from_i32, BigI.i32Abs_min]; rfl

/-- `common_denom` returns the two numerators over the least common denominator. -/
theorem C23_common_denom {a b : Ratio} (ha : RValid a) (hb : RValid b) :
    ∃ x y d, common_denom a b = pure (x, y, d) ∧ IValid x ∧ IValid y ∧ IValid d ∧
      ival d = Nat.lcm (ival a.denom).natAbs (ival b.denom).natAbs ∧
      (ival x : ℚ) / ival d = rval a ∧ (ival y : ℚ) / ival d = rval b := by
  obtain ⟨x, y, d, h1, h2, h3, h4⟩ := common_denom_c (rval a) (rval b)
  rw [← ha.eq_ofRat, ← hb.eq_ofRat] at h1
  refine ⟨_, _, _, h1, ivalid_ofInt _, ivalid_ofInt _, ivalid_ofInt _, ?_⟩
  simp only [ival_ofInt]
  have e1 : (ival a.denom).natAbs = (rval a).den := by
    conv_lhs => rw [ha.eq_ofRat]
    simp
  have e2 : (ival b.denom).natAbs = (rval b).den := by
    conv_lhs => rw [hb.eq_ofRat]
    simp
  rw [e1, e2]; exact ⟨h2, h3, h4⟩
example : RValid ⟨⟨[6], false⟩, ⟨[1], true⟩⟩ ∧ RValid ⟨⟨[4], false⟩, ⟨[3], false⟩⟩ ∧
    (Nat.lcm 6 4 : Nat) = 12 := by decide

/-! ## C24 division by zero -/

theorem C24_panics_bi_reci {a : Ratio} {k : BigI} (ha : RValid a) (hk : IValid k)
    (h : ival k = 0) : Panics (div_bi a k) ∧ Panics (div_bi_mut a k) ∧
      (rval a = 0 → Panics (reci a) ∧ Panics (reci_mut a)) := by
  rw [ha.eq_ofRat, hk.eq_ofInt, h]
  refine ⟨⟨_, div_bi_zero _⟩, ⟨_, div_bi_zero _⟩, fun h2 => ?_⟩
  rw [rval_ofRat] at h2
  rw [h2]; exact ⟨⟨_, reci_zero⟩, ⟨_, reci_zero⟩⟩
example : Panics (div_bi ⟨⟨[6], false⟩, ⟨[1], true⟩⟩ ⟨[0], false⟩) :=
  (C24_panics_bi_reci (by decide) (by decide) (by simp [ival])).1

/-- What the claim says of `div`, `div_mut`, `div_i32` holds only for a zero dividend: `0/0`
panics.  Missing: nonzero dividends, where the claim is false (`C24_counterexample`). -/
theorem C24_div_partial {a b : Ratio} (ha : RValid a) (hb : RValid b) (h : rval b = 0)
    (h0 : rval a = 0) : Panics (div a b) ∧ Panics (div_mut a b) ∧ Panics (div_i32 a 0) ∧
      Panics (div_i32_mut a 0) := by
  rw [ha.eq_ofRat, hb.eq_ofRat, h, h0]
  have i0 : IsI32 0 := by unfold IsI32; omega
  refine ⟨⟨.divZero, ?_⟩, ⟨.divZero, ?_⟩, ⟨.divZero, ?_⟩, ⟨.divZero, ?_⟩⟩
  · simp only [Ratio.div, denom_ofRat, numer_ofRat, BigI.mul_c, pure_bind]
    exact fit_zero_zero
  · simp only [div_mut, denom_ofRat, numer_ofRat, BigI.mul_mut_c, pure_bind]
    exact fit_zero_zero
  · simp only [div_i32, denom_ofRat, numer_ofRat, BigI.mul_i32_c i0 (by norm_num), pure_bind]
    exact fit_zero_zero
  · simp only [div_i32_mut, denom_ofRat, numer_ofRat, BigI.mul_i32_mut_c i0 (by norm_num), pure_bind]
    exact fit_zero_zero
example : Panics (Ratio.div ⟨⟨[1], false⟩, ⟨[0], false⟩⟩ ⟨⟨[1], false⟩, ⟨[0], false⟩⟩) :=
  (C24_div_partial (by decide) (by decide) (by simp [rval, ival]) (by simp [rval, ival])).1

/-- Dividing any nonzero `Ratio` by zero with `div`, `div_mut`, `div_i32`, `div_i32_mut` returns
a `Ratio` whose denominator is zero; so does `from_denom_and_numer` with denominator zero and
nonzero numerator. -/
theorem C24_counterexample {a b : Ratio} (ha : RValid a) (hb : RValid b) (h : rval b = 0)
    (h0 : rval a ≠ 0) :
    (∃ c, div a b = pure c ∧ ival c.denom = 0) ∧ (∃ c, div_mut a b = pure c ∧ ival c.denom = 0) ∧
    (∃ c, div_i32 a 0 = pure c ∧ ival c.denom = 0) ∧
    (∃ c, div_i32_mut a 0 = pure c ∧ ival c.denom = 0) ∧
    (∃ c, from_denom_and_numer BigI.zero a.numer = pure c ∧ ival c.denom = 0) := by
  rw [ha.eq_ofRat, hb.eq_ofRat, h]
  have i0 : IsI32 0 := by unfold IsI32; omega
  have hn : (rval a).num ≠ 0 := by simpa using h0
  have z0 : (rval a).num * ((0 : ℚ).den : Int) ≠ 0 := by simpa using hn
  have z : ∀ n : Int, ival (⟨ofInt 0, ofInt n⟩ : Ratio).denom = 0 := fun n => ival_ofInt 0
  refine ⟨⟨_, Eq.trans ?_ (fit_zero z0), z _⟩, ⟨_, Eq.trans ?_ (fit_zero z0), z _⟩,
    ⟨_, Eq.trans ?_ (fit_zero hn), z _⟩, ⟨_, Eq.trans ?_ (fit_zero hn), z _⟩,
    ⟨_, Eq.trans ?_ (fit_zero hn), z _⟩⟩
  · simp only [Ratio.div, denom_ofRat, numer_ofRat, BigI.mul_c, pure_bind, Rat.num_zero, mul_zero]
    rfl
  · simp only [div_mut, denom_ofRat, numer_ofRat, BigI.mul_mut_c, pure_bind, Rat.num_zero, mul_zero]
  · simp only [div_i32, denom_ofRat, numer_ofRat, BigI.mul_i32_c i0 (by norm_num), pure_bind,
      mul_zero]
    rfl
  · simp only [div_i32_mut, denom_ofRat, numer_ofRat, BigI.mul_i32_mut_c i0 (by norm_num), pure_bind,
      mul_zero]
  · rw [BigI.zero_c]; rfl
example : ∃ c, Ratio.div ⟨⟨[6], false⟩, ⟨[1], true⟩⟩ ⟨⟨[1], false⟩, ⟨[0], false⟩⟩ = pure c ∧
    ival c.denom = 0 :=
  (C24_counterexample (by decide) (by decide) (by simp [rval, ival]) (by simp [rval, ival])).1

/-! ## C25 comparisons -/

theorem C25_comp {a b : Ratio} (ha : RValid a) (hb : RValid b) :
    lt a b = pure (decide (rval a < rval b)) ∧ gt a b = pure (decide (rval a > rval b)) ∧
    leq a b = pure (decide (rval a ≤ rval b)) ∧ geq a b = pure (decide (rval a ≥ rval b)) ∧
    eq a b = decide (rval a = rval b) ∧ neq a b = decide (rval a ≠ rval b) ∧
    comp a b = pure (compare (rval a) (rval b)) := by
  rw [ha.eq_ofRat, hb.eq_ofRat]; simp only [rval_ofRat]
  exact ⟨lt_c .., gt_c .., leq_c .., geq_c .., eq_c .., neq_c .., comp_c ..⟩
example : lt ⟨⟨[6], false⟩, ⟨[5], true⟩⟩ ⟨⟨[7], false⟩, ⟨[5], true⟩⟩ = pure true := by
  have h := (C25_comp (a := ⟨⟨[6], false⟩, ⟨[5], true⟩⟩) (b := ⟨⟨[7], false⟩, ⟨[5], true⟩⟩)
    (by decide) (by decide)).1
  have e : (-5 / 6 : ℚ) < -5 / 7 := by norm_num
  rw [h]; simp [rval, ival, e]

theorem C25_one_zero_int {a : Ratio} (ha : RValid a) :
    lt_one a = decide (rval a < 1) ∧ gt_one a = decide (1 < rval a) ∧
    is_one a = decide (rval a = 1) ∧ is_zero a = decide (rval a = 0) ∧
    is_neg a = decide (rval a < 0) ∧ (is_integer a = true ↔ ∃ n : Int, rval a = n) := by
  rw [ha.eq_ofRat]; simp only [rval_ofRat]
  refine ⟨lt_one_c .., gt_one_c .., is_one_c .., is_zero_c .., is_neg_c .., ?_⟩
  rw [is_integer_c, decide_eq_true_iff]
  constructor
  · intro h; exact ⟨_, int_of_den _ h⟩
  · rintro ⟨n, h⟩; rw [h]; exact Rat.den_intCast n
example : gt_one ⟨⟨[6], false⟩, ⟨[7], false⟩⟩ = true := by
  have h := (C25_one_zero_int (a := ⟨⟨[6], false⟩, ⟨[7], false⟩⟩) (by decide)).2.1
  have e : (1 : ℚ) < 7 / 6 := by norm_num
  rw [h]; simpa [rval, ival] using e

/-- Missing from the claim: `i32::MIN`, where these panic (`C25_i32_min_counterexample`). -/
theorem C25_i32_partial {a : Ratio} {o : Int} (ha : RValid a) (ho : IsI32 o) (h' : o ≠ -2 ^ 31) :
    lt_i32 a o = pure (decide (rval a < o)) ∧ gt_i32 a o = pure (decide (rval a > o)) ∧
    leq_i32 a o = pure (decide (rval a ≤ o)) ∧ geq_i32 a o = pure (decide (rval a ≥ o)) ∧
    comp_i32 a o = pure (compare (rval a) o) := by
  norm_num at h'
  rw [ha.eq_ofRat]; simp only [rval_ofRat]
  exact ⟨lt_i32_c ho h', gt_i32_c ho h', leq_i32_c ho h', geq_i32_c ho h', comp_i32_c ho h'⟩
example : gt_i32 ⟨⟨[6], false⟩, ⟨[7], true⟩⟩ (-2) = pure true := by
  have h := (C25_i32_partial (a := ⟨⟨[6], false⟩, ⟨[7], true⟩⟩) (o := -2) (by decide)
    (by unfold IsI32; omega) (by norm_num)).2.1
  have e : (-2 : ℚ) < -7 / 6 := by norm_num
  rw [h]; simp [rval, ival, e]

/-- Missing from the claim: integers of magnitude at least `2^32` with the sign of the `i32`,
where `eq_i32`, `neq_i32` panic (`C25_eq_i32_counterexample`), and `i32::MIN` against a negative
integer. -/
theorem C25_eq_i32_partial {a : Ratio} {o : Int} (ha : RValid a) (ho : IsI32 o)
    (h' : o ≠ -2 ^ 31) (hx : |rval a| < 2 ^ 32) :
    eq_i32 a o = pure (decide (rval a = o)) ∧ neq_i32 a o = pure (decide (rval a ≠ o)) := by
  norm_num at h'
  rw [ha.eq_ofRat] at hx ⊢; simp only [rval_ofRat] at hx ⊢
  have h := eq_i32_c (p := rval a) ho (fun h => absurd h h') (fun _ _ => hx)
  exact ⟨h, by rw [neq_i32, h, pure_bind, ← decide_not]⟩
example : eq_i32 ⟨⟨[1], false⟩, ⟨[7], true⟩⟩ (-7) = pure true := by
  have h := (C25_eq_i32_partial (a := ⟨⟨[1], false⟩, ⟨[7], true⟩⟩) (o := -7) (by decide)
    (by unfold IsI32; omega) (by norm_num) (by simp [rval, ival]; norm_num)).1
  rw [h]; simp [rval, ival]

theorem C25_eq_i32_counterexample {a : Ratio} {o : Int} (ha : RValid a)
    (hi : ∃ n : Int, rval a = n) (h : rval a < 0 ↔ o < 0) (hx : 2 ^ 32 ≤ |rval a|) :
    Panics (eq_i32 a o) ∧ Panics (neq_i32 a o) := by
  have hd : (rval a).den = 1 := by obtain ⟨n, hn⟩ := hi; rw [hn]; exact Rat.den_intCast n
  rw [ha.eq_ofRat]
  have e := eq_i32_panics hd h hx
  exact ⟨⟨_, e⟩, ⟨.unwrap, by rw [neq_i32, e]; rfl⟩⟩
example : Panics (eq_i32 ⟨⟨[1], false⟩, ⟨[0, 1], false⟩⟩ 3) :=
  (C25_eq_i32_counterexample (a := ⟨⟨[1], false⟩, ⟨[0, 1], false⟩⟩) (o := 3) (by decide)
    ⟨4294967296, by simp [rval, ival, val, Nat.ofDigits]⟩ (by simp [rval, ival])
    (by simp [rval, ival, val, Nat.ofDigits]; norm_num)).1

theorem C25_i32_min_counterexample (a : Ratio) :
    Panics (lt_i32 a (-2 ^ 31)) ∧ Panics (gt_i32 a (-2 ^ 31)) ∧ Panics (leq_i32 a (-2 ^ 31)) ∧
    Panics (geq_i32 a (-2 ^ 31)) ∧ Panics (comp_i32 a (-2 ^ 31)) := by
  have e : (-2 ^ 31 : Int) = -2147483648 := by norm_num
  rw [e]
  refine ⟨⟨.overflow, ?_⟩, ⟨.overflow, ?_⟩, ⟨.overflow, ?_⟩, ⟨.overflow, ?_⟩, ⟨.overflow, ?_⟩⟩
  · rw [lt_i32, mul_i32_min]; rfl
  · rw [gt_i32, mul_i32_min]; rfl
  · rw [leq_i32, gt_i32, mul_i32_min]; rfl
  · rw [geq_i32, lt_i32, mul_i32_min]; rfl
  · rw [comp_i32, mul_i32_min]; rfl

/-! ## C26 truncate, frac, floor, round -/

/-- The truncation of `q` towards zero, described by its defining inequalities. -/
def IsTrunc (q : ℚ) (n : Int) : Prop := |(n : ℚ)| ≤ |q| ∧ |q| < |(n : ℚ)| + 1 ∧ 0 ≤ n * q

theorem isTrunc_qtrunc (q : ℚ) : IsTrunc q (qtrunc q) := by
  have key : ∀ q : ℚ, 0 ≤ q → IsTrunc q (qtrunc q) := by
    intro q hq
    have h1 := Int.floor_le q
    have h2 := Int.lt_floor_add_one q
    have h3 : (0 : ℚ) ≤ ⌊q⌋ := by exact_mod_cast Int.floor_nonneg.2 hq
    rw [qtrunc_nonneg q hq]
    refine ⟨?_, ?_, ?_⟩
    · rw [abs_of_nonneg h3, abs_of_nonneg hq]; exact h1
    · rw [abs_of_nonneg h3, abs_of_nonneg hq]; exact h2
    · exact mul_nonneg h3 hq
  rcases le_total 0 q with h | h
  · exact key q h
  · have := key (-q) (by linarith)
    rw [qtrunc_neg] at this
    unfold IsTrunc at *
    push_cast at this
    rw [abs_neg, abs_neg, neg_mul_neg] at this
    exact this

theorem isTrunc_unique {q : ℚ} {m n : Int} (h1 : IsTrunc q m) (h2 : IsTrunc q n) : m = n := by
  obtain ⟨a1, a2, a3⟩ := h1
  obtain ⟨b1, b2, b3⟩ := h2
  have e : |m| = |n| := by
    have c1 : (|m| : Int) < |n| + 1 := by
      have : |(m : ℚ)| < |(n : ℚ)| + 1 := lt_of_le_of_lt a1 b2
      exact_mod_cast this
    have c2 : (|n| : Int) < |m| + 1 := by
      have : |(n : ℚ)| < |(m : ℚ)| + 1 := lt_of_le_of_lt b1 a2
      exact_mod_cast this
    omega
  rcases abs_eq_abs.1 e with h | h
  · exact h
  · subst h
    by_cases hn : n = 0
    · subst hn; rfl
    exfalso
    have hq : q ≠ 0 := by
      rintro rfl
      rw [abs_zero, abs_nonpos_iff] at b1
      exact hn (by exact_mod_cast b1)
    push_cast at a3
    have : (n : ℚ) * q = 0 := by linarith
    rcases mul_eq_zero.1 this with h | h
    · exact hn (by exact_mod_cast h)
    · exact hq h

/-- `truncate_bi`, `truncate`, `truncate_mut` all return the truncation towards zero. -/
theorem C26_truncate {a : Ratio} (ha : RValid a) :
    ∃ n : Int, IsTrunc (rval a) n ∧ ComputesI (truncate_bi a) n ∧ ComputesR (truncate a) n ∧
      ComputesR (truncate_mut a) n := by
  refine ⟨qtrunc (rval a), isTrunc_qtrunc _, ?_⟩
  rw [ha.eq_ofRat]; simp only [rval_ofRat]
  exact ⟨computesI_of_eq (truncate_bi_c _), computesR_of_eq (truncate_c _),
    computesR_of_eq (truncate_mut_c _)⟩
example : ComputesI (truncate_bi ⟨⟨[2], false⟩, ⟨[7], true⟩⟩) (-3) := by
  obtain ⟨n, h1, h2, -⟩ := C26_truncate (a := ⟨⟨[2], false⟩, ⟨[7], true⟩⟩) (by decide)
  have : n = -3 := isTrunc_unique h1 (by
    have e : rval ⟨⟨[2], false⟩, ⟨[7], true⟩⟩ = -7 / 2 := by simp [rval, ival]
    rw [e]; unfold IsTrunc; norm_num [abs_of_nonneg, abs_of_nonpos])
  rwa [this] at h2

/-- `frac` is what truncation leaves, and `truncate_and_frac` returns both. -/
theorem C26_frac {a : Ratio} (ha : RValid a) :
    ∃ n : Int, IsTrunc (rval a) n ∧ ComputesR (frac a) (rval a - n) ∧
      ComputesR (frac_mut a) (rval a - n) ∧
      ∃ x y, truncate_and_frac a = pure (x, y) ∧ IValid x ∧ ival x = n ∧ RValid y ∧
        rval y = rval a - n := by
  refine ⟨qtrunc (rval a), isTrunc_qtrunc _, ?_⟩
  rw [ha.eq_ofRat]; simp only [rval_ofRat]
  exact ⟨computesR_of_eq (frac_c _), computesR_of_eq (frac_mut_c _), _, _, truncate_and_frac_c _,
    ivalid_ofInt _, ival_ofInt _, rvalid_ofRat _, rval_ofRat _⟩
example : ComputesR (frac ⟨⟨[2], false⟩, ⟨[7], true⟩⟩) (-1 / 2) := by
  obtain ⟨n, h1, h2, -⟩ := C26_frac (a := ⟨⟨[2], false⟩, ⟨[7], true⟩⟩) (by decide)
  have e : rval ⟨⟨[2], false⟩, ⟨[7], true⟩⟩ = -7 / 2 := by simp [rval, ival]
  have : n = -3 := isTrunc_unique h1 (by
    rw [e]; unfold IsTrunc; norm_num [abs_of_nonneg, abs_of_nonpos])
  rw [this, e] at h2
  have e2 : (-7 / 2 - ((-3 : Int) : ℚ) : ℚ) = -1 / 2 := by norm_num
  rwa [e2] at h2

theorem C26_floor {a : Ratio} (ha : RValid a) :
    ∃ n : Int, ((n : ℚ) ≤ rval a ∧ rval a < n + 1) ∧ ComputesI (floor_bi a) n ∧
      ComputesR (floor a) n := by
  refine ⟨⌊rval a⌋, ⟨Int.floor_le _, Int.lt_floor_add_one _⟩, ?_⟩
  rw [ha.eq_ofRat]; simp only [rval_ofRat]
  exact ⟨computesI_of_eq (floor_bi_c _), computesR_of_eq (floor_c _)⟩
example : ComputesI (floor_bi ⟨⟨[2], false⟩, ⟨[7], true⟩⟩) (-4) := by
  obtain ⟨n, ⟨h1, h2⟩, h3, -⟩ := C26_floor (a := ⟨⟨[2], false⟩, ⟨[7], true⟩⟩) (by decide)
  have e : rval ⟨⟨[2], false⟩, ⟨[7], true⟩⟩ = -7 / 2 := by simp [rval, ival]
  rw [e] at h1 h2
  have : n = -4 := by
    have g1 : (n : ℚ) < -3 := by linarith
    have g2 : (-5 : ℚ) < n := by linarith
    have g1' : n < -3 := by exact_mod_cast g1
    have g2' : -5 < n := by exact_mod_cast g2
    omega
  rwa [this] at h3

/-- `n` is a nearest integer to `q`, and a half is rounded away from zero. -/
def IsRound (q : ℚ) (n : Int) : Prop :=
  |q - n| ≤ 1 / 2 ∧ (|q - n| = 1 / 2 → |q| < |(n : ℚ)|)

theorem isRound_qround (q : ℚ) : IsRound q (qround q) := by
  have key : ∀ q : ℚ, 0 ≤ q → IsRound q ⌊q + 1/2⌋ := by
    intro q hq
    have h1 := Int.floor_le (q + 1/2)
    have h2 := Int.lt_floor_add_one (q + 1/2)
    have h3 : (0 : ℚ) ≤ ⌊q + 1/2⌋ := by exact_mod_cast Int.floor_nonneg.2 (by linarith)
    refine ⟨abs_le.2 ⟨by linarith, by linarith⟩, fun h => ?_⟩
    rw [abs_of_nonneg hq, abs_of_nonneg h3]
    rcases abs_cases (q - ⌊q + 1/2⌋) with ⟨e, _⟩ | ⟨e, _⟩ <;> linarith
  rw [qround]
  split_ifs with h
  · have := key (-q) (by linarith)
    unfold IsRound at *
    push_cast
    rw [abs_neg] at this
    have e : |-q - (⌊-q + 1/2⌋ : ℚ)| = |q - -(⌊-q + 1/2⌋ : ℚ)| := by
      rw [← abs_neg]; congr 1; ring
    rw [e] at this
    rw [abs_neg]; exact this
  · exact key q (not_lt.1 h)

theorem C26_round {a : Ratio} (ha : RValid a) :
    ∃ n : Int, IsRound (rval a) n ∧ ComputesI (round_bi a) n ∧ ComputesR (round a) n := by
  refine ⟨qround (rval a), isRound_qround _, ?_⟩
  rw [ha.eq_ofRat]; simp only [rval_ofRat]
  exact ⟨computesI_of_eq (round_bi_c _), computesR_of_eq (round_c _)⟩
example : ComputesI (round_bi ⟨⟨[2], false⟩, ⟨[7], true⟩⟩) (-4) := by
  have h := round_bi_c (-7 / 2)
  have e : ofRat (-7 / 2) = ⟨⟨[2], false⟩, ⟨[7], true⟩⟩ := by
    rw [← mk_c (d := 2) (n := -7) (by norm_num) (by decide) (by norm_num)]
    simp [ofInt, ofNat_lt]
  have e2 : qround (-7 / 2) = -4 := by
    rw [qround, if_pos (by norm_num)]
    have : ⌊-(-7 / 2 : ℚ) + 1/2⌋ = 4 := by rw [Int.floor_eq_iff]; norm_num
    rw [this]
  rw [e, e2] at h
  exact computesI_of_eq h

/-! ## C27 powers -/

/-- Missing from the claim: the exponent `i32::MIN`, which panics (`C27_min_counterexample`). -/
theorem C27_pow_partial {a : Ratio} {e : Int} (ha : RValid a) (he : IsI32 e) (hm : e ≠ -2 ^ 31)
    (h0 : e < 0 → rval a ≠ 0) :
    ComputesR (pow_i32 a e) (rval a ^ e) ∧ ComputesR (pow_i32_mut a e) (rval a ^ e) := by
  norm_num at hm
  have h : pow_i32 (ofRat (rval a)) e = pure (ofRat (rval a ^ e)) := by
    by_cases hs : e < 0
    · exact pow_i32_neg _ he hs hm (h0 hs)
    · exact pow_i32_nonneg _ he (not_lt.1 hs)
  rw [ha.eq_ofRat]; simp only [rval_ofRat]
  exact ⟨computesR_of_eq h, computesR_of_eq (by rw [pow_i32_mut_eq _ he hm, h])⟩
example : ComputesR (pow_i32 ⟨⟨[2], false⟩, ⟨[3], true⟩⟩ (-3)) (-8 / 27) := by
  have h := (C27_pow_partial (a := ⟨⟨[2], false⟩, ⟨[3], true⟩⟩) (e := -3) (by decide)
    (by unfold IsI32; omega) (by norm_num) (by simp [rval, ival])).1
  have e : rval ⟨⟨[2], false⟩, ⟨[3], true⟩⟩ = -3 / 2 := by simp [rval, ival]
  have e2 : (-3 / 2 : ℚ) ^ (-3 : Int) = -8 / 27 := by norm_num
  rw [e, e2] at h; exact h

theorem C27_min_counterexample (a : Ratio) :
    Panics (pow_i32 a (-2 ^ 31)) ∧ Panics (pow_i32_mut a (-2 ^ 31)) := by
  have e : (-2 ^ 31 : Int) = -2147483648 := by norm_num
  rw [e]
  refine ⟨⟨.overflow, ?_⟩, ⟨.overflow, ?_⟩⟩
  · rw [pow_i32, BigI.i32Abs_min]; rfl
  · rw [pow_i32_mut, BigI.i32Abs_min]; rfl

/-- A negative power of zero panics. -/
theorem C27_zero_neg_panics {a : Ratio} {e : Int} (ha : RValid a) (h : rval a = 0)
    (he : IsI32 e) (hs : e < 0) : Panics (pow_i32 a e) := by
  by_cases hm : e = -2147483648
  · subst hm; exact (C27_min_counterexample a).1
  · rw [ha.eq_ofRat, h]; exact ⟨_, pow_i32_zero_neg he hs hm⟩
example : Panics (pow_i32 ⟨⟨[1], false⟩, ⟨[0], false⟩⟩ (-1)) :=
  C27_zero_neg_panics (by decide) (by simp [rval, ival]) (by unfold IsI32; omega) (by norm_num)

/-! ## C47 shrink -/

/-- `shrink` never panics and returns a well-formed `Ratio` within relative error `2^-64` of the
original (so of the same sign); `Ok` means that both components then fit in `limit` limbs, and a
`Ratio` that fits already is unchanged and reported `Ok(0)`. -/
theorem C47_shrink {a : Ratio} (ha : RValid a) (limit : Nat) :
    ∃ b r, shrink a limit = pure (b, r) ∧ RValid b ∧ |rval b - rval a| ≤ |rval a| / 2 ^ 64 ∧
      (∀ n, r = .ok n → b.denom.mag.length ≤ limit ∧ b.numer.mag.length ≤ limit) ∧
      (a.denom.mag.length ≤ limit → a.numer.mag.length ≤ limit →
        b = a ∧ (3 ≤ limit → r = .ok 0)) := by
  obtain ⟨q, r, h1, h2, h3, h4⟩ := shrink_c (rval a) limit
  rw [← ha.eq_ofRat] at h1 h4
  refine ⟨_, r, h1, rvalid_ofRat q, ?_, fun n hn => (h3 n hn).2, fun g1 g2 => ?_⟩
  · rw [rval_ofRat, le_div_iff₀ (by norm_num)]; exact h2
  · obtain ⟨e, e2⟩ := h4 ⟨g1, g2⟩
    exact ⟨by rw [e, ← ha.eq_ofRat], e2⟩
example : RValid ⟨⟨[1, 0, 0, 0, 0, 0, 1], false⟩, ⟨[3], true⟩⟩ := by decide

/-- the same sign, as a consequence -/
theorem C47_shrink_sign {a b : Ratio} {r : Except Nat Nat} {limit : Nat} (ha : RValid a)
    (h : shrink a limit = pure (b, r)) :
    (rval b < 0 ↔ rval a < 0) ∧ (rval b = 0 ↔ rval a = 0) := by
  obtain ⟨b', r', h1, -, h2, -⟩ := C47_shrink ha limit
  rw [h] at h1
  have hb : b = b' := by
    have := Option.some.inj h1
    have := Except.ok.inj this
    exact (Prod.ext_iff.1 this).1
  subst hb
  generalize rval a = x at *
  generalize rval b = y at *
  have hx : |x| / 2 ^ 64 ≤ |x| / 2 := by
    apply div_le_div_of_nonneg_left (abs_nonneg x) (by norm_num) (by norm_num)
  have := abs_le.1 (h2.trans hx)
  rcases lt_trichotomy x 0 with h | h | h
  · rw [abs_of_neg h] at this
    refine ⟨⟨fun _ => h, fun _ => by linarith⟩, ⟨fun h' => by linarith, fun h' => by linarith⟩⟩
  · subst h; rw [abs_zero] at this
    have : y = 0 := by linarith [this.1, this.2]
    subst this; simp
  · rw [abs_of_pos h] at this
    refine ⟨⟨fun _ => by linarith, fun _ => by linarith⟩, ⟨fun h' => by linarith, fun h' => by linarith⟩⟩
example : shrink ⟨⟨[3], false⟩, ⟨[5], true⟩⟩ 3 = pure (⟨⟨[3], false⟩, ⟨[5], true⟩⟩, .ok 0) := rfl

end Props
end Hmath
