import Verif.Spec.BigInt
import Verif.Proofs.Canon
import Mathlib.Data.Int.GCD

namespace Hmath

/-- the canonical `BigInt` of an integer -/
def ofInt (z : Int) : BigI := ⟨ofNat z.natAbs, decide (z < 0)⟩

theorem ivalid_ofInt (z : Int) : IValid (ofInt z) :=
  ⟨valid_ofNat _, by simp only [ofInt, decide_eq_true_eq, val_ofNat]; omega⟩

@[simp] theorem ival_ofInt (z : Int) : ival (ofInt z) = z := by
  simp only [ival, ofInt, val_ofNat, decide_eq_true_eq]; split_ifs <;> omega

theorem IValid.eq_ofInt {x : BigI} (h : IValid x) : x = ofInt (ival x) := by
  obtain ⟨m, s⟩ := x
  have h1 := h.mag.eq_ofNat
  have h2 := h.sgn
  simp only at h1 h2
  simp only [ofInt, ival, BigI.mk.injEq]
  cases s
  · refine ⟨?_, ?_⟩
    · simp only [Bool.false_eq_true, if_false, Int.natAbs_natCast]; exact h1
    · simp only [Bool.false_eq_true, if_false]; symm; rw [decide_eq_false_iff_not]; omega
  · have := h2 rfl
    refine ⟨?_, ?_⟩
    · simp only [if_true, Int.natAbs_neg, Int.natAbs_natCast]; exact h1
    · simp only [if_true]; symm; rw [decide_eq_true_iff]; omega

theorem computesI_of_eq {m : M BigI} {z : Int} (h : m = pure (ofInt z)) : ComputesI m z :=
  ⟨ofInt z, h, ivalid_ofInt z, ival_ofInt z⟩

namespace BigI

theorem mk_eq {k : Nat} {b : Bool} {z : Int} (h1 : k = z.natAbs) (h2 : b = true ↔ z < 0) :
    (⟨ofNat k, b⟩ : BigI) = ofInt z := by
  subst h1
  rw [ofInt]; congr 1
  rw [Bool.eq_iff_iff, decide_eq_true_eq]; exact h2

theorem from_ubi_c {k : Nat} {b : Bool} {z : Int} (h1 : k = z.natAbs)
    (h2 : z ≠ 0 → (b = true ↔ z < 0)) : from_ubi (ofNat k) b = ofInt z := by
  rw [from_ubi]
  apply mk_eq h1
  rw [UBig.is_zero_c]
  subst h1
  simp only [Bool.and_eq_true, Bool.not_eq_true', decide_eq_false_iff_not, Int.natAbs_eq_zero]
  constructor
  · rintro ⟨h3, h4⟩; exact (h2 h4).1 h3
  · intro h; exact ⟨(h2 (by omega)).2 h, by omega⟩

theorem zero_c : zero = ofInt 0 := by
  simp [zero, ofInt, UBig.zero, ofNat_zero]
theorem one_c : one = ofInt 1 := by
  simp [one, ofInt, UBig.one, ofNat_one]
theorem is_zero_c (z : Int) : is_zero (ofInt z) = decide (z = 0) := by
  rw [is_zero, ofInt, UBig.is_zero_c]; simp
theorem is_one_c (z : Int) : is_one (ofInt z) = decide (z = 1) := by
  rw [is_one, ofInt, UBig.is_one_c, Bool.eq_iff_iff]
  simp only [Bool.and_eq_true, decide_eq_true_eq, Bool.not_eq_true', decide_eq_false_iff_not]
  omega
theorem is_neg_c (z : Int) : is_neg (ofInt z) = decide (z < 0) := rfl
@[simp] theorem mag_ofInt (z : Int) : (ofInt z).mag = ofNat z.natAbs := rfl
@[simp] theorem neg_ofInt (z : Int) : (ofInt z).neg = decide (z < 0) := rfl

theorem from_ubi_nat (n : Nat) : from_ubi (ofNat n) false = ofInt n :=
  from_ubi_c (by simp) (by simp)

section
variable (x y : Int)

theorem absDiff_c : absDiff (ofInt x) (ofInt y) (decide (x.natAbs < y.natAbs)) =
    pure (ofNat (x.natAbs - y.natAbs + (y.natAbs - x.natAbs))) := by
  rw [absDiff]
  simp only [decide_eq_true_eq, mag_ofInt]
  split_ifs with h
  · rw [UBig.sub_c (by omega)]; congr 2; omega
  · rw [UBig.sub_c (by omega)]; congr 2; omega

theorem absDiffMut_c : absDiffMut (ofInt x) (ofInt y) (decide (x.natAbs < y.natAbs)) =
    pure (ofNat (x.natAbs - y.natAbs + (y.natAbs - x.natAbs))) := by
  rw [absDiffMut]
  simp only [decide_eq_true_eq, mag_ofInt]
  split_ifs with h
  · rw [UBig.sub_c (by omega)]; congr 2; omega
  · rw [UBig.sub_mut_c (by omega)]; congr 2; omega


/-- sign of a difference of magnitudes -/
theorem sign_aux (x y : Int) (h : ¬ ((x < 0) ↔ (y < 0))) :
    ((decide (x.natAbs < y.natAbs) ^^ decide (x < 0)) &&
      !decide (x.natAbs - y.natAbs + (y.natAbs - x.natAbs) = 0)) = true ↔ x + y < 0 := by
  by_cases h1 : x.natAbs < y.natAbs <;> by_cases h2 : x < 0 <;> by_cases h3 : y < 0 <;>
    simp only [h1, h2, h3, decide_true, decide_false, Bool.xor_true, Bool.xor_false, Bool.not_true,
      Bool.not_false, Bool.true_and, Bool.false_and, Bool.false_eq_true, false_iff, not_lt,
      Bool.not_eq_true', decide_eq_false_iff_not, iff_true, iff_self, not_true] at h ⊢ <;> omega

theorem add_c : add (ofInt x) (ofInt y) = pure (ofInt (x + y)) := by
  rw [add]
  simp only [neg_ofInt, beq_iff_eq, decide_eq_decide]
  split_ifs with h
  · rw [mag_ofInt, mag_ofInt, UBig.add_c, pure_bind, from_ubi_c (z := x + y) (by omega)]
    rw [decide_eq_true_iff]; omega
  · rw [mag_ofInt, mag_ofInt, UBig.lt_c, absDiff_c, pure_bind, UBig.is_zero_c,
      from_ubi_c (z := x + y) (by omega) (fun _ => sign_aux x y h)]

theorem add_mut_c : add_mut (ofInt x) (ofInt y) = pure (ofInt (x + y)) := by
  rw [add_mut]
  simp only [neg_ofInt, beq_iff_eq, decide_eq_decide]
  split_ifs with h
  · rw [mag_ofInt, mag_ofInt, UBig.add_mut_c, pure_bind, mk_eq (z := x + y) (by omega)]
    rw [decide_eq_true_iff]; omega
  · rw [mag_ofInt, mag_ofInt, UBig.lt_c, absDiffMut_c, pure_bind, UBig.is_zero_c,
      mk_eq (z := x + y) (by omega) (sign_aux x y h)]

theorem sign_aux' (x y : Int) (h : (x < 0) ↔ (y < 0)) :
    ((decide (x.natAbs < y.natAbs) ^^ decide (x < 0)) &&
      !decide (x.natAbs - y.natAbs + (y.natAbs - x.natAbs) = 0)) = true ↔ x - y < 0 := by
  by_cases h1 : x.natAbs < y.natAbs <;> by_cases h2 : x < 0 <;>
    simp only [h1, h2, decide_true, decide_false, Bool.xor_true, Bool.xor_false, Bool.not_true,
      Bool.not_false, Bool.true_and, Bool.false_and, Bool.false_eq_true, false_iff, not_lt,
      Bool.not_eq_true', decide_eq_false_iff_not, iff_true, iff_self, not_true] <;> omega

theorem sub_c : sub (ofInt x) (ofInt y) = pure (ofInt (x - y)) := by
  rw [sub]
  simp only [neg_ofInt, bne_iff_ne, ne_eq, decide_eq_decide]
  split_ifs with h
  · rw [mag_ofInt, mag_ofInt, UBig.lt_c, absDiff_c, pure_bind, UBig.is_zero_c,
      from_ubi_c (z := x - y) (by omega) (fun _ => sign_aux' x y h)]
  · rw [mag_ofInt, mag_ofInt, UBig.add_c, pure_bind, from_ubi_c (z := x - y) (by omega)]
    rw [decide_eq_true_iff]; omega

theorem sub_mut_c : sub_mut (ofInt x) (ofInt y) = pure (ofInt (x - y)) := by
  rw [sub_mut]
  simp only [neg_ofInt, bne_iff_ne, ne_eq, decide_eq_decide]
  split_ifs with h
  · rw [mag_ofInt, mag_ofInt, UBig.lt_c, absDiffMut_c, pure_bind, UBig.is_zero_c,
      mk_eq (z := x - y) (by omega) (sign_aux' x y h)]
  · rw [mag_ofInt, mag_ofInt, UBig.add_mut_c, pure_bind, mk_eq (z := x - y) (by omega)]
    rw [decide_eq_true_iff]; omega

variable {x} {o : Int}

theorem i32Abs_c (h : IsI32 o) (h' : o ≠ -2147483648) : i32AbsU32 o = pure o.natAbs := if_neg h'
theorem natAbs_lt (h : IsI32 o) : o.natAbs < B32 := by unfold IsI32 at h; omega

theorem absDiffU32_c (h : IsI32 o) :
    absDiffU32 (ofInt x) o.natAbs (decide (x.natAbs < o.natAbs)) =
    pure (ofNat (x.natAbs - o.natAbs + (o.natAbs - x.natAbs))) := by
  have := natAbs_lt h
  rw [absDiffU32]
  simp only [decide_eq_true_eq, mag_ofInt]
  split_ifs with h
  · rw [UBig.to_u32_c, pure_bind, if_pos (by omega), unwrapR_ok, pure_bind, uSub_eq (by omega),
      pure_bind, UBig.from_u32_eq (by omega)]; congr 2; omega
  · rw [UBig.sub_u32_c (by omega) (by omega)]; congr 2; omega

theorem absDiffU32Mut_c (h : IsI32 o) :
    absDiffU32Mut (ofInt x) o.natAbs (decide (x.natAbs < o.natAbs)) =
    pure (ofNat (x.natAbs - o.natAbs + (o.natAbs - x.natAbs))) := by
  have := natAbs_lt h
  rw [absDiffU32Mut]
  simp only [decide_eq_true_eq, mag_ofInt]
  split_ifs with h
  · rw [UBig.to_u32_c, pure_bind, if_pos (by omega), unwrapR_ok, pure_bind, uSub_eq (by omega),
      pure_bind, UBig.from_u32_eq (by omega)]; congr 2; omega
  · rw [UBig.sub_u32_mut_c (by omega) (by omega)]; congr 2; omega

theorem add_i32_c (ho : IsI32 o) (h' : o ≠ -2147483648) :
    add_i32 (ofInt x) o = pure (ofInt (x + o)) := by
  rw [add_i32]
  simp only [neg_ofInt, beq_iff_eq, decide_eq_decide]
  split_ifs with h
  · rw [i32Abs_c ho h', pure_bind, mag_ofInt, UBig.add_u32_c (natAbs_lt ho), pure_bind,
      from_ubi_c (z := x + o) (by omega)]
    rw [decide_eq_true_iff]; omega
  · rw [i32Abs_c ho h', pure_bind, mag_ofInt, UBig.lt_u32_c (natAbs_lt ho), pure_bind,
      absDiffU32_c ho, pure_bind, UBig.is_zero_c,
      from_ubi_c (z := x + o) (by omega) (fun _ => sign_aux x o h)]

theorem add_i32_mut_c (ho : IsI32 o) (h' : o ≠ -2147483648) :
    add_i32_mut (ofInt x) o = pure (ofInt (x + o)) := by
  rw [add_i32_mut]
  simp only [neg_ofInt, beq_iff_eq, decide_eq_decide]
  split_ifs with h
  · rw [i32Abs_c ho h', pure_bind, mag_ofInt, UBig.add_u32_mut_c (natAbs_lt ho), pure_bind,
      mk_eq (z := x + o) (by omega)]
    rw [decide_eq_true_iff]; omega
  · rw [i32Abs_c ho h', pure_bind, mag_ofInt, UBig.lt_u32_c (natAbs_lt ho), pure_bind,
      absDiffU32Mut_c ho, pure_bind, UBig.is_zero_c,
      mk_eq (z := x + o) (by omega) (sign_aux x o h)]

theorem sub_i32_c (ho : IsI32 o) (h' : o ≠ -2147483648) :
    sub_i32 (ofInt x) o = pure (ofInt (x - o)) := by
  rw [sub_i32]
  simp only [neg_ofInt, bne_iff_ne, ne_eq, decide_eq_decide]
  split_ifs with h
  · rw [i32Abs_c ho h', pure_bind, mag_ofInt, UBig.lt_u32_c (natAbs_lt ho), pure_bind,
      absDiffU32_c ho, pure_bind, UBig.is_zero_c,
      from_ubi_c (z := x - o) (by omega) (fun _ => sign_aux' x o h)]
  · rw [i32Abs_c ho h', pure_bind, mag_ofInt, UBig.add_u32_c (natAbs_lt ho), pure_bind,
      from_ubi_c (z := x - o) (by omega)]
    rw [decide_eq_true_iff]; omega

theorem sub_i32_mut_c (ho : IsI32 o) (h' : o ≠ -2147483648) :
    sub_i32_mut (ofInt x) o = pure (ofInt (x - o)) := by
  rw [sub_i32_mut]
  simp only [neg_ofInt, bne_iff_ne, ne_eq, decide_eq_decide]
  split_ifs with h
  · rw [i32Abs_c ho h', pure_bind, mag_ofInt, UBig.lt_u32_c (natAbs_lt ho), pure_bind,
      absDiffU32Mut_c ho, pure_bind, UBig.is_zero_c,
      mk_eq (z := x - o) (by omega) (sign_aux' x o h)]
  · rw [i32Abs_c ho h', pure_bind, mag_ofInt, UBig.add_u32_mut_c (natAbs_lt ho), pure_bind,
      mk_eq (z := x - o) (by omega)]
    rw [decide_eq_true_iff]; omega

/-- all six i32 arithmetic entry points and the constructors panic on `i32::MIN` -/
theorem i32Abs_min : i32AbsU32 (-2147483648) = throw .overflow := if_pos rfl

/-! multiplication -/

theorem mul_sign (x y : Int) : (!decide (x.natAbs * y.natAbs = 0) &&
    decide (x < 0) != decide (y < 0)) = true ↔ x * y < 0 := by
  rw [mul_neg_iff]
  by_cases h1 : x = 0
  · simp [h1]
  by_cases h2 : y = 0
  · simp [h2]
  have : ¬ (x.natAbs * y.natAbs = 0) := by simp [h1, h2]
  simp only [this, decide_false, Bool.not_false, Bool.true_and, bne_iff_ne, ne_eq, decide_eq_decide]
  omega

variable (x) in
theorem mul_c (y : Int) : mul (ofInt x) (ofInt y) = pure (ofInt (x * y)) := by
  rw [mul, mag_ofInt, mag_ofInt, UBig.mul_c, pure_bind, UBig.is_zero_c, neg_ofInt, neg_ofInt]
  simp only []
  rw [from_ubi_c (Int.natAbs_mul x y).symm (fun _ => mul_sign x y)]

variable (x) in
theorem mul_mut_c (y : Int) : mul_mut (ofInt x) (ofInt y) = pure (ofInt (x * y)) := by
  rw [mul_mut, mag_ofInt, mag_ofInt, UBig.mul_mut_c, pure_bind, UBig.is_zero_c, neg_ofInt,
    neg_ofInt, mk_eq (Int.natAbs_mul x y).symm (mul_sign x y)]

theorem mul_i32_c (ho : IsI32 o) (h' : o ≠ -2147483648) :
    mul_i32 (ofInt x) o = pure (ofInt (x * o)) := by
  rw [mul_i32, i32Abs_c ho h', pure_bind, mag_ofInt, UBig.mul_u32_c (natAbs_lt ho), pure_bind,
    UBig.is_zero_c, neg_ofInt]
  simp only []
  rw [from_ubi_c (Int.natAbs_mul x o).symm (fun _ => mul_sign x o)]

theorem mul_i32_mut_c (ho : IsI32 o) (h' : o ≠ -2147483648) :
    mul_i32_mut (ofInt x) o = pure (ofInt (x * o)) := by
  rw [mul_i32_mut, i32Abs_c ho h', pure_bind, mag_ofInt, UBig.mul_u32_mut_c (natAbs_lt ho),
    pure_bind, UBig.is_zero_c, neg_ofInt, mk_eq (Int.natAbs_mul x o).symm (mul_sign x o)]

theorem mul_pow_neg (x : Int) (e : Nat) : x * 2 ^ e < 0 ↔ x < 0 := by
  have : (0 : Int) < 2 ^ e := by positivity
  constructor
  · intro h; by_contra h'; have := mul_nonneg (not_lt.1 h') this.le; omega
  · intro h; exact mul_neg_of_neg_of_pos h this

theorem mul_pow2_c (x : Int) (e : Nat) : mul_pow2 (ofInt x) e = pure (ofInt (x * 2 ^ e)) := by
  rw [mul_pow2, mag_ofInt, UBig.mul_pow2_c, pure_bind, neg_ofInt,
    from_ubi_c (z := x * 2 ^ e) (by simp [Int.natAbs_mul, Int.natAbs_pow])
      (fun _ => by rw [decide_eq_true_iff, mul_pow_neg])]

theorem mul_pow2_mut_c (x : Int) (e : Nat) :
    mul_pow2_mut (ofInt x) e = pure (ofInt (x * 2 ^ e)) := by
  rw [mul_pow2_mut, mag_ofInt, UBig.mul_pow2_mut_c, pure_bind, neg_ofInt,
    mk_eq (z := x * 2 ^ e) (by simp [Int.natAbs_mul, Int.natAbs_pow])
      (by rw [decide_eq_true_iff, mul_pow_neg])]

/-! division and remainder: `Int.tdiv`, `Int.tmod` are Rust's `/`, `%` -/

theorem natAbs_tdiv' (x y : Int) : x.natAbs / y.natAbs = (x.tdiv y).natAbs :=
  (Int.natAbs_tdiv x y).symm

theorem tdiv_sign (x y : Int) : (!decide (x.natAbs / y.natAbs = 0) &&
    decide (x < 0) != decide (y < 0)) = true ↔ x.tdiv y < 0 := by
  rw [natAbs_tdiv']
  by_cases h0 : x.tdiv y = 0
  · simp [h0]
  simp only [Int.natAbs_eq_zero, h0, decide_false, Bool.not_false, Bool.true_and, bne_iff_ne, ne_eq,
    decide_eq_decide]
  have hx0 : x ≠ 0 := by rintro rfl; simp at h0
  have hy0 : y ≠ 0 := by rintro rfl; simp at h0
  rcases lt_or_gt_of_ne hx0 with h1 | h1 <;> rcases lt_or_gt_of_ne hy0 with h2 | h2
  · have := Int.tdiv_nonneg (a := -x) (b := -y) (by omega) (by omega)
    rw [Int.neg_tdiv, Int.tdiv_neg] at this; omega
  · have := Int.tdiv_nonneg (a := -x) (b := y) (by omega) (by omega)
    rw [Int.neg_tdiv] at this; omega
  · have := Int.tdiv_nonneg (a := x) (b := -y) (by omega) (by omega)
    rw [Int.tdiv_neg] at this; omega
  · have := Int.tdiv_nonneg (a := x) (b := y) (by omega) (by omega)
    omega

variable {y : Int}

theorem div_c (hy : y ≠ 0) : div (ofInt x) (ofInt y) = pure (ofInt (x.tdiv y)) := by
  rw [div, mag_ofInt, mag_ofInt, UBig.div_c (by omega), pure_bind, UBig.is_zero_c, neg_ofInt,
    neg_ofInt]
  simp only []
  rw [from_ubi_c (natAbs_tdiv' x y) (fun _ => tdiv_sign x y)]

theorem div_mut_c (hy : y ≠ 0) : div_mut (ofInt x) (ofInt y) = pure (ofInt (x.tdiv y)) := by
  rw [div_mut, mag_ofInt, mag_ofInt, UBig.div_mut_c (by omega), pure_bind, UBig.is_zero_c, neg_ofInt,
    neg_ofInt, mk_eq (natAbs_tdiv' x y) (tdiv_sign x y)]

theorem div_zero_c : div (ofInt x) (ofInt 0) = throw .divZero := by
  rw [div, mag_ofInt, mag_ofInt, Int.natAbs_zero, UBig.div_zero_c]; rfl
theorem div_mut_zero_c : div_mut (ofInt x) (ofInt 0) = throw .divZero := by
  rw [div_mut, mag_ofInt, mag_ofInt, Int.natAbs_zero, UBig.div_mut, UBig.div_zero_c]; rfl

theorem div_i32_c (ho : IsI32 o) (h' : o ≠ -2147483648) (h0 : o ≠ 0) :
    div_i32 (ofInt x) o = pure (ofInt (x.tdiv o)) := by
  rw [div_i32, i32Abs_c ho h', pure_bind, mag_ofInt, UBig.div_u32_c (natAbs_lt ho) (by omega),
    pure_bind, UBig.is_zero_c, neg_ofInt]
  simp only []
  rw [from_ubi_c (natAbs_tdiv' x o) (fun _ => tdiv_sign x o)]

theorem div_i32_mut_c (ho : IsI32 o) (h' : o ≠ -2147483648) (h0 : o ≠ 0) :
    div_i32_mut (ofInt x) o = pure (ofInt (x.tdiv o)) := by
  rw [div_i32_mut, i32Abs_c ho h', pure_bind, mag_ofInt,
    UBig.div_u32_mut_c (natAbs_lt ho) (by omega),
    pure_bind, UBig.is_zero_c, neg_ofInt, mk_eq (natAbs_tdiv' x o) (tdiv_sign x o)]

theorem div_i32_zero_c : div_i32 (ofInt x) 0 = throw .divZero := by
  rw [div_i32, show i32AbsU32 0 = pure 0 from rfl, pure_bind, mag_ofInt, UBig.div_u32,
    UBig.div_u32_mut_zero (valid_ofNat _)]; rfl
theorem div_i32_mut_zero_c : div_i32_mut (ofInt x) 0 = throw .divZero := by
  rw [div_i32_mut, show i32AbsU32 0 = pure 0 from rfl, pure_bind, mag_ofInt,
    UBig.div_u32_mut_zero (valid_ofNat _)]; rfl

theorem rem_c (hy : y ≠ 0) : rem (ofInt x) (ofInt y) = pure (ofInt (x.tmod y)) := by
  rw [rem, div_c hy, pure_bind, mul_mut_c, pure_bind, sub_c]
  congr 2
  have := Int.tmod_add_tdiv_mul x y
  omega

theorem rem_mut_c (hy : y ≠ 0) : rem_mut (ofInt x) (ofInt y) = pure (ofInt (x.tmod y)) := by
  rw [rem_mut, div_c hy, pure_bind, mul_mut_c, pure_bind, sub_mut_c]
  congr 2
  have := Int.tmod_add_tdiv_mul x y
  omega

theorem rem_zero_c : rem (ofInt x) (ofInt 0) = throw .divZero := by
  rw [rem, div_zero_c]; rfl
theorem rem_mut_zero_c : rem_mut (ofInt x) (ofInt 0) = throw .divZero := by
  rw [rem_mut, div_zero_c]; rfl

theorem natAbs_tmod' (x y : Int) : x.natAbs % y.natAbs = (x.tmod y).natAbs := by
  rw [Int.natAbs_tmod]

theorem tmod_sign (x y : Int) : (decide (x < 0) && !decide (x.natAbs % y.natAbs = 0)) = true ↔
    x.tmod y < 0 := by
  have h1 := natAbs_tmod' x y
  rw [h1]
  simp only [Bool.and_eq_true, decide_eq_true_eq, Bool.not_eq_true', decide_eq_false_iff_not,
    Int.natAbs_eq_zero]
  constructor
  · rintro ⟨h, h2⟩
    have := Int.tmod_nonneg (b := y) (a := -x) (by omega)
    rw [Int.neg_tmod] at this
    omega
  · intro h
    refine ⟨?_, by omega⟩
    by_contra hx
    have := Int.tmod_nonneg (b := y) (a := x) (by omega)
    omega

theorem rem_i32_c (ho : IsI32 o) (h' : o ≠ -2147483648) (h0 : o ≠ 0)
    (hl : (ofInt x).mag.length ≤ B32) : rem_i32 (ofInt x) o = pure (ofInt (x.tmod o)) := by
  rw [mag_ofInt] at hl
  rw [rem_i32, i32Abs_c ho h', pure_bind, mag_ofInt,
    UBig.rem_u32_eq (valid_ofNat _) (natAbs_lt ho) (by omega) hl,
    pure_bind, val_ofNat, UBig.is_zero_c, neg_ofInt]
  simp only []
  rw [from_ubi_c (natAbs_tmod' x o) (fun _ => tmod_sign x o)]

theorem rem_i32_mut_c (h : -65536 ≤ o) (h' : o ≤ 65536) (h0 : o ≠ 0)
    (hl : (ofInt x).mag.length < 65536) : rem_i32_mut (ofInt x) o = pure (ofInt (x.tmod o)) := by
  rw [mag_ofInt] at hl
  rw [rem_i32_mut, i32Abs_c ⟨by omega, by omega⟩ (by omega), pure_bind, mag_ofInt,
    UBig.rem_u32_mut_eq (valid_ofNat _) (by omega) (by omega) hl,
    pure_bind, val_ofNat, UBig.is_zero_c, neg_ofInt, mk_eq (natAbs_tmod' x o) (tmod_sign x o)]

/-! powers -/

theorem pow_sign (x : Int) (e : Nat) (h : x ^ e ≠ 0) :
    (decide (x < 0) && e % 2 == 1) = true ↔ x ^ e < 0 := by
  simp only [Bool.and_eq_true, decide_eq_true_eq, beq_iff_eq]
  rw [← Nat.odd_iff]
  constructor
  · rintro ⟨h1, h2⟩; exact h2.pow_neg h1
  · intro h1
    rcases Nat.even_or_odd e with h2 | h2
    · have := h2.pow_nonneg x; omega
    · exact ⟨(h2.pow_neg_iff).1 h1, h2⟩

theorem pow_u32_c {e : Nat} (he : e < 2 ^ 31) :
    pow_u32 (ofInt x) e = pure (ofInt (x ^ e)) := by
  rw [pow_u32, mag_ofInt, UBig.pow_u32_c he, pure_bind, neg_ofInt,
    from_ubi_c (Int.natAbs_pow x e).symm (fun h => pow_sign x e h)]

theorem pow_u32_mut_c {e : Nat} (he : e < 2 ^ 31) :
    pow_u32_mut (ofInt x) e = pure (ofInt (x ^ e)) := by
  rw [pow_u32_mut, mag_ofInt, UBig.pow_u32_mut, UBig.pow_u32_c he, pure_bind, neg_ofInt,
    mk_eq (Int.natAbs_pow x e).symm]
  by_cases h : x ^ e = 0
  · have h2 : x = 0 := by by_contra hx; exact pow_ne_zero e hx h
    simp [h2, h]
  · exact pow_sign x e h

theorem pow2_c (e : Nat) : pow2 e = pure (ofInt (2 ^ e)) := by
  rw [pow2, UBig.pow2_eq, pure_bind, from_ubi_nat]; simp
theorem exp2_c (e : Nat) : exp2 e = pure (ofInt (2 ^ e)) := by
  rw [exp2, UBig.exp2_eq, pure_bind, from_ubi_nat]; simp

/-! unary functions -/

theorem negate_c (x : Int) : negate (ofInt x) = ofInt (-x) := by
  rw [negate, mag_ofInt, neg_ofInt, UBig.is_zero_c]
  apply from_ubi_c (by omega)
  simp only [Bool.and_eq_true, Bool.not_eq_true', decide_eq_false_iff_not, Int.natAbs_eq_zero]
  omega
theorem negate_mut_c (x : Int) : negate_mut (ofInt x) = ofInt (-x) := by
  rw [negate_mut, mag_ofInt, neg_ofInt, UBig.is_zero_c]
  apply mk_eq (by omega)
  simp only [Bool.and_eq_true, Bool.not_eq_true', decide_eq_false_iff_not, Int.natAbs_eq_zero]
  omega
theorem abs_c (x : Int) : abs (ofInt x) = ofInt |x| := by
  rw [abs, mag_ofInt]
  apply from_ubi_c (Int.natAbs_abs x).symm
  have := abs_nonneg x
  simp; 
theorem abs_mut_c (x : Int) : abs_mut (ofInt x) = ofInt |x| := by
  rw [abs_mut, mag_ofInt]
  apply mk_eq (Int.natAbs_abs x).symm
  have := abs_nonneg x
  simp

theorem gcd_bi_c (x y : Int) : gcd_bi (ofInt x) (ofInt y) = pure (ofInt (Int.gcd x y)) := by
  rw [gcd_bi, mag_ofInt, mag_ofInt, UBig.gcd_ubi_c, pure_bind, from_ubi_nat, Int.gcd_def]

/-! comparison -/

theorem compare_nat_eq {m n : Nat} : compare m n = if m < n then .lt else if m = n then .eq else .gt :=
  rfl

theorem comp_c (x y : Int) : comp (ofInt x) (ofInt y) = compare x y := by
  rw [comp, mag_ofInt, mag_ofInt, UBig.comp_c, neg_ofInt, neg_ofInt]
  simp only [bne_iff_ne, ne_eq, decide_eq_decide, decide_eq_true_eq, compMatch]
  rcases lt_trichotomy x.natAbs y.natAbs with h | h | h
  · rw [compare_lt_iff_lt.2 h]; simp only []
    rcases lt_trichotomy x y with h2 | h2 | h2
    · rw [compare_lt_iff_lt.2 h2]; split_ifs <;> first | rfl | omega
    · omega
    · rw [compare_gt_iff_gt.2 h2]; split_ifs <;> first | rfl | omega
  · rw [compare_eq_iff_eq.2 h]; simp only []
    rcases lt_trichotomy x y with h2 | h2 | h2
    · rw [compare_lt_iff_lt.2 h2]; split_ifs <;> first | rfl | omega
    · rw [compare_eq_iff_eq.2 h2]; split_ifs <;> first | rfl | omega
    · rw [compare_gt_iff_gt.2 h2]; split_ifs <;> first | rfl | omega
  · rw [compare_gt_iff_gt.2 h]; simp only []
    rcases lt_trichotomy x y with h2 | h2 | h2
    · rw [compare_lt_iff_lt.2 h2]; split_ifs <;> first | rfl | omega
    · omega
    · rw [compare_gt_iff_gt.2 h2]; split_ifs <;> first | rfl | omega

theorem lt_of_comp (a b : BigI) : lt a b = (comp a b == .lt) := by
  rw [lt, comp]
  cases a.neg <;> cases b.neg <;> cases UBig.comp a.mag b.mag <;> rfl
theorem gt_of_comp (a b : BigI) : gt a b = (comp a b == .gt) := by
  rw [gt, comp]
  cases a.neg <;> cases b.neg <;> cases UBig.comp a.mag b.mag <;> rfl

theorem cmp_lt_beq (x y : Int) : (compare x y == .lt) = decide (x < y) := by
  rw [Bool.eq_iff_iff, beq_iff_eq, compare_lt_iff_lt, decide_eq_true_iff]
theorem cmp_gt_beq (x y : Int) : (compare x y == .gt) = decide (y < x) := by
  rw [Bool.eq_iff_iff, beq_iff_eq, compare_gt_iff_gt, decide_eq_true_iff]

theorem lt_c (x y : Int) : lt (ofInt x) (ofInt y) = decide (x < y) := by
  rw [lt_of_comp, comp_c, cmp_lt_beq]
theorem gt_c (x y : Int) : gt (ofInt x) (ofInt y) = decide (y < x) := by
  rw [gt_of_comp, comp_c, cmp_gt_beq]
theorem leq_c (x y : Int) : leq (ofInt x) (ofInt y) = decide (x ≤ y) := by
  rw [leq, gt_c, ← decide_not]; simp only [not_lt]
theorem geq_c (x y : Int) : geq (ofInt x) (ofInt y) = decide (y ≤ x) := by
  rw [geq, lt_c, ← decide_not]; simp only [not_lt]
theorem eq_c (x y : Int) : eq (ofInt x) (ofInt y) = decide (x = y) := by
  have := UBig.eq_c x.natAbs y.natAbs
  rw [UBig.eq] at this
  rw [eq, mag_ofInt, mag_ofInt, this, neg_ofInt, neg_ofInt, Bool.eq_iff_iff]
  simp only [Bool.and_eq_true, decide_eq_true_eq, beq_iff_eq, decide_eq_decide]
  omega
theorem neq_c (x y : Int) : neq (ofInt x) (ofInt y) = decide (x ≠ y) := by
  have : neq (ofInt x) (ofInt y) = !eq (ofInt x) (ofInt y) := rfl
  rw [this, eq_c, ← decide_not]

theorem comp_i32_c (ho : IsI32 o) (h' : o = -2147483648 → 0 ≤ x) :
    comp_i32 (ofInt x) o = pure (compare x o) := by
  rw [comp_i32, ← comp_c, comp]
  simp only [neg_ofInt, bne_iff_ne, ne_eq, decide_eq_decide, decide_eq_true_eq]
  split_ifs with h
  · rw [i32Abs_c ho (by omega), pure_bind, mag_ofInt, UBig.comp_u32_c (natAbs_lt ho), pure_bind,
      mag_ofInt, UBig.comp_c]
  · rfl
  · rfl

theorem lt_i32_of (a : BigI) (o : Int) :
    lt_i32 a o = comp_i32 a o >>= fun c => pure (c == .lt) := by
  rw [lt_i32, comp_i32]
  cases a.neg <;> by_cases h : o < 0 <;> simp only [h, decide_true, decide_false, bne_self_eq_false,
    Bool.false_eq_true, if_false, if_true, pure_bind, bind_assoc, Bool.true_bne, Bool.false_bne, Bool.not_false] <;>
    first
    | rfl
    | (congr 1; funext x; congr 1; funext c; cases c <;> rfl)

theorem gt_i32_of (a : BigI) (o : Int) :
    gt_i32 a o = comp_i32 a o >>= fun c => pure (c == .gt) := by
  rw [gt_i32, comp_i32]
  cases a.neg <;> by_cases h : o < 0 <;> simp only [h, decide_true, decide_false, bne_self_eq_false,
    Bool.false_eq_true, if_false, if_true, pure_bind, bind_assoc, Bool.true_bne, Bool.false_bne, Bool.not_false] <;>
    first
    | rfl
    | (congr 1; funext x; congr 1; funext c; cases c <;> rfl)

theorem lt_i32_c (ho : IsI32 o) (h' : o = -2147483648 → 0 ≤ x) :
    lt_i32 (ofInt x) o = pure (decide (x < o)) := by
  rw [lt_i32_of, comp_i32_c ho h', pure_bind, cmp_lt_beq]
theorem gt_i32_c (ho : IsI32 o) (h' : o = -2147483648 → 0 ≤ x) :
    gt_i32 (ofInt x) o = pure (decide (o < x)) := by
  rw [gt_i32_of, comp_i32_c ho h', pure_bind, cmp_gt_beq]
theorem leq_i32_c (ho : IsI32 o) (h' : o = -2147483648 → 0 ≤ x) :
    leq_i32 (ofInt x) o = pure (decide (x ≤ o)) := by
  rw [leq_i32, gt_i32_c ho h', pure_bind, ← decide_not]; simp only [not_lt]
theorem geq_i32_c (ho : IsI32 o) (h' : o = -2147483648 → 0 ≤ x) :
    geq_i32 (ofInt x) o = pure (decide (o ≤ x)) := by
  rw [geq_i32, lt_i32_c ho h', pure_bind, ← decide_not]; simp only [not_lt]

theorem eq_i32_c (ho : IsI32 o) (h' : o = -2147483648 → 0 ≤ x)
    (hx : (x < 0 ↔ o < 0) → x.natAbs < B32) :
    eq_i32 (ofInt x) o = pure (decide (x = o)) := by
  rw [eq_i32]
  simp only [neg_ofInt, bne_iff_ne, ne_eq, decide_eq_decide]
  split_ifs with h
  · rw [mag_ofInt, UBig.to_u32_c, if_pos (hx h), pure_bind, unwrapR_ok, pure_bind,
      i32Abs_c ho (by omega), pure_bind]
    congr 1
    rw [Bool.eq_iff_iff, beq_iff_eq, decide_eq_true_iff]; omega
  · congr 1; symm; rw [decide_eq_false_iff_not]; rintro rfl; exact h Iff.rfl

theorem neq_i32_c (ho : IsI32 o) (h' : o = -2147483648 → 0 ≤ x)
    (hx : (x < 0 ↔ o < 0) → x.natAbs < B32) :
    neq_i32 (ofInt x) o = pure (decide (x ≠ o)) := by
  rw [neq_i32, eq_i32_c ho h' hx, pure_bind, ← decide_not]

theorem eq_i32_panics (h : x < 0 ↔ o < 0) (hx : B32 ≤ x.natAbs) :
    eq_i32 (ofInt x) o = throw .unwrap := by
  rw [eq_i32]
  simp only [neg_ofInt, bne_iff_ne, ne_eq, decide_eq_decide, h, not_true, if_false]
  rw [mag_ofInt, UBig.to_u32_c, if_neg (by omega)]; rfl

/-! limb shifts -/

theorem natAbs_div_pow (x : Int) (n : Nat) : x.natAbs / B32 ^ n = (x.tdiv (B32 ^ n : Nat)).natAbs := by
  rw [← natAbs_tdiv', Int.natAbs_natCast]

theorem shift_sign (x : Int) (n : Nat) : (!decide (x.natAbs / B32 ^ n = 0) && decide (x < 0)) = true ↔
    x.tdiv (B32 ^ n : Nat) < 0 := by
  rw [← tdiv_sign, Int.natAbs_natCast]
  have h : ¬ ((B32 ^ n : Nat) : Int) < 0 := not_lt.2 (by positivity)
  simp only [h, decide_false]
  cases decide (x < 0) <;> rfl

theorem shift_right_c (x : Int) (n : Nat) :
    shift_right (ofInt x) n = ofInt (x.tdiv (B32 ^ n : Nat)) := by
  rw [shift_right, mag_ofInt, UBig.shift_right_c, UBig.is_zero_c, neg_ofInt]
  exact from_ubi_c (natAbs_div_pow x n) (fun _ => shift_sign x n)
theorem shift_right_mut_c (x : Int) (n : Nat) :
    shift_right_mut (ofInt x) n = ofInt (x.tdiv (B32 ^ n : Nat)) := by
  rw [shift_right_mut, mag_ofInt, UBig.shift_right_mut_c, UBig.is_zero_c, neg_ofInt]
  exact mk_eq (natAbs_div_pow x n) (shift_sign x n)

theorem mul_pow32_neg (x : Int) (e : Nat) : x * (B32 ^ e : Nat) < 0 ↔ x < 0 := by
  have : (0 : Int) < (B32 ^ e : Nat) := by positivity
  constructor
  · intro h; by_contra h'; have := mul_nonneg (not_lt.1 h') this.le; omega
  · intro h; exact mul_neg_of_neg_of_pos h this

theorem shift_left_c (x : Int) (n : Nat) :
    shift_left (ofInt x) n = ofInt (x * (B32 ^ n : Nat)) := by
  rw [shift_left, mag_ofInt, UBig.shift_left_c, neg_ofInt]
  exact from_ubi_c (by rw [Int.natAbs_mul, Int.natAbs_natCast])
    (fun _ => by rw [decide_eq_true_iff, mul_pow32_neg])
theorem shift_left_mut_c (x : Int) (n : Nat) :
    shift_left_mut (ofInt x) n = ofInt (x * (B32 ^ n : Nat)) := by
  rw [shift_left_mut, mag_ofInt, UBig.shift_left_mut_c, neg_ofInt]
  exact mk_eq (by rw [Int.natAbs_mul, Int.natAbs_natCast])
    (by rw [decide_eq_true_iff, mul_pow32_neg])

theorem slice_right_c (x : Int) {n : Nat} (hn : n ≤ (ofInt x).mag.length) :
    slice_right (ofInt x) n = pure (ofInt (x.tmod (B32 ^ n : Nat))) := by
  rw [mag_ofInt] at hn
  rw [slice_right, mag_ofInt, UBig.slice_right_eq (valid_ofNat _) hn, pure_bind, val_ofNat,
    UBig.is_zero_c, neg_ofInt]
  have h := tmod_sign x (B32 ^ n : Nat)
  rw [Int.natAbs_natCast] at h
  rw [from_ubi_c (z := x.tmod (B32 ^ n : Nat)) (by rw [← natAbs_tmod', Int.natAbs_natCast])]
  intro _; rw [Bool.and_comm]; exact h

/-! fixed-width conversions -/

theorem from_i32_c (ho : IsI32 o) (h' : o ≠ -2147483648) : from_i32 o = pure (ofInt o) := by
  rw [from_i32, i32Abs_c ho h', pure_bind, UBig.from_u32_eq (natAbs_lt ho)]; rfl

theorem from_i64_c (h1 : -9223372036854775808 < o) (h2 : o ≤ 9223372036854775807) :
    from_i64 o = pure (ofInt o) := by
  rw [from_i64, i64AbsU64, if_neg (by omega), pure_bind, UBig.from_u64_eq (by omega)]; rfl

theorem from_i128_c (h1 : -170141183460469231731687303715884105728 < o)
    (h2 : o ≤ 170141183460469231731687303715884105727) : from_i128 o = pure (ofInt o) := by
  rw [from_i128, i128AbsU128, if_neg (by omega), pure_bind, UBig.from_u128_eq (by omega)]; rfl

theorem to_i32_c (x : Int) : to_i32 (ofInt x) =
    pure (if -2147483648 ≤ x ∧ x ≤ 2147483647 then .ok x else .error .notInRange) := by
  rw [to_i32, mag_ofInt, UBig.to_u32_c, pure_bind]
  by_cases h : x.natAbs < B32
  · rw [if_pos h]
    simp only [neg_ofInt, Bool.and_eq_true, Bool.not_eq_true', decide_eq_false_iff_not,
      decide_eq_true_eq]
    split_ifs <;> first | omega | rfl | (congr 2; omega)
  · rw [if_neg h, if_neg (by omega)]

theorem to_i64_c (x : Int) : to_i64 (ofInt x) =
    pure (if -9223372036854775808 ≤ x ∧ x ≤ 9223372036854775807 then .ok x
      else .error .notInRange) := by
  rw [to_i64, mag_ofInt, UBig.to_u64_c, pure_bind]
  by_cases h : x.natAbs < B64
  · rw [if_pos h]
    simp only [neg_ofInt, Bool.and_eq_true, Bool.not_eq_true', decide_eq_false_iff_not,
      decide_eq_true_eq]
    split_ifs <;> first | omega | rfl | (congr 2; omega)
  · rw [if_neg h, if_neg (by omega)]

theorem to_i128_c (x : Int) : to_i128 (ofInt x) =
    pure (if -170141183460469231731687303715884105728 < x ∧
        x ≤ 170141183460469231731687303715884105727 then .ok x
      else .error .notInRange) := by
  rw [to_i128, mag_ofInt, UBig.to_u128_c, pure_bind]
  by_cases h : x.natAbs < B128
  · rw [if_pos h]
    simp only [neg_ofInt, Bool.and_eq_true, Bool.not_eq_true', decide_eq_false_iff_not,
      decide_eq_true_eq]
    split_ifs <;> first | omega | rfl | (congr 2; omega)
  · rw [if_neg h, if_neg (by omega)]

end
end BigI
end Hmath
