import Verif.Proofs.AddSub

/-! # Comparison, fixed-width conversions, limb shifts -/

namespace Hmath
namespace UBig

theorem val_reverse_cons (x : Nat) (xs : List Nat) :
    val (x :: xs).reverse = val xs.reverse + B32 ^ xs.length * x := by
  rw [List.reverse_cons, val_append]; simp

theorem limbs_reverse {xs : List Nat} : Limbs xs.reverse ↔ Limbs xs := by simp [Limbs]

theorem reverse_lt {xs : List Nat} (h : Limbs xs) : val xs.reverse < B32 ^ xs.length := by
  have := val_lt (limbs_reverse.mpr h); simpa using this

theorem top_lt {xs ys : List Nat} {x y : Nat} (hx : Limbs xs)
    (hl : xs.length = ys.length) (h : x < y) :
    val (x :: xs).reverse < val (y :: ys).reverse := by
  rw [val_reverse_cons, val_reverse_cons, ← hl]
  have h1 := reverse_lt hx
  have : B32 ^ xs.length * (x + 1) ≤ B32 ^ xs.length * y := Nat.mul_le_mul_left _ h
  rw [Nat.mul_add] at this
  omega

theorem ltLoop_eq (xs ys : List Nat) (hx : Limbs xs) (hy : Limbs ys) (hl : xs.length = ys.length) :
    ltLoop xs ys = decide (val xs.reverse < val ys.reverse) := by
  induction xs generalizing ys with
  | nil =>
    cases ys with
    | nil => simp [ltLoop]
    | cons => simp at hl
  | cons x xs ih =>
    cases ys with
    | nil => simp at hl
    | cons y ys =>
      rw [limbs_cons] at hx hy
      simp only [List.length_cons, Nat.add_right_cancel_iff] at hl
      rw [ltLoop]
      by_cases h1 : x < y
      · rw [if_pos h1]; simp only [true_eq_decide_iff]; exact top_lt hx.2 hl h1
      · rw [if_neg h1]
        by_cases h2 : x > y
        · rw [if_pos h2]; simp only [false_eq_decide_iff, not_lt]; exact (top_lt hy.2 hl.symm h2).le
        · rw [if_neg h2, ih ys hx.2 hy.2 hl, val_reverse_cons, val_reverse_cons, hl]
          have : x = y := by omega
          subst this
          simp

theorem gtLoop_eq (xs ys : List Nat) (hx : Limbs xs) (hy : Limbs ys) (hl : xs.length = ys.length) :
    gtLoop xs ys = decide (val ys.reverse < val xs.reverse) := by
  induction xs generalizing ys with
  | nil =>
    cases ys with
    | nil => simp [gtLoop]
    | cons => simp at hl
  | cons x xs ih =>
    cases ys with
    | nil => simp at hl
    | cons y ys =>
      rw [limbs_cons] at hx hy
      simp only [List.length_cons, Nat.add_right_cancel_iff] at hl
      rw [gtLoop]
      by_cases h1 : x < y
      · rw [if_pos h1]; simp only [false_eq_decide_iff, not_lt]; exact (top_lt hx.2 hl h1).le
      · rw [if_neg h1]
        by_cases h2 : x > y
        · rw [if_pos h2]; simp only [true_eq_decide_iff]; exact top_lt hy.2 hl.symm h2
        · rw [if_neg h2, ih ys hx.2 hy.2 hl, val_reverse_cons, val_reverse_cons, hl]
          have : x = y := by omega
          subst this
          simp

theorem compLoop_eq (xs ys : List Nat) (hx : Limbs xs) (hy : Limbs ys) (hl : xs.length = ys.length) :
    compLoop xs ys = compare (val xs.reverse) (val ys.reverse) := by
  induction xs generalizing ys with
  | nil =>
    cases ys with
    | nil => simp [compLoop]
    | cons => simp at hl
  | cons x xs ih =>
    cases ys with
    | nil => simp at hl
    | cons y ys =>
      rw [limbs_cons] at hx hy
      simp only [List.length_cons, Nat.add_right_cancel_iff] at hl
      rw [compLoop]
      by_cases h1 : x > y
      · rw [if_pos h1]; symm; rw [compare_gt_iff_gt]; exact top_lt hy.2 hl.symm h1
      · rw [if_neg h1]
        by_cases h2 : x < y
        · rw [if_pos h2]; symm; rw [compare_lt_iff_lt]; exact top_lt hx.2 hl h2
        · rw [if_neg h2, ih ys hx.2 hy.2 hl, val_reverse_cons, val_reverse_cons, hl]
          have : x = y := by omega
          subst this
          rcases Nat.lt_trichotomy (val xs.reverse) (val ys.reverse) with h | h | h
          · rw [compare_lt_iff_lt.mpr h, compare_lt_iff_lt.mpr (by omega)]
          · rw [h]; simp
          · rw [compare_gt_iff_gt.mpr h, compare_gt_iff_gt.mpr (by omega)]

theorem val_lt_of_length_lt {a b : UBig} (ha : Valid a) (hb : Valid b) (h : a.length < b.length) :
    val a < val b := by
  rw [ha.eq_ofNat, hb.eq_ofNat] at h; exact lt_of_length_lt h

theorem lt_eq {a b : UBig} (ha : Valid a) (hb : Valid b) : lt a b = decide (val a < val b) := by
  rw [lt]
  by_cases h1 : a.length > b.length
  · rw [if_pos h1]; simp only [false_eq_decide_iff, not_lt]; exact (val_lt_of_length_lt hb ha h1).le
  · rw [if_neg h1]
    by_cases h2 : a.length < b.length
    · rw [if_pos h2]; simp only [true_eq_decide_iff]; exact val_lt_of_length_lt ha hb h2
    · rw [if_neg h2, ltLoop_eq _ _ (limbs_reverse.mpr ha.limbs) (limbs_reverse.mpr hb.limbs)
        (by simp; omega)]
      simp

theorem gt_eq {a b : UBig} (ha : Valid a) (hb : Valid b) : gt a b = decide (val b < val a) := by
  rw [gt]
  by_cases h1 : a.length > b.length
  · rw [if_pos h1]; simp only [true_eq_decide_iff]; exact val_lt_of_length_lt hb ha h1
  · rw [if_neg h1]
    by_cases h2 : a.length < b.length
    · rw [if_pos h2]; simp only [false_eq_decide_iff, not_lt]; exact (val_lt_of_length_lt ha hb h2).le
    · rw [if_neg h2, gtLoop_eq _ _ (limbs_reverse.mpr ha.limbs) (limbs_reverse.mpr hb.limbs)
        (by simp; omega)]
      simp

theorem comp_eq {a b : UBig} (ha : Valid a) (hb : Valid b) :
    comp a b = compare (val a) (val b) := by
  rw [comp]
  by_cases h1 : a.length > b.length
  · rw [if_pos h1]; symm; rw [compare_gt_iff_gt]; exact val_lt_of_length_lt hb ha h1
  · rw [if_neg h1]
    by_cases h2 : a.length < b.length
    · rw [if_pos h2]; symm; rw [compare_lt_iff_lt]; exact val_lt_of_length_lt ha hb h2
    · rw [if_neg h2, compLoop_eq _ _ (limbs_reverse.mpr ha.limbs) (limbs_reverse.mpr hb.limbs)
        (by simp; omega)]
      simp

theorem eq_eq {a b : UBig} (ha : Valid a) (hb : Valid b) : eq a b = decide (val a = val b) := by
  rw [eq]
  by_cases h : val a = val b
  · rw [ha.ext hb h]; simp
  · have : a ≠ b := fun hh => h (by rw [hh])
    simp [this, h]

theorem neq_eq {a b : UBig} (ha : Valid a) (hb : Valid b) : neq a b = decide (val a ≠ val b) := by
  have : neq a b = !(eq a b) := rfl
  rw [this, eq_eq ha hb]; simp

theorem leq_eq {a b : UBig} (ha : Valid a) (hb : Valid b) : leq a b = decide (val a ≤ val b) := by
  rw [leq, gt_eq ha hb, ← decide_not]; simp only [not_lt]

theorem geq_eq {a b : UBig} (ha : Valid a) (hb : Valid b) : geq a b = decide (val b ≤ val a) := by
  rw [geq, lt_eq ha hb, ← decide_not]; simp only [not_lt]

theorem is_zero_eq {a : UBig} (ha : Valid a) : is_zero a = decide (val a = 0) := by
  have h : Valid [0] := by rw [← ofNat_zero]; exact valid_ofNat 0
  have := eq_eq ha h
  simpa [eq, is_zero] using this

theorem is_one_eq {a : UBig} (ha : Valid a) : is_one a = decide (val a = 1) := by
  have h : Valid [1] := by rw [← ofNat_one]; exact valid_ofNat 1
  have := eq_eq ha h
  simpa [eq, is_one] using this

/-- a valid number is a single limb or at least `2^32` -/
theorem _root_.Hmath.Valid.cases1 {a : UBig} (ha : Valid a) :
    (a.length > 1 ∧ B32 ≤ val a) ∨ (∃ x, a = [x] ∧ x < B32 ∧ val a = x) := by
  by_cases h : a.length > 1
  · left; refine ⟨h, ?_⟩
    have := ha.val_ge h
    have h2 : B32 ^ 1 ≤ B32 ^ (a.length - 1) := Nat.pow_le_pow_right (by omega) (by omega)
    omega
  · right
    match a, ha, h with
    | [x], ha, _ => exact ⟨x, rfl, ha.limbs x (by simp), by simp⟩
    | [], ha, _ => exact absurd rfl ha.ne
    | _ :: _ :: _, _, h => simp at h

theorem lt_u32_eq {a : UBig} {o : Nat} (ha : Valid a) (ho : o < B32) :
    lt_u32 a o = pure (decide (val a < o)) := by
  rw [lt_u32]
  rcases ha.cases1 with ⟨h, h2⟩ | ⟨x, rfl, h1, h2⟩
  · rw [if_pos h]; congr 1; simp only [false_eq_decide_iff, not_lt]; omega
  · rw [h2]; simp
theorem gt_u32_eq {a : UBig} {o : Nat} (ha : Valid a) (ho : o < B32) :
    gt_u32 a o = pure (decide (val a > o)) := by
  rw [gt_u32]
  rcases ha.cases1 with ⟨h, h2⟩ | ⟨x, rfl, h1, h2⟩
  · rw [if_pos h]; congr 1; simp only [true_eq_decide_iff]; omega
  · rw [h2]; simp
theorem eq_u32_eq {a : UBig} {o : Nat} (ha : Valid a) (ho : o < B32) :
    eq_u32 a o = pure (decide (val a = o)) := by
  rw [eq_u32]
  rcases ha.cases1 with ⟨h, h2⟩ | ⟨x, rfl, h1, h2⟩
  · rw [if_pos h]; congr 1; simp only [false_eq_decide_iff]; omega
  · rw [h2]; simp; rfl
theorem neq_u32_eq {a : UBig} {o : Nat} (ha : Valid a) (ho : o < B32) :
    neq_u32 a o = pure (decide (val a ≠ o)) := by
  rw [neq_u32, eq_u32_eq ha ho, pure_bind]; simp
theorem leq_u32_eq {a : UBig} {o : Nat} (ha : Valid a) (ho : o < B32) :
    leq_u32 a o = pure (decide (val a ≤ o)) := by
  rw [leq_u32, gt_u32_eq ha ho, pure_bind, ← decide_not]; simp only [gt_iff_lt, not_lt]
theorem geq_u32_eq {a : UBig} {o : Nat} (ha : Valid a) (ho : o < B32) :
    geq_u32 a o = pure (decide (o ≤ val a)) := by
  rw [geq_u32, lt_u32_eq ha ho, pure_bind, ← decide_not]; simp only [not_lt]
theorem comp_u32_eq {a : UBig} {o : Nat} (ha : Valid a) (ho : o < B32) :
    comp_u32 a o = pure (compare (val a) o) := by
  rw [comp_u32]
  rcases ha.cases1 with ⟨h, h2⟩ | ⟨x, rfl, h1, h2⟩
  · rw [if_pos h]; congr 1; symm; rw [compare_gt_iff_gt]; omega
  · rw [h2]; simp

/-! ### fixed-width conversions -/

theorem from_u32_eq {n : Nat} (h : n < B32) : from_u32 n = ofNat n := (ofNat_lt h).symm

theorem from_u64_eq {n : Nat} (h : n < B64) : from_u64 n = ofNat n := by
  rw [from_u64]
  by_cases h1 : n ≥ B32
  · rw [if_pos h1, ofNat_ge h1, ofNat_lt (by omega)]; congr 1
    · omega
    · congr 1; omega
  · rw [if_neg h1, ofNat_lt (by omega)]; congr 1; omega

theorem from_u128_eq {n : Nat} (h : n < B128) : from_u128 n = ofNat n := by
  rw [from_u128]
  by_cases h1 : n < B32
  · rw [if_pos h1, ofNat_lt h1]; congr 1; omega
  · rw [if_neg h1, ofNat_ge (by omega)]
    by_cases h2 : n < 2 ^ 64
    · rw [if_pos h2, ofNat_lt (by omega)]; congr 1
      · omega
      · congr 1; omega
    · rw [if_neg h2, ofNat_ge (by omega)]
      by_cases h3 : n < 2 ^ 96
      · rw [if_pos h3, ofNat_lt (by omega)]; congr 1
        · omega
        · congr 1
          · omega
          · congr 1; omega
      · rw [if_neg h3, ofNat_ge (by omega), ofNat_lt (by omega)]; congr 1
        · omega
        · congr 1
          · omega
          · congr 1
            · omega
            · congr 1; omega

theorem to_u32_eq {a : UBig} (ha : Valid a) :
    to_u32 a = pure (if val a < B32 then .ok (val a) else .error .notInRange) := by
  rw [to_u32]
  rcases ha.cases1 with ⟨h, h2⟩ | ⟨x, rfl, h1, h2⟩
  · rw [if_pos h, if_neg (by omega)]
  · rw [h2, if_pos h1]; simp

theorem length_iff_val {a : UBig} (ha : Valid a) {k : Nat} (hk : 0 < k) :
    a.length ≤ k ↔ val a < B32 ^ k := by
  have := length_ofNat_le_iff (n := val a) hk
  rwa [← ha.eq_ofNat] at this

theorem to_u64_eq {a : UBig} (ha : Valid a) :
    to_u64 a = pure (if val a < B64 then .ok (val a) else .error .notInRange) := by
  rw [to_u64]
  have hlen := length_iff_val ha (k := 2) (by omega)
  by_cases h : a.length > 2
  · rw [if_pos h, if_neg (by omega)]
  · rw [if_neg h]
    have hv : val a < B64 := by have := hlen.mp (by omega); omega
    rw [if_pos hv]
    match a, ha, h with
    | [x], ha, _ => simp
    | [x, y], ha, _ =>
      have hx := ha.limbs x (by simp)
      have hy := ha.limbs y (by simp)
      simp only [List.length_cons, List.length_nil, if_true, idx_zero_cons, pure_bind]
      rw [idx_eq (by simp), pure_bind, uShl_eq (by omega), pure_bind, u64Add,
        uAdd_eq (by simp; omega), pure_bind]
      congr 2; simp; omega
    | [], ha, _ => exact absurd rfl ha.ne
    | _ :: _ :: _ :: _, _, h => simp at h

theorem to_u128_eq {a : UBig} (ha : Valid a) :
    to_u128 a = pure (if val a < B128 then .ok (val a) else .error .notInRange) := by
  have hlen := length_iff_val ha (k := 4) (by omega)
  have e : B32 ^ 4 = B128 := by norm_num
  rw [e] at hlen
  match a, ha, hlen with
  | [], ha, _ => exact absurd rfl ha.ne
  | [x], ha, hlen => rw [if_pos (hlen.mp (by simp))]; simp [to_u128]
  | [x, y], ha, hlen =>
    have hx := ha.limbs x (by simp)
    have hy := ha.limbs y (by simp)
    rw [if_pos (hlen.mp (by simp)), to_u128, uShl_eq (by omega), pure_bind, u128Add,
      uAdd_eq (by simp; omega), pure_bind]
    congr 2; simp; omega
  | [x, y, z], ha, hlen =>
    have hx := ha.limbs x (by simp)
    have hy := ha.limbs y (by simp)
    have hz := ha.limbs z (by simp)
    rw [if_pos (hlen.mp (by simp)), to_u128, uShl_eq (by omega), pure_bind, u128Add,
      uAdd_eq (by simp; omega), pure_bind, uShl_eq (by omega), pure_bind, uAdd_eq (by simp; omega), pure_bind]
    congr 2; simp; omega
  | [x, y, z, w], ha, hlen =>
    have hx := ha.limbs x (by simp)
    have hy := ha.limbs y (by simp)
    have hz := ha.limbs z (by simp)
    have hw := ha.limbs w (by simp)
    rw [if_pos (hlen.mp (by simp)), to_u128, uShl_eq (by omega), pure_bind, u128Add,
      uAdd_eq (by simp; omega), pure_bind, uShl_eq (by omega), pure_bind, uAdd_eq (by simp; omega),
      pure_bind, uShl_eq (by omega), pure_bind, uAdd_eq (by simp; omega), pure_bind]
    congr 2; simp; omega
  | x :: y :: z :: w :: v :: r, ha, hlen =>
    rw [if_neg]
    · simp [to_u128]
    · intro h; have := hlen.mpr h; simp at this; omega

/-! ### abs_diff -/

theorem abs_diff_eq {a b : UBig} (ha : Valid a) (hb : Valid b) :
    abs_diff a b = pure (ofNat (max (val a) (val b) - min (val a) (val b))) := by
  rw [abs_diff, geq_eq ha hb]
  by_cases h : val b ≤ val a
  · rw [if_pos (by simpa using h), sub_eq ha hb h, max_eq_left h, min_eq_right h]
  · rw [if_neg (by simpa using h), sub_eq hb ha (by omega), max_eq_right (by omega), min_eq_left (by omega)]

theorem abs_diff_u32_eq {a : UBig} {o : Nat} (ha : Valid a) (ho : o < B32) :
    abs_diff_u32 a o = pure (ofNat (max (val a) o - min (val a) o)) := by
  rw [abs_diff_u32, geq_u32_eq ha ho, pure_bind]
  by_cases h : o ≤ val a
  · rw [if_pos (by simpa using h), sub_u32, sub_u32_mut_eq ha ho h, max_eq_left h, min_eq_right h]
  · rw [if_neg (by simpa using h), to_u32_eq ha, if_pos (by omega), pure_bind, unwrapR_ok, pure_bind,
      uSub_eq (by omega), pure_bind, max_eq_right (by omega), min_eq_left (by omega), from_u32_eq (by omega)]

/-! ### limb shifts -/

theorem drop_spec {a : List Nat} (h : Limbs a) (n : Nat) :
    val (a.drop n) = val a / B32 ^ n := by
  induction n generalizing a with
  | zero => simp
  | succ n ih =>
    cases a with
    | nil => simp
    | cons x xs =>
      rw [limbs_cons] at h
      rw [List.drop_succ_cons, ih h.2, val_cons, pow_succ', ← Nat.div_div_eq_div_mul]
      congr 1; omega

theorem take_spec {a : List Nat} (h : Limbs a) (n : Nat) :
    val (a.take n) = val a % B32 ^ n := by
  have h1 : val a = val (a.take n) + B32 ^ (a.take n).length * val (a.drop n) := by
    rw [← val_append, List.take_append_drop]
  have h2 : Limbs (a.take n) := fun d hd => h d (List.mem_of_mem_take hd)
  by_cases hn : n ≤ a.length
  · have hl : (a.take n).length = n := by simp [hn]
    rw [hl] at h1
    have := val_lt h2; rw [hl] at this
    rw [h1, Nat.add_mul_mod_self_left, Nat.mod_eq_of_lt this]
  · rw [List.take_of_length_le (by omega), Nat.mod_eq_of_lt]
    exact lt_of_lt_of_le (val_lt h) (Nat.pow_le_pow_right (by omega) (by omega))

theorem _root_.Hmath.Valid.drop {a : List Nat} (ha : Valid a) {n : Nat} (hn : n < a.length) : Valid (a.drop n) := by
  refine ⟨by simp; omega, fun d hd => ha.limbs d (List.mem_of_mem_drop hd), fun hl => ?_⟩
  rw [List.getLast?_drop, if_neg (by omega)]
  apply ha.top; simp at hl; omega

theorem shift_right_eq {a : UBig} (ha : Valid a) (n : Nat) :
    shift_right a n = ofNat (val a / B32 ^ n) := by
  rw [shift_right]
  by_cases h : n ≥ a.length
  · rw [if_pos h, zero, Nat.div_eq_of_lt, ofNat_zero]
    exact lt_of_lt_of_le (val_lt ha.limbs) (Nat.pow_le_pow_right (by omega) h)
  · rw [if_neg h, ← drop_spec ha.limbs]
    exact (Valid.drop ha (by omega)).eq_ofNat

theorem shift_right_mut_eq {a : UBig} (ha : Valid a) (n : Nat) :
    shift_right_mut a n = ofNat (val a / B32 ^ n) := shift_right_eq ha n

theorem shift_left_eq {a : UBig} (ha : Valid a) (n : Nat) :
    shift_left a n = ofNat (val a * B32 ^ n) := by
  rw [shift_left, is_zero_eq ha]
  by_cases h : val a = 0
  · rw [if_pos (by simpa using h), h, Nat.zero_mul, zero, ofNat_zero]
  · rw [if_neg (by simpa using h)]
    have hv : val (List.replicate n 0 ++ a) = val a * B32 ^ n := by
      rw [val_append, val_replicate_zero]; simp; ring
    rw [← hv]
    apply Valid.eq_ofNat
    refine ⟨by simp [ha.ne], ?_, fun _ => ?_⟩
    · have : Limbs (List.replicate n 0 ++ a) := limbs_append.mpr ⟨limbs_replicate_zero n, ha.limbs⟩
      exact this
    · have ht : a.getLast? ≠ some 0 := by
        have := top_ofNat (val a) (by omega)
        rwa [← ha.eq_ofNat] at this
      rw [List.getLast?_append]
      cases hx : a.getLast? with
      | none => exact absurd (List.getLast?_eq_none_iff.mp hx) ha.ne
      | some x => rw [hx] at ht; simpa using ht

theorem shift_left_mut_eq {a : UBig} (ha : Valid a) (n : Nat) :
    shift_left_mut a n = ofNat (val a * B32 ^ n) := by
  rw [← shift_left_eq ha, shift_left_mut, shift_left]
  by_cases h : is_zero a
  · rw [if_pos h, if_pos h]; simpa [is_zero, zero] using h
  · rw [if_neg h, if_neg h]

theorem slice_right_eq {a : UBig} (ha : Valid a) {n : Nat} (hn : n ≤ a.length) :
    slice_right a n = pure (ofNat (val a % B32 ^ n)) := by
  rw [slice_right]
  by_cases h : n = 0
  · subst h; simp [zero, ofNat_zero, Nat.mod_one]
  · rw [if_neg h, slice_eq (by omega) hn, pure_bind, List.drop_zero, remove_suffix_0_eq, take_spec ha.limbs]
    · simp [ha.ne, h]
    · exact fun d hd => ha.limbs d (List.mem_of_mem_take hd)

theorem slice_right_mut_eq {a : UBig} (ha : Valid a) {n : Nat} (hn : n ≤ a.length) :
    slice_right_mut a n = pure (ofNat (val a % B32 ^ n)) := slice_right_eq ha hn

end UBig
end Hmath
