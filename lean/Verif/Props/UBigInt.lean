import Verif.Proofs.DivRem

/-!
# Properties of `UBigInt` arithmetic (C01 – C09, C11)

Every theorem is about all valid limb vectors, of any length.
-/

namespace Hmath
namespace Props
open UBig

theorem computes_of_eq {m : M (List Nat)} {n : Nat} (h : m = pure (ofNat n)) : Computes m n :=
  ⟨ofNat n, h, valid_ofNat n, val_ofNat n⟩

theorem panics_of_eq {α : Type} {m : M α} {p : Panic} (h : m = throw p) : Panics m := ⟨p, h⟩

/-! ## C01 addition -/

theorem C01_add {a b : UBig} (ha : Valid a) (hb : Valid b) : Computes (add a b) (val a + val b) :=
  computes_of_eq (add_eq ha hb)

example : Computes (add [4294967295, 4294967295] [1]) (2 ^ 64) :=
  C01_add (a := [4294967295, 4294967295]) (b := [1]) (by decide) (by decide)

theorem C01_add_mut {a b : UBig} (ha : Valid a) (hb : Valid b) :
    Computes (add_mut a b) (val a + val b) :=
  computes_of_eq (add_mut_eq ha hb)

example : Computes (add_mut [1] [4294967295, 4294967295]) (2 ^ 64) :=
  C01_add_mut (a := [1]) (b := [4294967295, 4294967295]) (by decide) (by decide)

theorem C01_add_u32 {a : UBig} {o : Nat} (ha : Valid a) (ho : o < 2 ^ 32) :
    Computes (add_u32 a o) (val a + o) ∧ Computes (add_u32_mut a o) (val a + o) :=
  ⟨computes_of_eq (add_u32_eq ha ho), computes_of_eq (add_u32_mut_eq ha ho)⟩

example : Computes (add_u32 [4294967295, 4294967295] 7) (2 ^ 64 + 6) :=
  (C01_add_u32 (a := [4294967295, 4294967295]) (o := 7) (by decide) (by decide)).1

/-! ## C02 subtraction -/

theorem C02_sub {a b : UBig} (ha : Valid a) (hb : Valid b) (h : val b ≤ val a) :
    Computes (sub a b) (val a - val b) ∧ Computes (sub_mut a b) (val a - val b) :=
  ⟨computes_of_eq (sub_eq ha hb h), computes_of_eq (sub_mut_eq ha hb h)⟩

example : Computes (sub [0, 0, 1] [1]) (2 ^ 64 - 1) :=
  (C02_sub (a := [0, 0, 1]) (b := [1]) (by decide) (by decide) (by simp)).1

theorem C02_sub_panics {a b : UBig} (ha : Valid a) (hb : Valid b) (h : val a < val b) :
    Panics (sub a b) ∧ Panics (sub_mut a b) :=
  ⟨sub_mut_panics ha hb h, sub_mut_panics ha hb h⟩

example : Panics (sub [5, 1] [6, 1]) :=
  (C02_sub_panics (a := [5, 1]) (b := [6, 1]) (by decide) (by decide) (by simp)).1

theorem C02_sub_u32 {a : UBig} {o : Nat} (ha : Valid a) (ho : o < 2 ^ 32) (h : o ≤ val a) :
    Computes (sub_u32 a o) (val a - o) ∧ Computes (sub_u32_mut a o) (val a - o) :=
  ⟨computes_of_eq (sub_u32_mut_eq ha ho h), computes_of_eq (sub_u32_mut_eq ha ho h)⟩

example : Computes (sub_u32 [0, 0, 1] 3) (2 ^ 64 - 3) :=
  (C02_sub_u32 (a := [0, 0, 1]) (o := 3) (by decide) (by decide) (by simp)).1

theorem C02_sub_u32_panics {a : UBig} {o : Nat} (ha : Valid a) (ho : o < 2 ^ 32) (h : val a < o) :
    Panics (sub_u32 a o) ∧ Panics (sub_u32_mut a o) :=
  ⟨sub_u32_mut_panics ha h ho, sub_u32_mut_panics ha h ho⟩

example : Panics (sub_u32 [5] 6) :=
  (C02_sub_u32_panics (a := [5]) (o := 6) (by decide) (by decide) (by simp)).1

theorem C02_abs_diff {a b : UBig} (ha : Valid a) (hb : Valid b) :
    Computes (abs_diff a b) (Int.natAbs ((val a : Int) - val b)) := by
  have := computes_of_eq (abs_diff_eq ha hb)
  rwa [show max (val a) (val b) - min (val a) (val b) = Int.natAbs ((val a : Int) - val b) by omega] at this

example : Computes (abs_diff [1] [0, 1]) (2 ^ 32 - 1) :=
  C02_abs_diff (a := [1]) (b := [0, 1]) (by decide) (by decide)

theorem C02_abs_diff_u32 {a : UBig} {o : Nat} (ha : Valid a) (ho : o < 2 ^ 32) :
    Computes (abs_diff_u32 a o) (Int.natAbs ((val a : Int) - o)) := by
  have := computes_of_eq (abs_diff_u32_eq ha ho)
  rwa [show max (val a) o - min (val a) o = Int.natAbs ((val a : Int) - o) by omega] at this

example : Computes (abs_diff_u32 [1] 10) 9 :=
  C02_abs_diff_u32 (a := [1]) (o := 10) (by decide) (by decide)

/-! ## C03 multiplication -/

theorem C03_mul {a b : UBig} (ha : Valid a) (hb : Valid b) :
    Computes (mul a b) (val a * val b) ∧ Computes (mul_mut a b) (val a * val b) :=
  ⟨computes_of_eq (mul_eq ha hb), computes_of_eq (mul_mut_eq ha hb)⟩

example : Computes (mul [4294967295, 4294967295] [4294967295]) ((2 ^ 64 - 1) * (2 ^ 32 - 1)) :=
  (C03_mul (a := [4294967295, 4294967295]) (b := [4294967295]) (by decide) (by decide)).1

/-- a case in which the Karatsuba branch is taken -/
example : Computes (mul (List.replicate 65 4294967295) (List.replicate 65 7))
    (val (List.replicate 65 4294967295) * val (List.replicate 65 7)) :=
  (C03_mul (by decide) (by decide)).1

theorem C03_mul_u32 {a : UBig} {o : Nat} (ha : Valid a) (ho : o < 2 ^ 32) :
    Computes (mul_u32 a o) (val a * o) ∧ Computes (mul_u32_mut a o) (val a * o) :=
  ⟨computes_of_eq (mul_u32_eq ha ho), computes_of_eq (mul_u32_mut_eq ha ho)⟩

example : Computes (mul_u32 [4294967295, 4294967295] 4294967295) ((2 ^ 64 - 1) * (2 ^ 32 - 1)) :=
  (C03_mul_u32 (a := [4294967295, 4294967295]) (o := 4294967295) (by decide) (by decide)).1

/-! ## C04 division -/

theorem C04_div_rem {a b : UBig} (ha : Valid a) (hb : Valid b) (hb0 : val b ≠ 0) :
    ∃ q r, div a b = pure q ∧ rem a b = pure r ∧ Valid q ∧ Valid r ∧
      val a = val q * val b + val r ∧ val r < val b := by
  have h0 := Nat.pos_of_ne_zero hb0
  refine ⟨_, _, div_eq ha hb h0, rem_eq ha hb h0, valid_ofNat _, valid_ofNat _, ?_, ?_⟩
  · simp only [val_ofNat]; rw [Nat.mul_comm]; exact (Nat.div_add_mod _ _).symm
  · simp only [val_ofNat]; exact Nat.mod_lt _ h0

example : ∃ q r, div [1, 2, 3, 4, 5, 6] [7, 8, 9] = pure q ∧ rem [1, 2, 3, 4, 5, 6] [7, 8, 9] = pure r ∧
    Valid q ∧ Valid r ∧ val [1, 2, 3, 4, 5, 6] = val q * val [7, 8, 9] + val r ∧ val r < val [7, 8, 9] :=
  C04_div_rem (by decide) (by decide) (by simp)

theorem C04_div_rem_mut {a b : UBig} (ha : Valid a) (hb : Valid b) (hb0 : val b ≠ 0) :
    ∃ q r, div_mut a b = pure q ∧ rem_mut a b = pure r ∧ Valid q ∧ Valid r ∧
      val a = val q * val b + val r ∧ val r < val b := C04_div_rem ha hb hb0

example : ∃ q r, div_mut [1, 2, 3, 4, 5] [7, 8] = pure q ∧ rem_mut [1, 2, 3, 4, 5] [7, 8] = pure r ∧
    Valid q ∧ Valid r ∧ val [1, 2, 3, 4, 5] = val q * val [7, 8] + val r ∧ val r < val [7, 8] :=
  C04_div_rem_mut (by decide) (by decide) (by simp)

theorem C04_div_zero {a b : UBig} (ha : Valid a) (hb : Valid b) (hb0 : val b = 0) :
    Panics (div a b) ∧ Panics (rem a b) ∧ Panics (div_mut a b) ∧ Panics (rem_mut a b) :=
  ⟨⟨_, div_panics ha hb hb0⟩, ⟨_, rem_panics ha hb hb0⟩, ⟨_, div_panics ha hb hb0⟩,
    ⟨_, rem_panics ha hb hb0⟩⟩

example : Panics (div [1, 2, 3, 4, 5, 6] [0]) :=
  (C04_div_zero (a := [1, 2, 3, 4, 5, 6]) (b := [0]) (by decide) (by decide) (by simp)).1

/-! ## C05 word division -/

theorem C05_div_u32 {a : UBig} {o : Nat} (ha : Valid a) (ho : o < 2 ^ 32) (ho0 : o ≠ 0) :
    Computes (div_u32 a o) (val a / o) ∧ Computes (div_u32_mut a o) (val a / o) :=
  ⟨computes_of_eq (div_u32_eq ha ho (Nat.pos_of_ne_zero ho0)),
    computes_of_eq (div_u32_mut_eq ha ho (Nat.pos_of_ne_zero ho0))⟩

example : Computes (div_u32 [0, 0, 1] 4294967295) (2 ^ 64 / 4294967295) :=
  (C05_div_u32 (a := [0, 0, 1]) (o := 4294967295) (by decide) (by decide) (by decide)).1

theorem C05_div_u32_zero {a : UBig} (ha : Valid a) :
    Panics (div_u32 a 0) ∧ Panics (div_u32_mut a 0) :=
  ⟨⟨_, div_u32_mut_zero ha⟩, ⟨_, div_u32_mut_zero ha⟩⟩

example : Panics (div_u32 [3, 4] 0) := (C05_div_u32_zero (a := [3, 4]) (by decide)).1

/-- `rem_u32` for numbers of up to `2^32` limbs (16 GiB); beyond, the `u64`
accumulator may overflow. -/
theorem C05_rem_u32_partial {a : UBig} {o : Nat} (ha : Valid a) (ho : o < 2 ^ 32) (ho0 : o ≠ 0)
    (hlen : a.length ≤ 2 ^ 32) : Computes (rem_u32 a o) (val a % o) :=
  computes_of_eq (rem_u32_eq ha ho (Nat.pos_of_ne_zero ho0) hlen)

example : Computes (rem_u32 [5, 6, 4294967295] 4294967291) (val [5, 6, 4294967295] % 4294967291) :=
  C05_rem_u32_partial (by decide) (by decide) (by decide) (by decide)

theorem C05_rem_u32_zero (a : UBig) : Panics (rem_u32 a 0) ∧ Panics (rem_u32_mut a 0) :=
  ⟨⟨.divZero, rfl⟩, ⟨.divZero, rfl⟩⟩

example : Panics (rem_u32 [5, 6] 0) := (C05_rem_u32_zero [5, 6]).1

/-- Full claim for the mutating form is false: `rem_u32_mut` multiplies in `u32`. -/
theorem C05_rem_u32_mut_overflow :
    ∃ a o, Valid a ∧ o < 2 ^ 32 ∧ o ≠ 0 ∧ Panics (rem_u32_mut a o) ∧
      Computes (rem_u32 a o) (val a % o) :=
  ⟨[0, 4294967290], 4294967291, by decide, by decide, by decide, ⟨.overflow, rfl⟩,
    C05_rem_u32_partial (by decide) (by decide) (by decide) (by decide)⟩

/-- What holds of `rem_u32_mut`: moduli up to `2^16` and at most `2^16` limbs. -/
theorem C05_rem_u32_mut_partial {a : UBig} {o : Nat} (ha : Valid a) (ho0 : o ≠ 0) (ho : o ≤ 2 ^ 16)
    (hlen : a.length < 2 ^ 16) : Computes (rem_u32_mut a o) (val a % o) :=
  computes_of_eq (rem_u32_mut_eq ha (Nat.pos_of_ne_zero ho0) ho hlen)

example : Computes (rem_u32_mut [5, 6, 4294967295] 65536) (val [5, 6, 4294967295] % 65536) :=
  C05_rem_u32_mut_partial (by decide) (by decide) (by decide) (by decide)

theorem remU32MutLoop_or (o : Nat) (ho0 : 0 < o) (ds : List Nat) (p res : Nat) :
    remU32MutLoop o (B32 % o) ds p res = throw .overflow ∨
    ∃ r, remU32MutLoop o (B32 % o) ds p res = pure r ∧ r % o = (res + p * val ds) % o := by
  induction ds generalizing p res with
  | nil => exact .inr ⟨res, by rw [remU32MutLoop], by simp⟩
  | cons d ds ih =>
    rw [remU32MutLoop, uRem_eq (by omega), pure_bind]
    rcases Nat.lt_or_ge (d % o * p) B32 with h1 | h1
    swap
    · left; rw [u32Mul, uMul, if_neg (by omega)]; rfl
    rw [u32Mul, uMul_eq h1, pure_bind, uRem_eq (by omega), pure_bind]
    rcases Nat.lt_or_ge (res + d % o * p % o) B32 with h2 | h2
    swap
    · left; rw [u32Add, uAdd, if_neg (by omega)]; rfl
    rw [u32Add, uAdd_eq h2, pure_bind]
    rcases Nat.lt_or_ge (p * (B32 % o)) B32 with h3 | h3
    swap
    · left; rw [uMul, if_neg (by omega)]; rfl
    rw [uMul_eq h3, pure_bind, uRem_eq (by omega), pure_bind]
    rcases ih (p * (B32 % o) % o) (res + d % o * p % o) with h | ⟨r, k1, k3⟩
    · exact .inl h
    · refine .inr ⟨r, k1, ?_⟩
      rw [k3, val_cons]
      have e : p * (d + B32 * val ds) = d * p + p * B32 * val ds := by ring
      rw [e]
      simp [Nat.add_mod, Nat.mul_mod, Nat.add_assoc]

/-- Whatever `rem_u32_mut` returns is right, for every modulus and every length. -/
theorem C05_rem_u32_mut_returned (a : UBig) {o : Nat} (ho : o < 2 ^ 32) (ho0 : o ≠ 0) :
    Panics (rem_u32_mut a o) ∨ Computes (rem_u32_mut a o) (val a % o) := by
  have hp := Nat.pos_of_ne_zero ho0
  have hu := Nat.mod_lt B32 hp
  have e : rem_u32_mut a o = remU32MutLoop o (B32 % o) a 1 0 >>= fun r => uRem r o >>= fun r => pure (from_u32 r) := by
    rw [rem_u32_mut, uRem_eq (by omega), pure_bind, Nat.mod_eq_of_lt (b := B32) (by omega)]
  rcases remU32MutLoop_or o hp a 1 0 with h | ⟨r, h, hr⟩
  · exact .inl ⟨.overflow, by rw [e, h]; rfl⟩
  · refine .inr (computes_of_eq ?_)
    have := Nat.mod_lt r hp
    rw [e, h, pure_bind, uRem_eq (by omega), pure_bind, from_u32_eq (by omega), hr]
    simp

example : Computes (rem_u32_mut [5, 1] 4294967291) (val [5, 1] % 4294967291) := by
  rcases C05_rem_u32_mut_returned [5, 1] (o := 4294967291) (by decide) (by decide) with ⟨p, h⟩ | h
  · exact absurd h (by cases p <;> exact fun h => nomatch h)
  · exact h

/-- Numbers of one limb never panic. -/
theorem C05_rem_u32_mut_one {x o : Nat} (ho : o < 2 ^ 32) (ho0 : o ≠ 0) :
    Computes (rem_u32_mut [x] o) (x % o) := by
  have hp := Nat.pos_of_ne_zero ho0
  have hu := Nat.mod_lt B32 hp
  have hxo := Nat.mod_lt x hp
  refine computes_of_eq ?_
  rw [rem_u32_mut, uRem_eq (by omega), pure_bind, Nat.mod_eq_of_lt (b := B32) (by omega)]
  simp only [remU32MutLoop]
  rw [uRem_eq (by omega), pure_bind, u32Mul, uMul_eq (by omega), pure_bind, uRem_eq (by omega), pure_bind, u32Add,
    uAdd_eq (by rw [Nat.mul_one, Nat.mod_mod]; omega), pure_bind, uMul_eq (by omega), pure_bind, uRem_eq (by omega), pure_bind, pure_bind,
    uRem_eq (by omega), pure_bind, from_u32_eq (by rw [Nat.mul_one, Nat.mod_mod, Nat.zero_add, Nat.mod_mod]; omega)]
  simp

example : Computes (rem_u32_mut [4294967295] 4294967291) 4 := C05_rem_u32_mut_one (by decide) (by decide)

/-! ## C06 comparison -/

theorem C06_lt {a b : UBig} (ha : Valid a) (hb : Valid b) : lt a b = true ↔ val a < val b := by
  rw [lt_eq ha hb]; simp
theorem C06_gt {a b : UBig} (ha : Valid a) (hb : Valid b) : gt a b = true ↔ val a > val b := by
  rw [gt_eq ha hb]; simp
theorem C06_leq {a b : UBig} (ha : Valid a) (hb : Valid b) : leq a b = true ↔ val a ≤ val b := by
  rw [leq_eq ha hb]; simp
theorem C06_geq {a b : UBig} (ha : Valid a) (hb : Valid b) : geq a b = true ↔ val a ≥ val b := by
  rw [geq_eq ha hb]; simp
theorem C06_eq {a b : UBig} (ha : Valid a) (hb : Valid b) : eq a b = true ↔ val a = val b := by
  rw [eq_eq ha hb]; simp
theorem C06_neq {a b : UBig} (ha : Valid a) (hb : Valid b) : neq a b = true ↔ val a ≠ val b := by
  rw [neq_eq ha hb]; simp
theorem C06_comp {a b : UBig} (ha : Valid a) (hb : Valid b) :
    comp a b = compare (val a) (val b) := comp_eq ha hb

example : lt [0, 3] [1, 3] = true ∧ gt [0, 0, 1] [7, 9] = true ∧ leq [5] [5] = true ∧ geq [5] [5] = true ∧
    eq [5, 1] [5, 1] = true ∧ neq [5, 1] [5, 2] = true ∧ comp [5, 1] [4, 2] = .lt :=
  ⟨(C06_lt (by decide) (by decide)).mpr (by simp), (C06_gt (by decide) (by decide)).mpr (by simp),
    (C06_leq (by decide) (by decide)).mpr (by simp), (C06_geq (by decide) (by decide)).mpr (by simp),
    (C06_eq (by decide) (by decide)).mpr (by simp), (C06_neq (by decide) (by decide)).mpr (by simp),
    (C06_comp (by decide) (by decide)).trans (by decide)⟩

theorem C06_u32 {a : UBig} {o : Nat} (ha : Valid a) (ho : o < 2 ^ 32) :
    lt_u32 a o = pure (decide (val a < o)) ∧ gt_u32 a o = pure (decide (val a > o)) ∧
    leq_u32 a o = pure (decide (val a ≤ o)) ∧ geq_u32 a o = pure (decide (val a ≥ o)) ∧
    eq_u32 a o = pure (decide (val a = o)) ∧ neq_u32 a o = pure (decide (val a ≠ o)) ∧
    comp_u32 a o = pure (compare (val a) o) :=
  ⟨lt_u32_eq ha ho, gt_u32_eq ha ho, leq_u32_eq ha ho, geq_u32_eq ha ho, eq_u32_eq ha ho,
    neq_u32_eq ha ho, comp_u32_eq ha ho⟩

example : lt_u32 [4, 1] 4294967295 = pure false :=
  (C06_u32 (a := [4, 1]) (o := 4294967295) (by decide) (by decide)).1

theorem C06_is_zero_one {a : UBig} (ha : Valid a) :
    (is_zero a = true ↔ val a = 0) ∧ (is_one a = true ↔ val a = 1) := by
  rw [is_zero_eq ha, is_one_eq ha]; simp

example : is_zero [0] = true := (C06_is_zero_one (by decide)).1.mpr (by simp)

/-! ## C07 powers -/

/-- `pow_u32` for exponents below `2^31`.  The full claim (every `u32` exponent)
is false, see `C07_pow_u32_overflow`. -/
theorem C07_pow_u32_partial {a : UBig} {e : Nat} (ha : Valid a) (he : e < 2 ^ 31) :
    Computes (pow_u32 a e) (val a ^ e) ∧ Computes (pow_u32_mut a e) (val a ^ e) :=
  ⟨computes_of_eq (pow_u32_eq ha he), computes_of_eq (pow_u32_eq ha he)⟩

example : Computes (pow_u32 [3, 5] 1225) ((3 + 5 * 2 ^ 32) ^ 1225) := by
  have := (C07_pow_u32_partial (a := [3, 5]) (e := 1225) (by decide) (by decide)).1
  have e : val [3, 5] = 3 + 5 * 2 ^ 32 := by simp
  rwa [e] at this

/-- Every exponent `≥ 2^31` overflows the doubling counter, whatever the base
(even `0` and `1`). -/
theorem C07_pow_u32_overflow {a : UBig} {e : Nat} (ha : Valid a) (he : 2 ^ 31 ≤ e) :
    Panics (pow_u32 a e) ∧ Panics (pow_u32_mut a e) :=
  ⟨⟨_, pow_u32_panics ha he⟩, ⟨_, pow_u32_panics ha he⟩⟩

example : Panics (pow_u32 [1] (2 ^ 31)) := (C07_pow_u32_overflow (a := [1]) (by decide) (le_refl _)).1

theorem C07_pow2 (e : Nat) : Computes (pow2 e) (2 ^ e) := computes_of_eq (pow2_eq e)
theorem C07_exp2 (e : Nat) : Computes (exp2 e) (2 ^ e) := computes_of_eq (exp2_eq e)

example : Computes (pow2 100) (2 ^ 100) ∧ Computes (exp2 100) (2 ^ 100) := ⟨C07_pow2 100, C07_exp2 100⟩

/-! ## C08 scaling by powers of two, limb shifts -/

theorem C08_mul_pow2 {a : UBig} {e : Nat} (ha : Valid a) :
    Computes (mul_pow2 a e) (val a * 2 ^ e) ∧ Computes (mul_pow2_mut a e) (val a * 2 ^ e) :=
  ⟨computes_of_eq (mul_pow2_eq ha), computes_of_eq (mul_pow2_mut_eq ha)⟩

example : Computes (mul_pow2 [4294967295] 45) (4294967295 * 2 ^ 45) :=
  (C08_mul_pow2 (a := [4294967295]) (by decide)).1

theorem C08_rem_pow2 {a : UBig} {k : Nat} (ha : Valid a) (hk : k < 32) :
    Computes (rem_pow2 a (2 ^ k)) (val a % 2 ^ k) := computes_of_eq (rem_pow2_eq ha hk)

example : Computes (rem_pow2 [4294967295, 3] (2 ^ 31)) (val [4294967295, 3] % 2 ^ 31) :=
  C08_rem_pow2 (by decide) (by decide)

theorem C08_shift_left {a : UBig} (ha : Valid a) (n : Nat) :
    Valid (shift_left a n) ∧ val (shift_left a n) = val a * 2 ^ (32 * n) ∧
      shift_left_mut a n = shift_left a n := by
  have e : 2 ^ (32 * n) = B32 ^ n := by rw [pow_mul]; norm_num
  rw [shift_left_eq ha, shift_left_mut_eq ha, val_ofNat, e]
  exact ⟨valid_ofNat _, rfl, rfl⟩

example : val (shift_left [5, 6] 3) = (5 + 6 * 2 ^ 32) * 2 ^ 96 := by
  rw [(C08_shift_left (a := [5, 6]) (by decide) 3).2.1]; simp

theorem C08_shift_right {a : UBig} (ha : Valid a) (n : Nat) :
    Valid (shift_right a n) ∧ val (shift_right a n) = val a / 2 ^ (32 * n) ∧
      shift_right_mut a n = shift_right a n := by
  have e : 2 ^ (32 * n) = B32 ^ n := by rw [pow_mul]; norm_num
  rw [shift_right_eq ha, shift_right_mut_eq ha, val_ofNat, e]
  exact ⟨valid_ofNat _, rfl, rfl⟩

example : val (shift_right [5, 6, 7] 1) = val [5, 6, 7] / 2 ^ 32 :=
  (C08_shift_right (a := [5, 6, 7]) (by decide) 1).2.1

theorem C08_slice_right {a : UBig} (ha : Valid a) {n : Nat} (hn : n ≤ a.length) :
    Computes (slice_right a n) (val a % 2 ^ (32 * n)) ∧
      Computes (slice_right_mut a n) (val a % 2 ^ (32 * n)) := by
  have e : 2 ^ (32 * n) = B32 ^ n := by rw [pow_mul]; norm_num
  rw [e]
  exact ⟨computes_of_eq (slice_right_eq ha hn), computes_of_eq (slice_right_mut_eq ha hn)⟩

example : Computes (slice_right [5, 0, 7] 2) (val [5, 0, 7] % 2 ^ 64) :=
  (C08_slice_right (a := [5, 0, 7]) (by decide) (n := 2) (by decide)).1

/-! ## C09 logarithm -/

/-- `hlen`: numbers of up to `2^58` limbs, which is more than any memory holds. -/
theorem C09_log2 {a : UBig} (ha : Valid a) (h1 : 1 ≤ val a) (hlen : a.length ≤ 2 ^ 58) :
    ∃ c, log2 a = pure c ∧ Valid c ∧ 2 ^ val c ≤ val a ∧ val a < 2 ^ (val c + 1) := by
  refine ⟨_, log2_eq ha hlen, valid_ofNat _, ?_, ?_⟩
  · rw [val_ofNat]; exact Nat.log2_self_le (by omega)
  · rw [val_ofNat]; exact Nat.lt_log2_self

example : ∃ c, log2 [0, 5] = pure c ∧ Valid c ∧ 2 ^ val c ≤ val [0, 5] ∧ val [0, 5] < 2 ^ (val c + 1) :=
  C09_log2 (by decide) (by simp) (by decide)

/-! ## C11 gcd -/

theorem C11_gcd_ubi {a b : UBig} (ha : Valid a) (hb : Valid b) :
    ∃ c, gcd_ubi a b = pure c ∧ Valid c ∧ val c ∣ val a ∧ val c ∣ val b ∧
      (∀ d, d ∣ val a → d ∣ val b → d ∣ val c) := by
  refine ⟨_, gcd_ubi_eq ha hb, valid_ofNat _, ?_⟩
  rw [val_ofNat]
  exact ⟨Nat.gcd_dvd_left _ _, Nat.gcd_dvd_right _ _, fun d => Nat.dvd_gcd⟩

example : ∃ c, gcd_ubi [0, 6] [0, 4] = pure c ∧ Valid c ∧ val c ∣ val [0, 6] ∧ val c ∣ val [0, 4] ∧
    (∀ d, d ∣ val [0, 6] → d ∣ val [0, 4] → d ∣ val c) := C11_gcd_ubi (by decide) (by decide)

theorem C11_gcd_ubi_zero {a b : UBig} (ha : Valid a) (hb : Valid b) :
    (val a = 0 → Computes (gcd_ubi a b) (val b)) ∧ (val b = 0 → Computes (gcd_ubi a b) (val a)) := by
  have := computes_of_eq (gcd_ubi_eq ha hb)
  constructor
  · intro h; rwa [h, Nat.gcd_zero_left] at this
  · intro h; rwa [h, Nat.gcd_zero_right] at this

example : Computes (gcd_ubi [0] [0]) 0 := (C11_gcd_ubi_zero (a := [0]) (b := [0]) (by decide) (by decide)).1 rfl

end Props
end Hmath
