import Verif.Proofs.Fp192
import Mathlib.Algebra.Order.Floor.Ring
import Mathlib.Tactic.LinearCombination
import Mathlib.Data.Rat.Floor
import Mathlib.Algebra.Order.Floor.Semifield

/-!
# 192-bit floating point numbers: sign, scaling, integers, rounding and addition
-/

namespace Hmath
namespace F192

/-! ### units -/

/-- weight of the last place -/
def ulp (e : Nat) : ℚ := 2 ^ ((e : ℤ) - 2 ^ 48)

theorem ulp_pos (e : Nat) : 0 < ulp e := zpow_pos (by norm_num) _
theorem mg_eq (m e : Nat) : mg m e = m * ulp e := rfl
theorem ulp_add (e k : Nat) : ulp (e + k) = ulp e * 2 ^ k := by
  unfold ulp
  rw [← zpow_natCast, ← zpow_add₀ (by norm_num)]
  congr 1
  push_cast; ring
theorem mg_add (m e k : Nat) : mg m (e + k) = mg m e * 2 ^ k := by
  rw [mg_eq, mg_eq, ulp_add, mul_assoc]
theorem mg_shift (m e k : Nat) : mg (m * 2 ^ k) e = mg m (e + k) := by
  rw [mg_add, mg_eq, mg_eq]; push_cast; ring
theorem ulp_coeff : ulp 281474976710656 = 1 := by
  unfold ulp
  rw [show ((281474976710656 : Nat) : ℤ) - 2 ^ 48 = 0 by norm_num, zpow_zero]
theorem mg_coeff_sub {m k : Nat} (h : k ≤ 281474976710656) : mg m (281474976710656 - k) = m / 2 ^ k := by
  have h1 := ulp_add (281474976710656 - k) k
  rw [Nat.sub_add_cancel h, ulp_coeff] at h1
  rw [mg_eq, eq_div_iff (by positivity), mul_assoc, ← h1, mul_one]
theorem mg_coeff_add {m k : Nat} : mg m (281474976710656 + k) = m * 2 ^ k := by
  rw [mg_add, mg_eq, ulp_coeff, mul_one]

theorem sgn_mul_self (s : Bool) : sgn s * sgn s = 1 := by cases s <;> norm_num [sgn]
theorem sgn_not (s : Bool) : sgn (!s) = -sgn s := by cases s <;> norm_num [sgn]
theorem sgn_xor (a b : Bool) : sgn (a != b) = sgn a * sgn b := by cases a <;> cases b <;> norm_num [sgn]
theorem sgn_ne (s : Bool) : sgn s ≠ 0 := by cases s <;> norm_num [sgn]
theorem abs_sgn (s : Bool) : |sgn s| = 1 := by cases s <;> norm_num [sgn]

/-- the bit pattern of zero -/
def Z (s : Bool) (m e : Nat) : Prop := s = false ∧ m = S127 ∧ e = 0

theorem nz_exp {s : Bool} {m e : Nat} (h : 0 < e) : ¬Z s m e := fun h' => by
  have := h'.2.2; omega
theorem nz_true {m e : Nat} : ¬Z true m e := fun h => Bool.noConfusion h.1

theorem mk_of_not_zero {x : F192} (hx : FValid x) (h0 : fval x ≠ 0) : ∃ s m e, Nrm m ∧ e < B64 ∧ ¬Z s m e ∧
    x = mk' s m e ∧ fval x = sgn s * mg m e := by
  obtain ⟨s, m, e, hm, he, rfl⟩ := exists_mk hx
  rcases fval_cases (s := s) (e := e) hm with ⟨-, -, -, h⟩ | ⟨h, h'⟩
  · exact absurd h h0
  · exact ⟨s, m, e, hm, he, h, rfl, h'⟩

theorem fval_eq_zero {x : F192} (hx : FValid x) : fval x = 0 ↔ x = ZERO :=
  ⟨fun h => fval_inj hx (by decide) (by rw [h, fval_zero]), fun h => by rw [h, fval_zero]⟩

theorem is_zero_eq {x : F192} : is_zero x = decide (x = ZERO) := by
  obtain ⟨d, e⟩ := x
  rw [is_zero, Bool.eq_iff_iff]
  simp only [Bool.and_eq_true, beq_iff_eq, decide_eq_true_eq, ZERO, F192.mk.injEq]
  exact and_comm

theorem abs_fval {s : Bool} {m e : Nat} (h : Nrm m) (h0 : ¬Z s m e) : |fval (mk' s m e)| = mg m e := by
  rw [fval_mk h h0, abs_mul, abs_sgn, one_mul, abs_of_pos (mg_pos h)]

/-! ### sign and scaling -/

section ops
variable {s : Bool} {m e : Nat} (h : Nrm m)
include h

theorem abs_mk : abs (mk' s m e) = mk' false m e := by
  rw [abs, low_mk h, mk_exp, mk', dg_false]

theorem neg_mk (h0 : ¬Z s m e) : neg (mk' s m e) = mk' (!s) m e := by
  rw [neg, is_zero_mk h, if_neg (by simpa [Z] using h0), xor_mk h]
  rfl

theorem shr_mk (h0 : ¬Z s m e) {k : Nat} (hk : k ≤ e) : shr (mk' s m e) k = mk' s m (e - k) := by
  rw [shr, is_zero_mk h, mk_exp, if_neg]
  · rfl
  · simp only [Bool.or_eq_true, decide_eq_true_eq, not_or]
    exact ⟨by omega, h0⟩

omit h in
theorem shr_mk_big {k : Nat} (hk : e < k) : shr (mk' s m e) k = ZERO := by
  rw [shr, mk_exp, if_pos]
  simp only [Bool.or_eq_true, decide_eq_true_eq]
  exact Or.inl hk

theorem shl_mk (h0 : ¬Z s m e) {k : Nat} (hk : e + k < B64) : shl (mk' s m e) k = pure (mk' s m (e + k)) := by
  rw [shl, is_zero_mk h, if_neg (by simpa [Z] using h0), mk_exp, u64Add, uAdd_eq hk]
  rfl

theorem shl_mk_panic (h0 : ¬Z s m e) {k : Nat} (hk : B64 ≤ e + k) : shl (mk' s m e) k = throw .overflow := by
  rw [shl, is_zero_mk h, if_neg (by simpa [Z] using h0), mk_exp, u64Add, uAdd, if_neg (by omega)]
  rfl

theorem step_mk (hm : m + 1 < B128) : step_epsilon (mk' s m e) = pure (mk' s (m + 1) e) := by
  have ha := h.1
  rw [step_epsilon, low_mk h, if_neg (by unfold LOW_MASK; omega)]
  have : dg s m + 1 = dg s (m + 1) := by
    cases s
    · rw [dg_false, dg_false]; omega
    · rw [dg_true, dg_true]; omega
  have h2 : dg s (m + 1) < B128 := by
    cases s
    · rw [dg_false]; omega
    · rw [dg_true]; omega
  rw [mk_digits, u128Add, uAdd, this, if_pos h2]
  rfl

theorem step_mk_carry (hm : m + 1 = B128) (he : e + 1 < B64) :
    step_epsilon (mk' s m e) = pure (mk' s S127 (e + 1)) := by
  rw [step_epsilon, low_mk h, if_pos (by unfold LOW_MASK; omega), mk_exp, u64Add, uAdd_eq he, high_mk h]
  have : signBit s = dg s S127 := by
    cases s
    · rw [dg_false]; rfl
    · rw [dg_true]; rfl
  rw [this]; rfl

end ops

theorem abs_zero : abs ZERO = ZERO := rfl
theorem neg_zero : neg ZERO = ZERO := rfl

/-- the last place up -/
theorem step_c {s : Bool} {m e : Nat} (h : Nrm m) (he : e + 1 < B64) : ∃ m' e', Nrm m' ∧ e' ≤ e + 1 ∧ e ≤ e' ∧
    step_epsilon (mk' s m e) = pure (mk' s m' e') ∧ mg m' e' = mg m e + ulp e := by
  by_cases hm : m + 1 < B128
  · refine ⟨m + 1, e, ⟨by have := h.1; omega, hm⟩, by omega, le_refl _, step_mk h hm, ?_⟩
    rw [mg_eq, mg_eq]; push_cast; ring
  · have hm' : m + 1 = B128 := by have := h.2; omega
    refine ⟨S127, e + 1, nrm_S, le_refl _, by omega, step_mk_carry h hm' he, ?_⟩
    have : (m : ℚ) + 1 = 2 * S127 := by
      have : m + 1 = 2 * S127 := by omega
      exact_mod_cast this
    rw [mg_eq, mg_eq, ulp_add]
    linear_combination (-ulp e) * this

/-! ### integers -/

theorem lz_bounds {n : Nat} (h0 : n ≠ 0) (h : n < B128) : lz128 n ≤ 127 ∧ Nrm (n * 2 ^ lz128 n) := by
  have hl : Nat.log2 n < 128 := (Nat.log2_lt h0).2 (by omega)
  have h1 := Nat.log2_self_le h0
  have h2 := Nat.lt_log2_self (n := n)
  rw [lz128, if_neg h0]
  refine ⟨by omega, ?_, ?_⟩
  · calc S127 = 2 ^ Nat.log2 n * 2 ^ (127 - Nat.log2 n) := by rw [← pow_add, show Nat.log2 n + (127 - Nat.log2 n) = 127 by omega]; norm_num
      _ ≤ _ := Nat.mul_le_mul_right _ h1
  · calc n * 2 ^ (127 - Nat.log2 n) < 2 ^ (Nat.log2 n + 1) * 2 ^ (127 - Nat.log2 n) :=
          Nat.mul_lt_mul_of_pos_right h2 (by positivity)
      _ = B128 := by rw [← pow_add, show Nat.log2 n + 1 + (127 - Nat.log2 n) = 128 by omega]; norm_num

theorem low_eq {d : Nat} (h : Nrm d) : d &&& LOW_MASK = dg false d := by
  rw [show LOW_MASK = 2 ^ 127 - 1 by decide, Nat.and_two_pow_sub_one_eq_mod,
    show (2 : Nat) ^ 127 = S127 by norm_num, dg_false]
  obtain ⟨h1, h2⟩ := h
  omega

theorem from_u128_c {n : Nat} (h0 : n ≠ 0) (h : n < B128) :
    from_u128 n = pure (mk' false (n * 2 ^ lz128 n) (281474976710656 - lz128 n)) := by
  obtain ⟨h1, h2⟩ := lz_bounds h0 h
  have : n * 2 ^ lz128 n % 2 ^ 128 = n * 2 ^ lz128 n := Nat.mod_eq_of_lt h2.2
  rw [from_u128, if_neg h0, uShl_eq (by omega), pure_bind, this, uSub_eq (by unfold EXP_COEFF; omega), pure_bind,
    low_eq h2]
  rfl

theorem fval_from {n : Nat} (h0 : n ≠ 0) (h : n < B128) (s : Bool) :
    Nrm (n * 2 ^ lz128 n) ∧ 281474976710656 - lz128 n < B64 ∧
    fval (mk' s (n * 2 ^ lz128 n) (281474976710656 - lz128 n)) = sgn s * n := by
  obtain ⟨h1, h2⟩ := lz_bounds h0 h
  refine ⟨h2, by omega, ?_⟩
  rw [fval_mk h2 (by intro hz; have := hz.2.2; omega), mg_coeff_sub (by omega)]
  push_cast
  rw [mul_div_assoc, div_self (by positivity), mul_one]

theorem from_uint_c {n : Nat} (h : n < B128) : ∃ x, from_uint n = pure x ∧ FValid x ∧ fval x = n := by
  by_cases h0 : n = 0
  · subst h0; exact ⟨ZERO, rfl, by decide, by rw [fval_zero]; rfl⟩
  · obtain ⟨h1, h2, h3⟩ := fval_from h0 h false
    exact ⟨_, from_u128_c h0 h, valid_mk h1 h2, by rw [h3, sgn_false, one_mul]⟩

theorem from_int_c {n : Int} (h1 : -170141183460469231731687303715884105728 < n)
    (h2 : n < 170141183460469231731687303715884105728) : ∃ x, from_int n = pure x ∧ FValid x ∧ fval x = n := by
  unfold from_int from_i128
  by_cases hn : n < 0
  · obtain ⟨g1, g2, g3⟩ := fval_from (n := n.natAbs) (by omega) (by omega) true
    rw [if_pos hn, if_neg (by omega), from_u128_c (by omega) (by omega), pure_bind]
    refine ⟨_, rfl, ?_⟩
    have : (mk' false (n.natAbs * 2 ^ lz128 n.natAbs) (281474976710656 - lz128 n.natAbs)).digits ||| SIGN_MASK =
        dg true (n.natAbs * 2 ^ lz128 n.natAbs) := by
      rw [or_mk g1, dg_true]
      have := g1.1
      omega
    rw [this]
    refine ⟨valid_mk g1 g2, ?_⟩
    refine Eq.trans g3 ?_
    rw [sgn_true, Nat.cast_natAbs, abs_of_neg hn]
    push_cast; ring
  · rw [if_neg hn]
    obtain ⟨x, x1, x2, x3⟩ := from_uint_c (n := n.toNat) (by omega)
    refine ⟨x, x1, x2, ?_⟩
    rw [x3]
    exact_mod_cast Int.toNat_of_nonneg (by omega)

theorem is_neg_c {x : F192} (hx : FValid x) : is_neg x = decide (fval x < 0) := by
  obtain ⟨s, m, e, hm, he, rfl⟩ := exists_mk hx
  rw [is_neg_mk hm]
  cases s
  · have := fval_nonneg (e := e) hm
    simpa using this
  · rw [fval_neg hm]
    have := mg_pos (e := e) hm
    simpa using this

theorem to_u128_c {m e : Nat} (h : Nrm m) (h0 : ¬Z false m e) : to_u128 (mk' false m e) =
    if 281474976710656 < e then pure none
    else if e + 128 ≤ 281474976710656 then throw .overflow
    else pure (some (m / 2 ^ (281474976710656 - e))) := by
  rw [to_u128, is_zero_mk h, if_neg (by simpa [Z] using h0), is_neg_mk h, or_mk h, mk_exp]
  by_cases h1 : 281474976710656 < e
  · rw [if_pos h1, if_pos (by simpa [EXP_COEFF] using h1)]
  · rw [if_neg h1, if_neg (by simpa [EXP_COEFF] using h1)]
    by_cases h2 : e + 128 ≤ 281474976710656
    · rw [if_pos h2, uShr, if_neg (by unfold EXP_COEFF; omega)]; rfl
    · rw [if_neg h2, uShr_eq (by unfold EXP_COEFF; omega), pure_bind]; rfl

/-- `e ≤ COEFF`: the value -/
theorem mg_le_coeff {m e : Nat} (he : e ≤ 281474976710656) : mg m e = m / 2 ^ (281474976710656 - e) := by
  have := mg_coeff_sub (m := m) (k := 281474976710656 - e) (by omega)
  rwa [show 281474976710656 - (281474976710656 - e) = e by omega] at this

theorem floor_mg {m e : Nat} (he : e ≤ 281474976710656) :
    ⌊mg m e⌋ = ((m / 2 ^ (281474976710656 - e) : Nat) : ℤ) := by
  rw [mg_le_coeff he]
  have := Nat.floor_div_eq_div (K := ℚ) m (2 ^ (281474976710656 - e))
  rw [← this]
  push_cast
  rw [Int.natCast_floor_eq_floor (by positivity)]

theorem mg_big {m e : Nat} (h : Nrm m) (he : 281474976710656 < e) : (2 ^ 128 : ℚ) ≤ mg m e := by
  have := mg_lt_of_exp (m₁ := S127) (m₂ := m) nrm_S h he
  have h2 : ((S127 : Nat) : ℚ) * 2 ≤ mg m e := by
    have : ulp (281474976710656 + 1) ≤ ulp e := by
      unfold ulp
      exact zpow_le_zpow_right₀ (by norm_num) (by omega)
    rw [ulp_add, ulp_coeff] at this
    rw [mg_eq]
    have a2 : ((S127 : Nat) : ℚ) ≤ m := by exact_mod_cast h.1
    exact mul_le_mul a2 (by linarith) (by norm_num) (by positivity)
  norm_num at h2 ⊢
  exact h2

theorem mg_small {m e : Nat} (h : Nrm m) (he : e + 128 ≤ 281474976710656) : mg m e < 1 := by
  rw [mg_le_coeff (by omega), div_lt_one (by positivity)]
  have : m < 2 ^ (281474976710656 - e) := by
    calc m < B128 := h.2
      _ = 2 ^ 128 := by norm_num
      _ ≤ _ := Nat.pow_le_pow_right (by norm_num) (by omega)
  exact_mod_cast this

theorem mg_one_le {m e : Nat} (h : Nrm m) (he : 281474976710656 < e + 128) : 1 ≤ mg m e := by
  by_cases h2 : e ≤ 281474976710656
  · rw [mg_le_coeff h2, one_le_div (by positivity)]
    have : 2 ^ (281474976710656 - e) ≤ m := by
      calc 2 ^ (281474976710656 - e) ≤ 2 ^ 127 := Nat.pow_le_pow_right (by norm_num) (by omega)
        _ = S127 := by norm_num
        _ ≤ _ := h.1
    exact_mod_cast this
  · have := mg_big (e := e) h (by omega)
    linarith

end F192
end Hmath
