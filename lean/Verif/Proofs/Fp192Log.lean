import Verif.Proofs.Fp192Str
import Mathlib.Analysis.SpecialFunctions.Log.Base
import Mathlib.Analysis.Complex.ExponentialBounds

/-!
# 192-bit floating point numbers: logarithms
-/

namespace Hmath
namespace F192

open Real (logb)

theorem squares_c {s : Bool} {m e : Nat} (hm : Nrm m) : ∀ (j : Nat) (r : F192) (n k : Nat), IsPow s m e r n k → k + 1 = n → PRange e (n * 2 ^ j) →
    ∃ r' k', squares j r = pure r' ∧ IsPow s m e r' (n * 2 ^ j) k' ∧ k' + 1 = n * 2 ^ j
  | 0, r, n, k, h, hk, _ => ⟨r, k, rfl, by simpa using h, by simpa using hk⟩
  | j + 1, r, n, k, h, hk, hR => by
    have e2 : n * 2 ^ (j + 1) = (n + n) * 2 ^ j := by rw [pow_succ]; ring
    rw [e2] at hR ⊢
    have hle : n + n ≤ (n + n) * 2 ^ j := Nat.le_mul_of_pos_right _ (by positivity)
    obtain ⟨r', h1, h2⟩ := h.mul hm h (by omega) (hR.le hle)
    rw [squares, h1, pure_bind]
    exact squares_c hm j r' (n + n) (k + k + 1) h2 (by omega) hR

/-- the error of a product in the logarithm -/
theorem log_ue : -(5 / 2 ^ 126) ≤ logb 2 (((1 - ue : ℚ) : ℝ)) := by
  have h0 : (0 : ℝ) < ((1 - ue : ℚ) : ℝ) := by
    have := sub_pos.2 ue_lt
    exact_mod_cast this
  have h1 := Real.one_sub_inv_le_log_of_pos h0
  have h2 := Real.log_two_gt_d9
  have hv : ((1 - ue : ℚ) : ℝ) = 1 - 3 / 2 ^ 126 := by rw [ue]; push_cast; rfl
  rw [Real.logb, le_div_iff₀ (by linarith)]
  refine le_trans ?_ h1
  rw [hv]
  have h3 : -(5 / 2 ^ 126 : ℝ) * Real.log 2 ≤ -(5 / 2 ^ 126) * 0.69 := by
    apply mul_le_mul_of_nonpos_left
    · norm_num at h2 ⊢; linarith
    · norm_num
  refine le_trans h3 ?_
  norm_num

theorem logb_mg {m e : Nat} (hm : Nrm m) : logb 2 ((mg m e : ℚ) : ℝ) = logb 2 m + ((e : ℝ) - 281474976710656) := by
  have h0 : (0 : ℝ) < m := by
    have : 0 < m := lt_of_lt_of_le (by norm_num) hm.1
    exact_mod_cast this
  rw [mg_eq, ulp]
  push_cast
  rw [Real.logb_mul h0.ne' (by positivity)]
  congr 1
  rw [← Real.rpow_intCast, Real.logb_rpow (by norm_num) (by norm_num)]
  push_cast
  ring

theorem logb_nrm {m : Nat} (hm : Nrm m) : 127 ≤ logb 2 m ∧ logb 2 m ≤ 128 := by
  have h1 : ((2 : ℝ) ^ (127 : ℝ)) ≤ m := by
    have := hm.1
    rw [show (127 : ℝ) = ((127 : ℕ) : ℝ) by norm_num, Real.rpow_natCast]
    exact_mod_cast le_trans (by norm_num) this
  have h2 : (m : ℝ) ≤ (2 : ℝ) ^ (128 : ℝ) := by
    have := hm.2
    rw [show (128 : ℝ) = ((128 : ℕ) : ℝ) by norm_num, Real.rpow_natCast]
    exact_mod_cast le_trans this.le (by norm_num)
  have h0 : (0 : ℝ) < m := lt_of_lt_of_le (by positivity) h1
  exact ⟨(Real.le_logb_iff_rpow_le (by norm_num) h0).2 h1, (Real.logb_le_iff_le_rpow (by norm_num) h0).2 h2⟩

/-- the sign bit in place of the hidden bit -/
theorem or_sign {s : Bool} {m e : Nat} (hm : Nrm m) : (⟨(mk' s m e).digits ||| SIGN_MASK, EXP_COEFF⟩ : F192) = mk' true m 281474976710656 := by
  have hm1 := hm.1
  rw [or_mk hm, mk', dg_true, EXP_COEFF, Nat.add_sub_cancel' hm1]

/-- the error of `n` rounds -/
noncomputable def lerr (n : Nat) : ℝ := 1 / 256 ^ n + 1 / 2 ^ 119

theorem lerr_le (n : Nat) : lerr n ≤ 1 + 1 / 2 ^ 119 := by
  unfold lerr
  have : (1 : ℝ) / 256 ^ n ≤ 1 := by
    rw [div_le_one (by positivity)]
    exact one_le_pow₀ (by norm_num)
  linarith

/-- positive summands -/
theorem add_pos_c {m₁ e₁ m₂ e₂ : Nat} (h1 : Nrm m₁) (h2 : Nrm m₂) (b1 : e₁ < 18446744073709551615) (b2 : e₂ < 18446744073709551615)
    (z1 : 0 < e₁) (z2 : 0 < e₂) : ∃ m e, add (mk' false m₁ e₁) (mk' false m₂ e₂) = pure (mk' false m e) ∧ Nrm m ∧ e₁ ≤ e ∧ (e ≤ e₁ + 1 ∨ e ≤ e₂ + 1) ∧
      mg m e ≤ mg m₁ e₁ + mg m₂ e₂ ∧ mg m₁ e₁ + mg m₂ e₂ ≤ mg m e * (1 + 1 / 2 ^ 127) := by
  rcases add_same (s := false) h1 h2 (by omega) (by omega) (nz_exp z1) (nz_exp z2) with ⟨-, h⟩ | ⟨m, e, a1, a2, a3, a4, a5, a6, a7, a8, a9⟩
  · omega
  · refine ⟨m, e, a7, a1, a3, a5, a8, ?_⟩
    have hu : ulp e ≤ mg m e * (1 / 2 ^ 127) := by
      have : (2 ^ 127 : ℚ) ≤ m := by exact_mod_cast le_trans (by norm_num) a1.1
      rw [mg_eq]
      have hu := ulp_pos e
      rw [mul_one_div, le_div_iff₀ (by norm_num)]
      nlinarith
    linarith

theorem int_mk {n : Nat} (h0 : 0 < n) (h : n < 9223372036854775808) : ∃ m e, from_int n = pure (mk' false m e) ∧ Nrm m ∧ mg m e = n ∧
    281474976710656 < e + 130 ∧ e < 281474976710656 + 63 := by
  obtain ⟨x, h1, h2, h3⟩ := from_int_c (n := n) (by omega) (by omega)
  rw [Int.cast_natCast] at h3
  have hn : (1 : ℚ) ≤ n := by exact_mod_cast h0
  obtain ⟨s, m, e, hm, he, hz, rfl, hv⟩ := mk_of_not_zero h2 (by rw [h3]; positivity)
  have hp := mg_pos (e := e) hm
  cases s
  · rw [hv, sgn_false, one_mul] at h3
    have h63 : mg m e < 2 ^ 63 := by rw [h3]; exact_mod_cast h
    exact ⟨m, e, h1, hm, h3, exp_of_fval hm (by rw [h3]; linarith) h63⟩
  · rw [hv, sgn_true] at h3
    linarith

theorem mg_shr {m e k : Nat} (hk : k ≤ e) : mg m (e - k) = mg m e / 2 ^ k := by
  obtain ⟨j, rfl⟩ := Nat.exists_eq_add_of_le' hk
  rw [Nat.add_sub_cancel, mg_eq, mg_eq, ulp_add]
  field_simp

theorem log2_iter_c : ∀ (n : Nat) {m : Nat}, Nrm m → ∃ m' e', log2_iter n (mk' true m 281474976710656) = pure (mk' false m' e') ∧ Nrm m' ∧
    281474976710656 < e' + 140 ∧ e' < 281474976710656 + 140 ∧ |((mg m' e' : ℚ) : ℝ) - logb 2 m| ≤ lerr n
  | 0, m, hm => by
    have h127 : from_int 127 = pure (mk' false (127 * 2 ^ 121) (281474976710656 - 121)) := by rfl
    refine ⟨_, _, h127, ⟨by norm_num, by norm_num⟩, by norm_num, by norm_num, ?_⟩
    obtain ⟨h1, h2⟩ := logb_nrm hm
    rw [mg_coeff_sub (by norm_num), lerr]
    push_cast
    rw [abs_le]
    constructor
    · norm_num; linarith
    · norm_num; linarith
  | n + 1, m, hm => by
    have hP : PRange 281474976710656 (1 * 2 ^ 8) := by unfold PRange; norm_num
    obtain ⟨h, k, q1, q2, q3⟩ := squares_c (s := true) hm 8 (mk' true m 281474976710656) 1 0 (isPow_self hm) rfl hP
    obtain ⟨m1, e1, rfl, g1, g2, g3, g4, g5⟩ := q2
    have hk : k = 255 := by omega
    subst hk
    have e256 : 1 * 2 ^ 8 = 256 := by norm_num
    rw [e256] at g4 g5 q1 g2 g3
    push_cast at g2 g3
    obtain ⟨mL, eL, l1, l2, l3, l4, l5⟩ := log2_iter_c n g1
    obtain ⟨E, hE⟩ : ∃ E : Nat, (E : Int) = (e1 : Int) - 281474976710656 := ⟨e1 - 281474976710656, by omega⟩
    obtain ⟨mE, eE, i1, i2, i3, i4, i5⟩ := int_mk (n := E) (by omega) (by omega)
    obtain ⟨mS, eS, s1, s2, s3, s4, s5, s6⟩ := add_pos_c i2 l2 (e₁ := eE) (e₂ := eL) (by omega) (by omega) (by omega) (by omega)
    refine ⟨mS, eS - 8, ?_, s2, by omega, by omega, ?_⟩
    · rw [log2_iter, q1, pure_bind]
      simp only []
      rw [or_sign g1, expI64_c (by omega), pure_bind, ← hE, i1, pure_bind, l1, pure_bind, s1, pure_bind, shr_mk s2 (nz_exp (by omega)) (by omega)]
    · -- the error
      rw [i3] at s5 s6
      rw [mg_shr (by omega)]
      have hp0 := mg_pos (e := 281474976710656) hm
      have hT := logb_mg (e := e1) g1
      have hC := logb_mg (e := 281474976710656) hm
      rw [Nat.cast_ofNat, sub_self, add_zero] at hC
      have hE' : (e1 : ℝ) - 281474976710656 = (E : ℝ) := by
        have h' : e1 = E + 281474976710656 := by omega
        rw [h', Nat.cast_add, Nat.cast_ofNat, add_sub_cancel_right]
      rw [hE'] at hT
      have hr : (0 : ℝ) < ((mg m 281474976710656 : ℚ) : ℝ) := by exact_mod_cast hp0
      have hr1 : (0 : ℝ) < ((mg m1 e1 : ℚ) : ℝ) := by exact_mod_cast mg_pos g1
      have hu1 : (0 : ℝ) < ((1 - ue : ℚ) : ℝ) := by
        have := sub_pos.2 ue_lt
        exact_mod_cast this
      have u1 : logb 2 ((mg m1 e1 : ℚ) : ℝ) ≤ 256 * logb 2 m := by
        have : ((mg m1 e1 : ℚ) : ℝ) ≤ ((mg m 281474976710656 : ℚ) : ℝ) ^ 256 := by exact_mod_cast g5
        have := (Real.logb_le_logb (b := 2) (by norm_num) hr1 (pow_pos hr 256)).2 this
        rw [Real.logb_pow, hC] at this
        exact_mod_cast this
      have u2 : 256 * logb 2 m - 255 * (5 / 2 ^ 126) ≤ logb 2 ((mg m1 e1 : ℚ) : ℝ) := by
        have h' : ((mg m 281474976710656 : ℚ) : ℝ) ^ 256 * ((1 - ue : ℚ) : ℝ) ^ 255 ≤ ((mg m1 e1 : ℚ) : ℝ) := by exact_mod_cast g4
        have := (Real.logb_le_logb (b := 2) (by norm_num) (mul_pos (pow_pos hr 256) (pow_pos hu1 255)) hr1).2 h'
        rw [Real.logb_mul (pow_pos hr 256).ne' (pow_pos hu1 255).ne', Real.logb_pow, Real.logb_pow, hC] at this
        have hl := log_ue
        push_cast at this hl
        linarith
      obtain ⟨b1, b2⟩ := logb_nrm hm
      obtain ⟨t1, t2⟩ := abs_le.1 l5
      have hle := lerr_le n
      have r5 : ((mg mS eS : ℚ) : ℝ) ≤ E + ((mg mL eL : ℚ) : ℝ) := by exact_mod_cast s5
      have r6 : (E : ℝ) + ((mg mL eL : ℚ) : ℝ) ≤ ((mg mS eS : ℚ) : ℝ) * (1 + 1 / 2 ^ 127) := by
        have : ((E + mg mL eL : ℚ) : ℝ) ≤ ((mg mS eS * (1 + 1 / 2 ^ 127) : ℚ) : ℝ) := by exact_mod_cast s6
        push_cast at this
        exact this
      rw [hT] at u1 u2
      have hl' : lerr (n + 1) = (lerr n - 1 / 2 ^ 119) / 256 + 1 / 2 ^ 119 := by
        unfold lerr
        rw [pow_succ]
        field_simp
        ring
      rw [hl']
      push_cast
      generalize ((mg mS eS : ℚ) : ℝ) = R at *
      generalize ((mg mL eL : ℚ) : ℝ) = L at *
      generalize logb 2 (m : ℝ) = B at *
      generalize logb 2 (m1 : ℝ) = B1 at *
      generalize lerr n = d at *
      rw [abs_le]
      norm_num at *
      constructor <;> linarith

end F192
end Hmath
