import Verif.Props.Fp192Div

/-!
# C62: the sign and the exponent of a quotient
-/

namespace Hmath
namespace Props

open F192 (mk' mg ulp sgn Nrm Z ZERO ONE)

/-- the leading exponent of a number other than zero -/
theorem lead_bounds {x : F192} (hx : FValid x) (h0 : fval x ≠ 0) : (2 : ℚ) ^ lead x ≤ |fval x| ∧ |fval x| < 2 ^ (lead x + 1) := by
  obtain ⟨s, m, e, hm, he, hz, rfl, hv⟩ := F192.mk_of_not_zero hx h0
  rw [hv, abs_mul, F192.abs_sgn, one_mul, abs_of_pos (F192.mg_pos hm), lead, F192.mk_exp, F192.mg]
  have hu : (0 : ℚ) < 2 ^ ((e : ℤ) - 2 ^ 48) := zpow_pos (by norm_num) _
  have e1 : (2 : ℚ) ^ ((e : ℤ) - (2 ^ 48 - 127)) = 2 ^ 127 * 2 ^ ((e : ℤ) - 2 ^ 48) := by
    rw [← sub_add, zpow_add₀ (by norm_num), mul_comm]
    norm_num
  have a1 : ((170141183460469231731687303715884105728 : Nat) : ℚ) ≤ m := Nat.cast_le.2 hm.1
  have a2 : (m : ℚ) < (340282366920938463463374607431768211456 : Nat) := Nat.cast_lt.2 hm.2
  push_cast at a1 a2
  rw [zpow_add₀ (by norm_num), e1, zpow_one]
  generalize (2 : ℚ) ^ ((e : ℤ) - 2 ^ 48) = u at *
  norm_num
  constructor <;> nlinarith

private theorem exp_ne {x : F192} (hx : FValid x) (h : 0 < x.exp) : fval x ≠ 0 := by
  intro hc
  rw [(F192.fval_eq_zero hx).1 hc] at h
  exact absurd h (by decide)

/-- A quotient has the sign of the exact quotient, and its leading exponent is close to the difference of the residues of the leading exponents.  So
all quotients are within `2^±(2^39 + 4)`. -/
theorem C62_div_sign {x y z : F192} (hx : FValid x) (hy : FValid y) (rx : LogArg x) (ry : DivArg y) (hz : F192.div x y = pure z) :
    FValid z ∧ 0 < fval z * (fval x / fval y) ∧ wrapLead x - wrapLead y - 2 ≤ lead z ∧ lead z ≤ wrapLead x - wrapLead y + 1 ∧
      |wrapLead x - wrapLead y| ≤ 2 ^ 39 + 1 := by
  have x0 := exp_ne hx rx.1
  have y0 := exp_ne hy ry.1.1
  have hs : FValid z ∧ 0 < fval z * (fval x / fval y) := by
    obtain ⟨a, m₁, e₁, h1, b1, rfl⟩ := F192.exists_mk hx
    obtain ⟨b, m₂, e₂, h2, b2, rfl⟩ := F192.exists_mk hy
    obtain ⟨c₁, c₂, d, k1, k2⟩ := dmod b1 b2 rx ry
    have x1 := d.g₁.1
    have y1 := d.g₂.1.1
    rcases F192.div_all (a := a) (b := b) h1 h2 d with ⟨⟨p, hp⟩, -⟩ | ⟨-, -, -, -, -, m, e, -, -, -, -, -, -, -, -, r1, r2, -, -, -, r0, -⟩
    · rw [hp] at hz
      cases hz
    · rw [r0] at hz
      obtain rfl : mk' (a != b) m e = z := Except.ok.inj (Option.some.inj hz)
      have z1 := r2.1
      have z2 := r2.2
      refine ⟨F192.valid_mk r1 (by omega), ?_⟩
      rw [F192.fval_mk r1 (F192.nz_exp (by omega)), F192.fval_mk h1 (F192.nz_exp (by omega)), F192.fval_mk h2 (F192.nz_exp (by omega))]
      have q1 := F192.mg_pos (e := e₁) h1
      have q2 := F192.mg_pos (e := e₂) h2
      have q3 := F192.mg_pos (e := e) r1
      have q := mul_pos q3 (div_pos q1 q2)
      cases a <;> cases b <;>
        simp only [F192.sgn_true, F192.sgn_false, bne_self_eq_false, Bool.true_bne, Bool.false_bne, Bool.not_false, one_mul, neg_mul, mul_neg, neg_neg, neg_div, div_neg] <;>
        exact q
  refine ⟨hs.1, hs.2, ?_⟩
  obtain ⟨t, ht⟩ : ∃ t, t = lead x - lead y - (wrapLead x - wrapLead y) := ⟨_, rfl⟩
  rcases C62_div_all hx hy rx ry ht with ⟨⟨p, hp⟩, -⟩ | ⟨hw, z', h1, -, h3, h4, -⟩
  · rw [hp] at hz
    cases hz
  rw [h1] at hz
  obtain rfl : z' = z := Except.ok.inj (Option.some.inj hz)
  obtain ⟨l1, l2⟩ := lead_bounds hs.1 (left_ne_zero_of_mul hs.2.ne')
  obtain ⟨m1, m2⟩ := lead_bounds hx x0
  obtain ⟨n1, n2⟩ := lead_bounds hy y0
  rw [abs_div] at h3 h4
  have hy' := abs_pos.2 y0
  have ht0 : (0 : ℚ) < 2 ^ t := zpow_pos (by norm_num) _
  rw [div_le_iff₀ hy'] at h3
  rw [div_mul_eq_mul_div, le_div_iff₀ hy'] at h4
  have u1 : lead x < lead z' + 1 + t + 1 + (lead y + 1) := by
    refine (zpow_lt_zpow_iff_right₀ (by norm_num : (1 : ℚ) < 2)).1 (lt_of_le_of_lt (m1.trans h3) ?_)
    rw [zpow_add₀ (by norm_num) _ (lead y + 1), zpow_add₀ (by norm_num) _ 1, zpow_add₀ (by norm_num) _ t, zpow_one]
    refine mul_lt_mul'' ?_ n2 (by positivity) (by positivity)
    exact mul_lt_mul_of_pos_right (mul_lt_mul_of_pos_right l2 ht0) (by norm_num)
  have u2 : lead z' + t + lead y < lead x + 1 + 1 := by
    refine (zpow_lt_zpow_iff_right₀ (by norm_num : (1 : ℚ) < 2)).1 ?_
    rw [zpow_add₀ (by norm_num) _ (lead y), zpow_add₀ (by norm_num) _ t, zpow_add₀ (by norm_num) _ 1, zpow_one]
    refine lt_of_le_of_lt ?_ (lt_of_le_of_lt h4 (mul_lt_mul_of_pos_right m2 (by norm_num)))
    refine mul_le_mul ?_ n1 (zpow_pos (by norm_num) _).le (by positivity)
    exact mul_le_mul_of_nonneg_right l1 ht0.le
  exact ⟨by omega, by omega, hw⟩

/-- the quotient of -1 by a number above `2^(2^61)`, if any, is negative and within `2^±(2^39 + 4)` -/
example {z : F192} (h : F192.div (F192.neg ONE) ⟨5, 2 ^ 62⟩ = pure z) : fval z < 0 ∧ |lead z| ≤ 2 ^ 39 + 4 := by
  obtain ⟨h1, h2, h3, h4, h5⟩ := C62_div_sign (x := F192.neg ONE) (y := ⟨5, 2 ^ 62⟩) (by decide) (by decide) (by decide) (by decide) h
  have e1 : fval (F192.neg ONE) = -1 := F192.fval_one true
  have e2 : 0 < fval ⟨5, 2 ^ 62⟩ := by
    have := F192.is_neg_c (x := ⟨5, 2 ^ 62⟩) (by decide)
    have h6 := exp_ne (x := ⟨5, 2 ^ 62⟩) (by decide) (by decide)
    rw [show F192.is_neg ⟨5, 2 ^ 62⟩ = false by decide] at this
    exact lt_of_le_of_ne (not_lt.1 (of_decide_eq_false this.symm)) h6.symm
  refine ⟨?_, ?_⟩
  · rw [e1, ← mul_div_assoc, mul_neg_one] at h2
    have := (div_pos_iff_of_pos_right e2).1 h2
    linarith
  · rw [abs_le] at h5 ⊢
    generalize wrapLead (F192.neg ONE) - wrapLead ⟨5, 2 ^ 62⟩ = W at *
    norm_num at h5 ⊢
    omega

end Props
end Hmath
