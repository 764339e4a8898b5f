import Verif.Props.Fp192Pow
import Verif.Props.Fp192Quot

/-!
# C63: negative exponents of `powi`
-/

namespace Hmath
namespace Props

open F192 (mk' mg ulp sgn Nrm Z ZERO ONE)

private theorem neg_eq {x : F192} {n : Nat} (hn : 0 < n) (h : n < 2 ^ 63) : F192.powi x (-n) = F192.powi x n >>= fun r => F192.div ONE r := by
  norm_num at h
  rw [F192.powi, F192.powi, F192.i64Abs_c (by omega), F192.i64Abs_c (by omega), pure_bind, pure_bind, Int.natAbs_neg, bind_assoc]
  refine bind_congr fun r => ?_
  rw [if_pos (by omega), if_neg (by omega), pure_bind]

/-- the power with the positive exponent -/
private theorem pos_c {x : F192} (hx : FValid x) (h0 : fval x ≠ 0) {n : Nat} (hr : PowBounds x n) : ∃ (r : F192) (δ : ℚ), F192.powi x n = pure r ∧ FValid r ∧
    0 ≤ δ ∧ δ ≤ n / 2 ^ 124 ∧ δ ≤ 1 / 2 ^ 61 ∧ fval r = fval x ^ n * (1 - δ) ∧ fval r ≠ 0 ∧ 0 < r.exp ∧ n < 2 ^ 63 ∧
    (|fval x| ^ n / 2 ≤ |fval r| ∧ |fval r| ≤ |fval x| ^ n) := by
  obtain ⟨r, δ, h1, h2, h3, h4, h5⟩ := C63_powi_partial hx h0 hr
  have hn : n < 2 ^ 63 := by
    obtain ⟨-, b⟩ := hr
    have : (n : Int) * 2 ≤ n * (max (lead x) 0 + 2) := mul_le_mul_of_nonneg_left (by omega) (by positivity)
    norm_num at b ⊢
    omega
  have hq : δ ≤ 1 / 2 ^ 61 := by
    refine h4.trans ?_
    have : (n : ℚ) ≤ 2 ^ 63 := by exact_mod_cast hn.le
    rw [div_le_div_iff₀ (by norm_num) (by norm_num)]
    linarith
  have h6 : |fval r| = |fval x| ^ n * (1 - δ) := by
    rw [h5, abs_mul, abs_pow, abs_of_pos (a := 1 - δ) (by norm_num at hq; linarith)]
  have hp : 0 < |fval x| ^ n := pow_pos (abs_pos.2 h0) n
  have hr0 : fval r ≠ 0 := by
    rw [h5]
    exact mul_ne_zero (pow_ne_zero _ h0) (by norm_num at hq; intro hc; linarith)
  refine ⟨r, δ, h1, h2, h3, h4, hq, h5, hr0, ?_, hn, ?_, ?_⟩
  · -- the exponent field
    obtain ⟨s, m, e, hm, he, hz, rfl, hv⟩ := F192.mk_of_not_zero hx h0
    have hr' : F192.PRange e n := by
      obtain ⟨r1, r2⟩ := hr
      rw [lead, F192.mk_exp] at r1 r2
      norm_num at r1 r2
      exact ⟨r1, by omega⟩
    obtain ⟨m', e', g1, g2, g3, -⟩ := F192.powi_nonneg_c (s := s) hm hr'
    obtain ⟨b1, -⟩ := hr'.bounds
    rw [h1] at g1
    have hre : r.exp = e' := by
      have : r = mk' (F192.psign s n) m' e' := Except.ok.inj (Option.some.inj g1)
      rw [this, F192.mk_exp]
    rw [hre]
    generalize (n : Int) * ((e : Int) - 281474976710529) = P at *
    omega
  · rw [h6]
    norm_num at hq
    nlinarith
  · rw [h6]
    nlinarith

/-- The power with a negative exponent, as long as the power with the positive exponent is a number within `2^±(2^39 - 3)`: the result is never too small
in magnitude and at most `(n + 6) * 2^-124` (relatively) too large. -/
theorem C63_powi_neg_wide_partial {x : F192} (hx : FValid x) (h0 : fval x ≠ 0) {n : Nat} (hn : 0 < n) (hr : PowBounds x n) {k : ℤ} (hk : k = 2 ^ 39 - 3)
    (h1 : 2 ^ (-k) ≤ |fval x| ^ n) (h2 : |fval x| ^ n ≤ 2 ^ k) :
    ∃ (z : F192) (δ : ℚ), F192.powi x (-n) = pure z ∧ FValid z ∧ 0 ≤ δ ∧ δ ≤ (n + 6) / 2 ^ 124 ∧ fval z = (fval x ^ n)⁻¹ * (1 + δ) := by
  obtain ⟨r, δ, a1, a2, a3, a4, a5, a6, a7, a8, a9, a10, a11⟩ := pos_c hx h0 hr
  obtain ⟨l1, l2⟩ := lead_bounds a2 a7
  have L1 : lead r ≤ k := (zpow_le_zpow_iff_right₀ (by norm_num : (1 : ℚ) < 2)).1 (l1.trans (a11.trans h2))
  have L2 : -k - 1 < lead r + 1 := by
    refine (zpow_lt_zpow_iff_right₀ (by norm_num : (1 : ℚ) < 2)).1 (lt_of_le_of_lt ?_ (lt_of_le_of_lt a10 l2))
    rw [zpow_sub₀ (by norm_num), zpow_one]
    linarith
  have o : lead ONE = 0 := by decide
  have o' : wrapLead ONE = 0 := by decide
  have hexp : (r.exp : ℤ) = lead r + (2 ^ 48 - 127) := by rw [lead]; ring
  have hw : wrapLead r = lead r := by
    unfold wrapLead
    generalize lead r = L at *
    norm_num at hk ⊢
    omega
  obtain ⟨z, δ', b1, b2, b3, b4, b5⟩ := C62_div_partial (x := ONE) (y := r) (by decide) a2 (by decide)
    (by
      unfold DivArg LogArg
      norm_num at hk hexp ⊢
      omega) (by norm_num at hk hexp ⊢; omega)
    ⟨by rw [o, o', hw], by
      rw [o, zero_sub, abs_neg, abs_le]
      norm_num at hk ⊢
      omega⟩
  rw [neg_eq hn a9, a1, pure_bind]
  have hd : (0 : ℚ) < 1 - δ := by norm_num at a5; linarith
  refine ⟨z, (1 + δ') / (1 - δ) - 1, b1, b2, ?_, ?_, ?_⟩
  · rw [sub_nonneg, le_div_iff₀ hd]
    linarith
  · rw [sub_le_iff_le_add, div_le_iff₀ hd]
    have hN : (n : ℚ) ≤ 2 ^ 63 := by exact_mod_cast a9.le
    have hN0 : (0 : ℚ) ≤ n := by positivity
    -- `1 + δ' ≤ ((n + 6) / 2^124 + 1) (1 - δ)`
    have c1 : δ * ((n + 6) / 2 ^ 124) ≤ n / 2 ^ 124 * ((n + 6) / 2 ^ 124) := mul_le_mul_of_nonneg_right a4 (by positivity)
    have c2 : (n : ℚ) / 2 ^ 124 * ((n + 6) / 2 ^ 124) ≤ 5 / 2 ^ 124 := by
      rw [div_mul_div_comm, div_le_div_iff₀ (by norm_num) (by norm_num)]
      nlinarith
    have c3 : ((n : ℚ) + 6) / 2 ^ 124 = n / 2 ^ 124 + 5 / 2 ^ 124 + 1 / 2 ^ 124 := by ring
    nlinarith
  · rw [b5, show fval ONE = 1 from F192.fval_one false, a6, add_sub_cancel]
    have := pow_ne_zero n h0
    have := hd.ne'
    field_simp

private theorem one_ne : fval ⟨1, 2 ^ 48 - 127⟩ ≠ 0 := fun hc => absurd ((F192.fval_eq_zero (by decide)).1 hc) (by decide)

/-- `(1 + 2^-127)^-(10^18)` -/
example : ∃ (z : F192) (δ : ℚ), F192.powi ⟨1, 2 ^ 48 - 127⟩ (-(10 ^ 18 : Nat)) = pure z ∧ FValid z ∧ 0 ≤ δ ∧ δ ≤ ((10 ^ 18 : Nat) + 6) / 2 ^ 124 ∧
    fval z = (fval ⟨1, 2 ^ 48 - 127⟩ ^ (10 ^ 18))⁻¹ * (1 + δ) := by
  obtain ⟨n, hn⟩ : ∃ n : Nat, n = 10 ^ 18 := ⟨_, rfl⟩
  rw [← hn]
  have hv : fval ⟨1, 2 ^ 48 - 127⟩ = 1 + 1 / 2 ^ 127 := by
    refine (F192.fval_mk (s := false) (m := 170141183460469231731687303715884105729) (e := 281474976710656 - 127)
      ⟨by norm_num, by norm_num⟩ (F192.nz_exp (by norm_num))).trans ?_
    rw [F192.mg_coeff_sub (by norm_num), F192.sgn_false, one_mul]; norm_num
  have hpow : (1 + 1 / 2 ^ 127 : ℚ) ^ n ≤ 2 := by
    have h1 : (1 + 1 / 2 ^ 127 : ℚ) ≤ (1 - 1 / 2 ^ 126)⁻¹ := by norm_num
    have h2 := one_add_mul_le_pow (a := (-1 / 2 ^ 126 : ℚ)) (by norm_num) n
    have h3 : (1 / 2 : ℚ) ≤ (1 - 1 / 2 ^ 126) ^ n := by
      refine le_trans ?_ (h2.trans_eq (by congr 1; ring))
      rw [hn]; norm_num
    calc (1 + 1 / 2 ^ 127 : ℚ) ^ n ≤ ((1 - 1 / 2 ^ 126)⁻¹) ^ n := pow_le_pow_left₀ (by norm_num) h1 n
      _ = ((1 - 1 / 2 ^ 126) ^ n)⁻¹ := inv_pow _ _
      _ ≤ (1 / 2)⁻¹ := inv_anti₀ (by norm_num) h3
      _ = 2 := by norm_num
  refine C63_powi_neg_wide_partial (by decide) one_ne (by rw [hn]; norm_num) ?_ rfl ?_ ?_
  · rw [hn]
    unfold PowBounds lead
    norm_num
  · rw [hv, abs_of_pos (by norm_num)]
    refine le_trans ?_ (one_le_pow₀ (by norm_num))
    exact zpow_le_one_of_nonpos₀ (by norm_num) (by norm_num)
  · rw [hv, abs_of_pos (by norm_num)]
    refine hpow.trans ?_
    exact (zpow_one (2 : ℚ)).symm.le.trans (zpow_le_zpow_right₀ (by norm_num) (by norm_num))

/-- Beyond that, the division sees the exponent modulo `2^40`: the code panics or the result is wrong by a factor of at least `2^(2^40 - 2)`. -/
theorem C63_powi_neg_wrong {x : F192} (hx : FValid x) (h0 : fval x ≠ 0) {n : Nat} (hn : 0 < n) (hr : PowBounds x n)
    (hr2 : (n : Int) * (max (lead x) 0 + 2) < 2 ^ 64 - 2 ^ 49 - 2 ^ 40) {j k : ℤ} (hj : j = 2 ^ 39 + 2) (hk : k = 2 ^ 40 - 2)
    (h : |fval x| ^ n ≤ 2 ^ (-j) ∨ 2 ^ j ≤ |fval x| ^ n) :
    Panics (F192.powi x (-n)) ∨ ∃ z, F192.powi x (-n) = pure z ∧ FValid z ∧
      (|fval z| * 2 ^ k ≤ (|fval x| ^ n)⁻¹ ∨ (|fval x| ^ n)⁻¹ * 2 ^ k ≤ |fval z|) := by
  obtain ⟨r, δ, a1, a2, a3, a4, a5, a6, a7, a8, a9, a10, a11⟩ := pos_c hx h0 hr
  obtain ⟨l1, l2⟩ := lead_bounds a2 a7
  have hp : 0 < |fval x| ^ n := pow_pos (abs_pos.2 h0) n
  have hL : lead r < -(2 ^ 39) ∨ 2 ^ 39 ≤ lead r := by
    rcases h with h | h
    · left
      have : lead r ≤ -j := (zpow_le_zpow_iff_right₀ (by norm_num : (1 : ℚ) < 2)).1 (l1.trans (a11.trans h))
      norm_num at hj ⊢
      omega
    · right
      have : j - 1 < lead r + 1 := by
        refine (zpow_lt_zpow_iff_right₀ (by norm_num : (1 : ℚ) < 2)).1 (lt_of_le_of_lt ?_ (lt_of_le_of_lt a10 l2))
        rw [zpow_sub₀ (by norm_num), zpow_one]
        linarith
      norm_num at hj ⊢
      omega
  have hU : lead r < 2 ^ 64 - 2 ^ 49 - 2 ^ 40 := by
    have h3 : |fval x| ^ n < 2 ^ ((n : ℤ) * (lead x + 1)) := by
      rw [mul_comm, zpow_mul, zpow_natCast]
      exact pow_lt_pow_left₀ (lead_bounds hx h0).2 (abs_nonneg _) (by omega)
    have h4 : lead r < (n : ℤ) * (lead x + 1) := (zpow_lt_zpow_iff_right₀ (by norm_num : (1 : ℚ) < 2)).1 (lt_of_le_of_lt (l1.trans a11) h3)
    have h5 : (n : ℤ) * (lead x + 1) ≤ n * (max (lead x) 0 + 2) := mul_le_mul_of_nonneg_left (by omega) (by positivity)
    omega
  have hexp : (r.exp : ℤ) = lead r + (2 ^ 48 - 127) := by rw [lead]; ring
  have o : lead ONE = 0 := by decide
  have o' : wrapLead ONE = 0 := by decide
  have hone : fval ONE = 1 := F192.fval_one false
  rw [neg_eq hn a9, a1, pure_bind]
  by_cases hlog : 2 ^ 63 ≤ r.exp ∧ r.exp < 2 ^ 63 + 2 ^ 48
  · exact Or.inl (C62_div_log_panic (by decide) a2 (by decide) (by omega) (Or.inr hlog))
  rcases C62_div_wrong (x := ONE) (y := r) (by decide) a2 (by decide) (by
      unfold DivArg LogArg
      norm_num at hU hexp hlog ⊢
      omega) (by
      rw [o, o']
      unfold wrapLead
      generalize lead r = L at *
      norm_num at hL ⊢
      omega) (k := k + 1) (by rw [hk]; ring) with ⟨h, -⟩ | ⟨z, b1, b2, b3⟩
  · exact Or.inl h
  · refine Or.inr ⟨z, b1, b2, ?_⟩
    rw [hone, one_div, abs_inv, zpow_add₀ (by norm_num), zpow_one] at b3
    have hK : (0 : ℚ) < 2 ^ k := zpow_pos (by norm_num) _
    have i1 : (|fval x| ^ n)⁻¹ ≤ |fval r|⁻¹ := inv_anti₀ (abs_pos.2 a7) a11
    have i2 : |fval r|⁻¹ ≤ (|fval x| ^ n)⁻¹ * 2 := by
      have := inv_anti₀ (half_pos hp) a10
      rwa [inv_div, div_eq_inv_mul] at this
    generalize (2 : ℚ) ^ k = K at *
    have hz := abs_nonneg (fval z)
    rcases b3 with b3 | b3
    · left
      nlinarith
    · right
      nlinarith [mul_le_mul_of_nonneg_right i1 hK.le, inv_pos.2 (abs_pos.2 a7)]

/-- `2^-(10^12)` and `3^-(10^15)` -/
example {k : ℤ} (hk : k = 2 ^ 40 - 2) : ∀ x : F192, x = ⟨0, 2 ^ 48 - 126⟩ ∨ x = ⟨2 ^ 126, 2 ^ 48 - 126⟩ → ∀ n : Nat, n = 10 ^ 12 ∨ n = 10 ^ 15 →
    Panics (F192.powi x (-n)) ∨ ∃ z, F192.powi x (-n) = pure z ∧ FValid z ∧
      (|fval z| * 2 ^ k ≤ (|fval x| ^ n)⁻¹ ∨ (|fval x| ^ n)⁻¹ * 2 ^ k ≤ |fval z|) := by
  intro x hx n hn
  have hv : FValid x ∧ lead x = 1 ∧ x ≠ ZERO := by rcases hx with rfl | rfl <;> exact ⟨by decide, by decide, by decide⟩
  have h0 : fval x ≠ 0 := fun hc => hv.2.2 ((F192.fval_eq_zero hv.1).1 hc)
  have hl := (lead_bounds hv.1 h0).1
  rw [hv.2.1, zpow_one] at hl
  have hb : 0 < n ∧ PowBounds x n ∧ (n : Int) * (max (lead x) 0 + 2) < 2 ^ 64 - 2 ^ 49 - 2 ^ 40 ∧ 2 ^ 39 + 2 ≤ n := by
    unfold PowBounds
    rw [hv.2.1]
    rcases hn with rfl | rfl <;> norm_num
  refine C63_powi_neg_wrong hv.1 h0 hb.1 hb.2.1 hb.2.2.1 rfl hk (Or.inr ?_)
  have h1 : (2 : ℚ) ^ n ≤ |fval x| ^ n := pow_le_pow_left₀ (by norm_num) hl n
  refine le_trans ?_ h1
  rw [← zpow_natCast]
  refine zpow_le_zpow_right₀ (by norm_num) ?_
  have := hb.2.2.2
  norm_num at this ⊢
  omega

/-- When the power with the positive exponent overflows or is cut off to zero, the power with the negative exponent panics. -/
theorem C63_powi_neg_panic {x : F192} (hx : FValid x) {n : Nat} (h : n ≤ 2 ^ 63)
    (hn : 0 ≤ lead x ∧ 2 ^ 64 - 2 ^ 48 + 127 ≤ (n : Int) * lead x ∨
      fval x ≠ 0 ∧ |fval x| ≤ 1 ∧ (n : Int) * (4 * lead x + 5) < -4 * (2 ^ 48 - 127)) : Panics (F192.powi x (-n)) := by
  have h0 : 0 < n := by
    rcases Nat.eq_zero_or_pos n with rfl | h
    · norm_num at hn
    · exact h
  by_cases hh : n = 2 ^ 63
  · rw [hh]
    exact (C63_powi_edge x 0).2.2.2
  rw [neg_eq h0 (by omega)]
  rcases hn with ⟨a, b⟩ | ⟨a, b, c⟩
  · exact F192.panics_bind (C63_powi_overflow hx a b) _
  · rw [C63_powi_underflow hx a b c, pure_bind]
    exact (C62_div_zero ONE).2 (by rw [show fval ONE = 1 from F192.fval_one false]; norm_num)

example : Panics (F192.powi ⟨0, 2 ^ 48 - 124⟩ (-(7 * 10 ^ 18 : Nat))) := C63_powi_neg_panic (by decide) (by norm_num) (Or.inl (by decide))

end Props
end Hmath
