import Verif.Proofs.Fp192Sqrt
import Verif.Props.Fp192Div

/-!
# C64: square root of 192-bit floating point numbers
-/

namespace Hmath
namespace Props

open F192 (mk' mg ulp sgn Nrm Z ZERO ONE)

private theorem pos_mk {x : F192} (hx : FValid x) (h0 : 0 < fval x) (h : -2 ^ 40 ≤ lead x) : ∃ m e, Nrm m ∧ e < B64 ∧ x = mk' false m e ∧
    fval x = mg m e ∧ x.digits = m - 170141183460469231731687303715884105728 ∧ lead x = (e : Int) - 281474976710529 := by
  obtain ⟨s, m, e, hm, hb, rfl⟩ := F192.exists_mk hx
  rw [lead, F192.mk_exp] at h
  norm_num at h
  have hz : ¬Z s m e := F192.nz_exp (by omega)
  cases s
  swap
  · rw [F192.fval_neg hm] at h0
    have := F192.mg_pos (e := e) hm
    linarith
  refine ⟨m, e, hm, hb, rfl, by rw [F192.fval_mk hm hz, F192.sgn_false, one_mul], by rw [F192.mk_digits, F192.dg_false], ?_⟩
  rw [lead, F192.mk_exp]
  norm_num

/-- The square of the result is the argument up to a relative error of about `2^-124`, provided the mantissa is not within a
relative distance of about `2^-39` of its upper bound. -/
theorem C64_sqrt_partial {x : F192} (hx : FValid x) (h0 : 0 < fval x) (hd : x.digits ≤ 2 ^ 127 - 767498447193188861845248850)
    (he : -2 ^ 39 ≤ lead x) (he' : lead x < 2 ^ 39) :
    ∃ z, F192.sqrt x = pure z ∧ FValid z ∧ 0 < fval z ∧ fval x * (1 - 1 / 2 ^ 126) ≤ fval z ^ 2 ∧
      fval z ^ 2 ≤ fval x * (1 + 1 / 2 ^ 124 + 1 / 2 ^ 148) := by
  obtain ⟨m, e, hm, hb, rfl, hf, hdg, hl⟩ := pos_mk hx h0 (le_trans (by norm_num) he)
  rw [hl] at he he'
  rw [hdg] at hd
  norm_num at he he' hd
  obtain ⟨b, g, b1, b2, b3, b4, b5⟩ := F192.sqrt_c hm (e := e) (by have := hm.1; omega) ⟨by omega, by omega⟩
  have g1 := b2.1
  have g2 := b2.2
  have hv : fval (mk' false b g) = mg b g := by
    rw [F192.fval_mk b1 (F192.nz_exp (by omega)), F192.sgn_false, one_mul]
  rw [hf]
  exact ⟨_, b3, F192.valid_mk b1 (by omega), by rw [hv]; exact F192.mg_pos b1, by rw [hv]; exact b4, by rw [hv]; exact b5⟩

/-- √3 -/
example : ∃ z, F192.sqrt (mk' false (3 * 2 ^ 126) (2 ^ 48 - 126)) = pure z ∧ 3 * (1 - 1 / 2 ^ 126) ≤ fval z ^ 2 ∧
    fval z ^ 2 ≤ 3 * (1 + 1 / 2 ^ 124 + 1 / 2 ^ 148) := by
  have hv : fval (mk' false (3 * 2 ^ 126) (2 ^ 48 - 126)) = 3 := by
    rw [F192.fval_mk ⟨by norm_num, by norm_num⟩ (F192.nz_exp (by norm_num)), show 2 ^ 48 - 126 = 281474976710656 - 126 by norm_num,
      F192.mg_coeff_sub (by norm_num), F192.sgn_false]; norm_num
  obtain ⟨z, h1, -, -, h2, h3⟩ := C64_sqrt_partial (x := mk' false (3 * 2 ^ 126) (2 ^ 48 - 126)) (by decide) (by rw [hv]; norm_num)
    (by decide) (by decide) (by decide)
  rw [hv] at h2 h3
  exact ⟨z, h1, h2, h3⟩

/-- Zero and negative numbers give zero. -/
theorem C64_sqrt_neg {x : F192} (hx : FValid x) (h : fval x ≤ 0) : F192.sqrt x = pure ZERO := by
  obtain ⟨s, m, e, hm, hb, rfl⟩ := F192.exists_mk hx
  rw [F192.sqrt, if_pos]
  rw [F192.is_zero_mk hm, F192.is_neg_mk hm]
  cases s
  · by_cases hz : Z false m e
    · obtain ⟨-, rfl, rfl⟩ := hz; rfl
    · rw [F192.fval_mk hm hz, F192.sgn_false, one_mul] at h
      have := F192.mg_pos (e := e) hm
      linarith
  · simp

example : F192.sqrt (mk' true F192.SIGN_MASK (2 ^ 48 - 127)) = pure ZERO :=
  C64_sqrt_neg (by decide) (by rw [show fval (mk' true F192.SIGN_MASK (2 ^ 48 - 127)) = -1 from F192.fval_one true]; norm_num)

/-- With a larger mantissa the result is always 2.5 percent too large: the integer square root reaches `2^64`, the shift by 64 drops
its top bit, and the iteration starts from half of the root. -/
theorem C64_sqrt_wrong {x : F192} (hx : FValid x) (h0 : 0 < fval x) (hd : 2 ^ 127 - 767498447193188861845248850 < x.digits)
    (he : -2 ^ 39 ≤ lead x) (he' : lead x < 2 ^ 39) :
    ∃ z, F192.sqrt x = pure z ∧ FValid z ∧ 0 < fval z ∧ fval x * (105 / 100) ≤ fval z ^ 2 ∧ fval z ^ 2 ≤ fval x * (1051 / 1000) := by
  obtain ⟨m, e, hm, hb, rfl, hf, hdg, hl⟩ := pos_mk hx h0 (le_trans (by norm_num) he)
  rw [hl] at he he'
  rw [hdg] at hd
  norm_num at he he' hd
  obtain ⟨b, g, b1, b2, b3, b4, b5⟩ := F192.sqrt_top hm (e := e) (by have := hm.1; omega) ⟨by omega, by omega⟩
  have g1 := b2.1
  have g2 := b2.2
  have hv : fval (mk' false b g) = mg b g := by
    rw [F192.fval_mk b1 (F192.nz_exp (by omega)), F192.sgn_false, one_mul]
  rw [hf]
  exact ⟨_, b3, F192.valid_mk b1 (by omega), by rw [hv]; exact F192.mg_pos b1, by rw [hv]; exact b4, by rw [hv]; exact b5⟩

/-- The square root of `1 - 2^-128` comes out above 1.024. -/
theorem C64_sqrt_counterexample : ∃ x z, FValid x ∧ fval x = 1 - 1 / 2 ^ 128 ∧ F192.sqrt x = pure z ∧ 1024 / 1000 ≤ fval z := by
  have hf : fval (mk' false 340282366920938463463374607431768211455 (281474976710656 - 128)) = 1 - 1 / 2 ^ 128 := by
    rw [F192.fval_mk ⟨by norm_num, by norm_num⟩ (F192.nz_exp (by norm_num)), F192.mg_coeff_sub (by norm_num), F192.sgn_false]; norm_num
  obtain ⟨z, h1, -, h2, h3, -⟩ := C64_sqrt_wrong (x := mk' false 340282366920938463463374607431768211455 (281474976710656 - 128))
    (by decide) (by rw [hf]; norm_num) (by decide) (by decide) (by decide)
  refine ⟨_, z, by decide, hf, h1, ?_⟩
  rw [hf] at h3
  refine abs_le_of_sq_le_sq' ?_ h2.le |>.2
  refine le_trans ?_ h3
  norm_num

/-- From `2^(2^39)` to about `2^(2^40)` and from about `2^(-2^40)` to `2^(-2^39)` the division of the first step panics. -/
theorem C64_sqrt_panic {x : F192} (hx : FValid x) (h0 : 0 < fval x)
    (he : 2 ^ 39 ≤ lead x ∧ lead x ≤ 2 ^ 40 - 20 ∨ -2 ^ 40 + 20 ≤ lead x ∧ lead x < -2 ^ 39) : Panics (F192.sqrt x) := by
  obtain ⟨m, e, hm, hb, rfl, hf, hdg, hl⟩ := pos_mk hx h0 (by
    rcases he with ⟨h1, h2⟩ | ⟨h1, h2⟩
    · exact le_trans (by norm_num) h1
    · exact le_trans (by norm_num) h1)
  rw [hl] at he
  norm_num at he
  obtain ⟨a, f, a1, a2, a3, a4, -⟩ := F192.sqrtStart_any hm (e := e) ⟨by omega, by omega⟩
  obtain ⟨p, hp⟩ := C62_div_panic (x := mk' false m e) (y := mk' false a f) hx (F192.valid_mk a1 (by omega))
    (by unfold LogArg; rw [F192.mk_exp]; norm_num; omega)
    (by unfold DivArg LogArg; rw [F192.mk_exp]; norm_num; omega)
    (by rw [wrapLead, wrapLead, hl, lead, F192.mk_exp, le_abs]; norm_num; omega)
  refine ⟨p, ?_⟩
  rw [F192.sqrt, F192.is_zero_mk hm, F192.is_neg_mk hm, if_neg, a2, pure_bind, F192.newton, hp]
  · rfl
  · simp
    omega

/-- `2^(2^39)` -/
example : Panics (F192.sqrt ⟨0, 2 ^ 48 - 127 + 2 ^ 39⟩) := by
  have h : fval ⟨0, 2 ^ 48 - 127 + 2 ^ 39⟩ = mg 170141183460469231731687303715884105728 (2 ^ 48 - 127 + 2 ^ 39) :=
    (F192.fval_mk (s := false) F192.nrm_S (F192.nz_exp (by norm_num))).trans (one_mul _)
  exact C64_sqrt_panic (by decide) (by rw [h]; exact F192.mg_pos F192.nrm_S) (by decide)

end Props
end Hmath
