import Verif.Model.Fp192Print
import Verif.Proofs.Fp192Pow
import Verif.Props.Fp192Float
import Verif.Props.Fp192Log
import Verif.Props.Fp192Sum

/-!
# C61, C68: floats and logarithms of numbers with a large exponent field
-/

namespace Hmath
namespace Props

open Real (logb)

open F192 (mk' mg ulp sgn Nrm Z ZERO ONE mg_eq mg_pos ulp_pos nz_exp fval_mk mk_of_not_zero from_int lerr panics_bind)

/-- Numbers with an exponent field of at least `2^63`, whatever their sign, cannot be converted or become the float zero. -/
theorem C61_to_float_high {f m e} (h : Format f m e) {x : F192} (hx : FValid x) (hb : 2 ^ 63 ≤ x.exp) :
    (x.exp < 2 ^ 63 + 2 ^ 48 → Panics (F192.to_float f x)) ∧
    (2 ^ 63 + 2 ^ 48 ≤ x.exp → F192.to_float f x = pure 0 ∧ floatVal m e 0 = .finite 0) := by
  obtain ⟨s, D, E, hD, hE, rfl⟩ := F192.exists_mk hx
  rw [F192.mk_exp] at hb ⊢
  constructor
  · intro h1
    unfold F192.to_float
    rw [F192.expI64_panic (by omega) (by omega)]
    exact ⟨_, rfl⟩
  · intro h1
    refine ⟨?_, (C61_to_float_zero h).2⟩
    have hbias : (f.bias : ℤ) ≤ 1023 := by cases h <;> decide
    unfold F192.to_float
    have hb64 : E < 18446744073709551616 := hE
    rw [F192.expI64_big (by omega) hE, pure_bind, F192.i64_eq (by omega) (by omega), pure_bind]
    generalize F192.mk' s D E = x
    obtain ⟨V, hV⟩ : ∃ V : ℤ, V = (E : ℤ) - 18446744073709551616 - 281474976710656 + (f.bias + 127) := ⟨_, rfl⟩
    have v1 : V < -1 := by omega
    have v2 : -9223372036854775808 ≤ V := by omega
    rw [← hV]
    have key : ∀ r t, ∃ p : Nat × ℤ, F192.floatRound f r t V = pure p ∧ p.2 < 0 := by
      intro r t
      unfold F192.floatRound
      split_ifs
      · rw [F192.i64_eq (by omega) (by omega), pure_bind]
        exact ⟨_, rfl, by simp only []; omega⟩
      · exact ⟨_, rfl, by simp only []; omega⟩
      · exact ⟨_, rfl, by simp only []; omega⟩
    obtain ⟨p, p1, p2⟩ := key (x.digits / 2 ^ (122 - f.mant) &&& 2 ^ (f.mant + 5) - 1 &&& 31) ((x.digits / 2 ^ (122 - f.mant) &&& 2 ^ (f.mant + 5) - 1) / 32)
    rw [p1, pure_bind, if_pos p2]

example : Panics (F192.to_float Ratio.f64 ⟨5, 2 ^ 63 + 7⟩) ∧ F192.to_float Ratio.f32 F192.MAX = pure 0 ∧ F192.to_float Ratio.f64 F192.MIN = pure 0 :=
  ⟨(C61_to_float_high .double (x := ⟨5, 2 ^ 63 + 7⟩) (by decide) (by norm_num)).1 (by norm_num),
    ((C61_to_float_high .single (x := F192.MAX) (by decide) (by decide)).2 (by decide)).1,
    ((C61_to_float_high .double (x := F192.MIN) (by decide) (by decide)).2 (by decide)).1⟩

private theorem inRange_int' {n : ℤ} (h1 : -2 ^ 63 ≤ n) (h2 : n < 0) : ∃ x, from_int n = pure x ∧ FValid x ∧ fval x = n ∧ InRange x := by
  obtain ⟨x, a1, a2, a3⟩ := F192.from_int_c (n := n) (by omega) (by omega)
  refine ⟨x, a1, a2, a3, ?_⟩
  obtain ⟨s, m, e, hm, he, hz, rfl, hv⟩ := mk_of_not_zero a2 (by rw [a3]; exact_mod_cast h2.ne)
  have hp := mg_pos (e := e) hm
  have hab : mg m e = ((|n| : ℤ) : ℚ) := by
    rw [Int.cast_abs, ← a3, hv, abs_mul, F192.abs_sgn, one_mul, abs_of_pos hp]
  have l1 : (1 : ℤ) ≤ |n| := Int.one_le_abs h2.ne
  have l2 : |n| < 2 ^ 64 := abs_lt.2 ⟨by omega, by omega⟩
  have l1' : (1 : ℚ) ≤ mg m e := by rw [hab]; exact_mod_cast l1
  have l2' : mg m e < 2 ^ 64 := by rw [hab]; exact_mod_cast l2
  have := F192.exp_of_fval hm (by linarith) l2'
  rw [InRange, F192.mk_exp]
  right
  omega

/-- a sum far below zero stays below zero, at least half as far -/
private theorem rounds_neg {m : M F192} {d : ℚ} (h : RoundsTo m d) (hd : d < 0) : ∃ z, m = pure z ∧ FValid z ∧ fval z ≤ d / 4 ∧ 2 * d ≤ fval z := by
  obtain ⟨-, h2, h3⟩ := h
  by_cases hn : NoCarry d
  · obtain ⟨z, z1, -, z2, -, z3⟩ := h2 hn
    refine ⟨z, z1, z2, ?_⟩
    rw [abs_of_neg hd] at z3
    obtain ⟨q1, q2⟩ := abs_le.1 z3
    norm_num at q1 q2
    constructor <;> linarith
  · unfold NoCarry at hn
    push Not at hn
    obtain ⟨k, k1, k2⟩ := hn
    obtain ⟨z, z1, z2, z3⟩ := h3 k k1 k2
    refine ⟨z, z1, z2, ?_⟩
    rw [abs_of_neg hd] at k1 k2
    have : (0 : ℚ) < 2 ^ k := zpow_pos (by norm_num) k
    rw [z3]
    generalize (2 : ℚ) ^ k = P at *
    norm_num at *
    constructor <;> linarith

/-- Logarithms of numbers with an exponent field of at least `2^63`: the computation panics, or the result is far below zero although the logarithm is
at least `2^63`. -/
theorem C68_log2_high {x : F192} (hx : FValid x) (h0 : 0 < fval x) (hb : 2 ^ 63 ≤ x.exp) :
    (x.exp < 2 ^ 63 + 2 ^ 48 → Panics (F192.log2 x) ∧ Panics (F192.ln x)) ∧
    (2 ^ 63 + 2 ^ 48 ≤ x.exp → (2 : ℝ) ^ 63 ≤ logb 2 ((fval x : ℚ) : ℝ) ∧
      ∃ z w, F192.log2 x = pure z ∧ FValid z ∧ fval z ≤ -2 ^ 45 ∧ F192.ln x = pure w ∧ FValid w ∧ fval w ≤ -2 ^ 44) := by
  obtain ⟨s, m, e, hm, he, hz, rfl, hv⟩ := mk_of_not_zero hx h0.ne'
  have hp := mg_pos (e := e) hm
  rw [F192.mk_exp] at hb ⊢
  cases s
  swap
  · rw [hv, F192.sgn_true] at h0
    linarith
  have hlog : F192.log2 (mk' false m e) = (do
      let E ← F192.expI64 (mk' false m e)
      let E ← from_int E
      let l ← F192.log2_iter 16 (mk' true m 281474976710656)
      F192.add E l) := by
    rw [F192.log2, F192.is_neg_mk hm, if_neg (by decide), F192.is_zero_mk hm, if_neg]
    · simp only []
      rw [F192.or_sign hm]
    · rw [decide_eq_true_eq]
      exact hz
  constructor
  · intro h1
    have h2 : Panics (F192.log2 (mk' false m e)) := by
      rw [hlog, F192.expI64_panic (by omega) (by omega)]
      exact ⟨_, rfl⟩
    exact ⟨h2, panics_bind h2 _⟩
  · intro h1
    have hb64 : e < 18446744073709551616 := he
    obtain ⟨b1, b2⟩ := F192.logb_nrm hm
    refine ⟨?_, ?_⟩
    · rw [hv, F192.sgn_false, one_mul, F192.logb_mg hm]
      have : (9223653511831486464 : ℝ) ≤ (e : ℝ) := by exact_mod_cast (by omega : 9223653511831486464 ≤ e)
      norm_num
      linarith
    obtain ⟨mL, eL, l1, l2, l3, l4, l5⟩ := F192.log2_iter_c 16 hm
    obtain ⟨E, hE⟩ : ∃ E : ℤ, E = (e : ℤ) - 18446744073709551616 - 281474976710656 := ⟨_, rfl⟩
    obtain ⟨y, y1, y2, y3, y4⟩ := inRange_int' (n := E) (by omega) (by omega)
    have hzL : ¬Z false mL eL := nz_exp (by omega)
    have hvL := fval_mk (s := false) l2 hzL
    rw [F192.sgn_false, one_mul] at hvL
    obtain ⟨c1, c2⟩ := abs_le.1 l5
    have hr : lerr 16 ≤ 1 / 2 := by unfold lerr; norm_num
    have d1 : (253 / 2 : ℚ) ≤ mg mL eL := by
      have : ((253 / 2 : ℚ) : ℝ) ≤ ((mg mL eL : ℚ) : ℝ) := by push_cast; linarith
      exact_mod_cast this
    have d2 : mg mL eL ≤ (257 / 2 : ℚ) := by
      have : ((mg mL eL : ℚ) : ℝ) ≤ ((257 / 2 : ℚ) : ℝ) := by push_cast; linarith
      exact_mod_cast this
    rw [hlog, F192.ln, hlog, F192.expI64_big (by omega) he, pure_bind, ← hE, y1, pure_bind, l1, pure_bind]
    have rL : InRange (mk' false mL eL) := by
      rw [InRange, F192.mk_exp]
      right
      omega
    have vL : FValid (mk' false mL eL) := F192.valid_mk l2 (by omega)
    generalize hl : mk' false mL eL = l at *
    generalize mg mL eL = L at *
    have e1 : (E : ℚ) ≤ -281474976710657 := by exact_mod_cast (by omega : E ≤ -281474976710657)
    have e2 : (-9223372036854775808 : ℚ) ≤ E := by exact_mod_cast (by omega : -9223372036854775808 ≤ E)
    have hole : ∀ {u : F192}, InRange u → ¬Hole u := by
      rintro u (rfl | ⟨hu, hu'⟩)
      · unfold Hole
        decide
      · unfold Hole
        omega
    have tiny : ∀ {u : F192}, InRange u → u ≠ negTiny := by
      rintro u (rfl | ⟨hu, hu'⟩) hc
      · exact absurd hc (by decide)
      · subst hc
        exact absurd hu (by decide)
    have hsum := (C41_add_all y2 vL (tiny y4) (tiny rL) (by rw [y3, hvL]; exact mul_neg_of_neg_of_pos (by linarith) (by linarith))).2 (hole y4) (hole rL)
    rw [seen_inRange y4, seen_inRange rL, y3, hvL] at hsum
    obtain ⟨z, z1, z2, z3, z4⟩ := rounds_neg hsum (by linarith)
    rw [z1, pure_bind]
    obtain ⟨s', m', e', hm', he', hz', rfl, hv'⟩ := mk_of_not_zero z2 (by intro hc; rw [hc] at z3; linarith)
    have ha : mg m' e' = -fval (mk' s' m' e') := by
      have hp' := mg_pos (e := e') hm'
      cases s'
      · exfalso
        rw [hv', F192.sgn_false, one_mul] at z3
        linarith
      · rw [hv', F192.sgn_true]
        ring
    have := F192.exp_of_fval (k := 65) hm' (by rw [ha]; linarith) (by rw [ha]; norm_num; linarith)
    have hLN : fval F192.LN_2 = ((2 ^ 127 + 65724579765044062406256839048270378671 : Nat) : ℚ) / 2 ^ 128 := by
      have := fval_mk (s := false) (m := 2 ^ 127 + 65724579765044062406256839048270378671) (e := 281474976710656 - 128) ⟨by norm_num, by norm_num⟩ (nz_exp (by norm_num))
      rw [F192.mg_coeff_sub (by norm_num), F192.sgn_false, one_mul] at this
      exact this
    obtain ⟨w, w1, ⟨w2, -, w3⟩, -⟩ := C41_mul (x := mk' s' m' e') (y := F192.LN_2) z2 (by decide) (Or.inr (by
      rw [F192.mk_exp, show F192.LN_2.exp = 281474976710528 from rfl]
      norm_num
      omega))
    obtain ⟨Q, hQ⟩ : ∃ Q, Q = fval (mk' s' m' e') := ⟨_, rfl⟩
    rw [← hQ] at z3 w3
    refine ⟨_, w, rfl, z2, ?_, w1, w2, ?_⟩
    · rw [← hQ]
      norm_num
      linarith
    clear hQ z4 ha
    have g0 : Q ≤ -70000000000000 := by linarith
    have g1 : (69 / 100 : ℚ) ≤ fval F192.LN_2 := by
      rw [hLN, le_div_iff₀ (by norm_num)]
      norm_num
    obtain ⟨T, hT⟩ : ∃ T, T = fval F192.LN_2 := ⟨_, rfl⟩
    rw [← hT] at g1 w3
    clear hT hLN z3
    have g3 : Q * T ≤ -48300000000000 := by
      have := mul_le_mul_of_nonneg_right g0 (by linarith : (0 : ℚ) ≤ T)
      linarith
    rw [abs_of_neg (by linarith : Q * T < 0)] at w3
    obtain ⟨q1, q2⟩ := abs_le.1 w3
    generalize Q * T = R at *
    norm_num at q2 ⊢
    linarith

/-- `MAX`, and a number between -/
example : (∃ z, F192.log2 F192.MAX = pure z ∧ fval z < 0) ∧ Panics (F192.ln ⟨5, 9223372036854775815⟩) := by
  have v1 := fval_mk (s := false) (m := 340282366920938463463374607431768211455) (e := 18446744073709551615) ⟨by norm_num, by norm_num⟩ (nz_exp (by norm_num))
  have v2 := fval_mk (s := false) (m := 170141183460469231731687303715884105733) (e := 9223372036854775815) ⟨by norm_num, by norm_num⟩ (nz_exp (by norm_num))
  rw [F192.sgn_false, one_mul] at v1 v2
  have p1 := mg_pos (m := 340282366920938463463374607431768211455) (e := 18446744073709551615) ⟨by norm_num, by norm_num⟩
  have p2 := mg_pos (m := 170141183460469231731687303715884105733) (e := 9223372036854775815) ⟨by norm_num, by norm_num⟩
  rw [← v1] at p1
  rw [← v2] at p2
  constructor
  · obtain ⟨-, z, w, h1, -, h2, -⟩ := (C68_log2_high (x := F192.MAX) (by decide) p1 (by decide)).2 (by decide)
    exact ⟨z, h1, by linarith⟩
  · exact ((C68_log2_high (x := ⟨5, 9223372036854775815⟩) (by decide) p2 (by norm_num)).1 (by norm_num)).2

/-- Printing panics for exponent fields from `2^63` to `2^63 + 2^48 - 1`. -/
theorem C69_high_panic {x : F192} (hx : FValid x) (h1 : 2 ^ 63 ≤ x.exp) (h2 : x.exp < 2 ^ 63 + 2 ^ 48) : Panics (F192.to_approx_string x) := by
  obtain ⟨s, m, e, hm, he, rfl⟩ := F192.exists_mk hx
  rw [F192.mk_exp] at h1 h2
  have hz : ¬Z s m e := F192.nz_exp (by omega)
  rw [F192.to_approx_string, F192.is_zero_mk hm, if_neg (by simpa [Z] using hz)]
  exact F192.panics_bind (F192.panics_bind (F192.panics_bind (F192.fast_log2_panics (by omega) (by omega)) _) _) _

example : Panics (F192.to_approx_string ⟨9, 2 ^ 63 + 1⟩) := C69_high_panic (by decide) (by norm_num) (by norm_num)

end Props
end Hmath
