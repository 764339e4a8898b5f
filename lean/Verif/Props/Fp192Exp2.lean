import Verif.Props.Fp192Exp
import Verif.Props.Fp192High
import Verif.Props.Fp192Sum

/-!
# C73: powers of two outside the range
-/

namespace Hmath
namespace Props

open F192 (mk' mg Nrm Z ZERO ONE Rng rng_of_exp mg_pos mg_coeff_sub mg_lt_of_exp mk_of_not_zero panics_bind)

private theorem n127 : Nrm 170141183460469231731687303715884105728 := ⟨by norm_num, by norm_num⟩

/-- the exponent field of a number of magnitude one or more -/
private theorem exp_big {x : F192} (hx : FValid x) (h : 1 ≤ |fval x|) : 281474976710529 ≤ x.exp := by
  have h0 : fval x ≠ 0 := fun hc => by rw [hc] at h; norm_num at h
  obtain ⟨s, m, e, hm, he, hzz, rfl, hv⟩ := mk_of_not_zero hx h0
  rw [F192.mk_exp]
  by_contra hc
  have g := mg_lt_of_exp (e₁ := e) (e₂ := 281474976710529) hm F192.nrm_S (by omega)
  rw [F192.mg_one] at g
  rw [hv, abs_mul, F192.abs_sgn, one_mul, abs_of_pos (mg_pos hm)] at h
  linarith

private theorem rng_big {x : F192} (hx : FValid x) (h : 1 ≤ |fval x|) (h' : |fval x| ≤ 2 ^ 63) : Rng ((2 ^ 31 : ℕ) + 128) x := by
  have h0 : fval x ≠ 0 := fun hc => by rw [hc] at h; norm_num at h
  have := exp_big hx h
  exact rng_of_exp hx (Or.inr ⟨by omega, exp_small hx h0 (lt_of_le_of_lt h' (by norm_num))⟩) (by norm_num)

/-- a number with an exponent field from `2^63` on is huge -/
private theorem high_abs {z : F192} (hz : FValid z) (h : 2 ^ 63 ≤ z.exp) : 2 ^ 200 ≤ |fval z| := by
  obtain ⟨s, m, e, hm, he, rfl⟩ := F192.exists_mk hz
  rw [F192.mk_exp] at h
  rw [F192.fval_mk hm (F192.nz_exp (by omega)), abs_mul, F192.abs_sgn, one_mul, abs_of_pos (mg_pos hm)]
  have g := mg_lt_of_exp (e₁ := 281474976710656 + 73) (e₂ := e) n127 hm (by omega)
  have := F192.mg_shift 170141183460469231731687303715884105728 281474976710656 73
  rw [← this] at g
  rw [F192.mg_eq, F192.ulp] at g
  refine le_trans ?_ g.le
  norm_num

private theorem high_val {z : F192} (hz : FValid z) (h0 : 0 < fval z) (h : 2 ^ 63 ≤ z.exp) : 2 ^ 200 ≤ fval z := by
  have := high_abs hz h
  rwa [abs_of_pos h0] at this

/-- Below `-2^48 + 125`, down to `-2^63`, the exponent field wraps: the power, which is tiny, comes out as a huge number. -/
theorem C73_pow2_wraps {x : F192} (hx : FValid x) (h1 : -2 ^ 63 ≤ fval x) (h2 : fval x < -2 ^ 48 + 125) :
    ∃ z, F192.pow2 x = pure z ∧ FValid z ∧ 2 ^ 200 ≤ fval z ∧ (2 : ℝ) ^ ((fval x : ℚ) : ℝ) ≤ 1 / 2 := by
  have ha : 1 ≤ |fval x| := by
    rw [abs_of_neg (by norm_num at h2 ⊢; linarith)]
    norm_num at h2 ⊢
    linarith
  have hb : |fval x| ≤ 2 ^ 63 := by
    rw [abs_of_neg (by norm_num at h2 ⊢; linarith)]
    linarith
  obtain ⟨a, a2, k2, k3, -, hp⟩ := pow2_core (rng_big hx ha hb) (by norm_num) (by norm_num) h1 (by norm_num at h2 ⊢; linarith) (Or.inr (by norm_num at h2 ⊢; linarith))
  have n1 : -2 ^ 63 ≤ ⌊fval x⌋ := by rw [Int.le_floor]; push_cast; exact h1
  have n2 : ⌊fval x⌋ < -2 ^ 48 + 125 := by rw [Int.floor_lt]; norm_num at h2 ⊢; exact h2
  obtain ⟨e, e1, e2, e3, e4⟩ := F192.scale_wrap a2 k2 k3 n1 n2
  refine ⟨_, by rw [hp, e1, pure_bind], e2, high_val e2 e4 e3, ?_⟩
  have h3 : ((fval x : ℚ) : ℝ) ≤ ((-1 : ℚ) : ℝ) := Rat.cast_le.2 (by norm_num at h2 ⊢; linarith)
  push_cast at h3
  have h4 := Real.rpow_le_rpow_of_exponent_le (x := 2) (by norm_num) h3
  rw [Real.rpow_neg_one] at h4
  norm_num at h4 ⊢
  exact h4

private theorem neg49_val : fval ⟨170141183460469231731687303715884105728, 281474976710578⟩ = -2 ^ 49 := by
  have := F192.fval_mk (s := true) (m := 170141183460469231731687303715884105728) (e := 281474976710656 - 78) n127 (F192.nz_exp (by omega))
  rw [mg_coeff_sub (by omega), F192.sgn_true] at this
  exact this.trans (by norm_num)

/-- `-2^49` -/
example : FValid ⟨170141183460469231731687303715884105728, 281474976710578⟩ ∧ -2 ^ 63 ≤ fval ⟨170141183460469231731687303715884105728, 281474976710578⟩ ∧
    fval ⟨170141183460469231731687303715884105728, 281474976710578⟩ < -2 ^ 48 + 125 := by
  rw [neg49_val]
  exact ⟨by decide, by norm_num, by norm_num⟩

/-- the difference of a number and its floor can be computed -/
private theorem sub_floor {x t : F192} (hx : FValid x) (hb : x.exp < 2 ^ 63) (ht : FValid t) (hv : fval t = ⌊fval x⌋) (h1 : 1 ≤ |fval x|) :
    ∃ z, F192.sub x t = pure z := by
  have h0 : fval x ≠ 0 := fun hc => by rw [hc] at h1; norm_num at h1
  have hpos : 0 < fval x * fval t := by
    rw [hv]
    rcases lt_or_gt_of_ne h0 with h | h
    · have : (⌊fval x⌋ : ℚ) < 0 := by
        have : ⌊fval x⌋ < 0 := by rw [Int.floor_lt]; exact_mod_cast h
        exact_mod_cast this
      exact mul_pos_of_neg_of_neg h this
    · rw [abs_of_pos h] at h1
      have : (1 : ℚ) ≤ ⌊fval x⌋ := by
        have : 1 ≤ ⌊fval x⌋ := by rw [Int.le_floor]; exact_mod_cast h1
        exact_mod_cast this
      exact mul_pos h (by linarith)
  have te : t.exp < 2 ^ 63 := by
    by_cases hi : (⌊fval x⌋ : ℚ) = fval x
    · rw [F192.fval_inj ht hx (hv.trans hi)]
      exact hb
    -- not an integer, hence below `2^127`
    have hxs : |fval x| < 2 ^ 127 := by
      obtain ⟨s, m, e, hm, he, hzz, rfl, hw⟩ := mk_of_not_zero hx h0
      by_cases hee : e < 281474976710656
      · have g := mg_lt_of_exp (e₁ := e) (e₂ := 281474976710656) (m₂ := 170141183460469231731687303715884105728) hm n127 (by omega)
        rw [hw, abs_mul, F192.abs_sgn, one_mul, abs_of_pos (mg_pos hm)]
        refine lt_of_lt_of_le g ?_
        rw [F192.mg_eq, F192.ulp]
        norm_num
      · exfalso
        apply hi
        obtain ⟨k, hk⟩ : ∃ k : Nat, e = 281474976710656 + k := ⟨e - 281474976710656, by omega⟩
        have hu : F192.ulp 281474976710656 = 1 := by rw [F192.ulp]; norm_num
        have hint : fval (mk' s m e) = (((if s then -1 else 1) * (m * 2 ^ k) : ℤ) : ℚ) := by
          rw [hw, hk, ← F192.mg_shift, F192.mg_eq, hu]
          cases s <;> simp [F192.sgn]
        rw [hint, Int.floor_intCast]
    by_contra hc
    have g := high_abs ht (by omega)
    have g1 := Int.floor_le (fval x)
    have g2 := Int.lt_floor_add_one (fval x)
    rw [← hv] at g1 g2
    have g3 : |fval t| ≤ |fval x| + 1 := by
      have := abs_lt.1 hxs
      rw [abs_le]
      have b1 := neg_abs_le (fval x)
      have b2 := le_abs_self (fval x)
      constructor <;> linarith
    norm_num at g hxs
    linarith
  have nx : ¬Hole x := fun h => by have := h.1; omega
  have nt : ¬Hole t := fun h => by have := h.1; omega
  obtain ⟨-, r2, r3⟩ := (C41_sub_all hx ht hpos).2 nx nt
  by_cases hc : NoCarry (seen x - seen t)
  · obtain ⟨z, hz, -⟩ := r2 hc
    exact ⟨z, hz⟩
  · unfold NoCarry at hc
    push Not at hc
    obtain ⟨k, k1, k2⟩ := hc
    obtain ⟨z, hz, -⟩ := r3 k k1 k2
    exact ⟨z, hz⟩

/-- the floor is beyond the 64-bit integers -/
private theorem to_int_big {x : F192} (hx : FValid x) (hb : x.exp < 2 ^ 63) (h : fval x < -2 ^ 63 ∨ 2 ^ 63 ≤ fval x) : Panics (F192.pow2 x) := by
  have h1 : 1 ≤ |fval x| := by
    rw [le_abs]
    norm_num at h
    rcases h with h | h
    · right; linarith
    · left; linarith
  obtain ⟨t, t1, t2, t3⟩ := C43_floor_partial hx hb
  obtain ⟨z, hz⟩ := sub_floor hx hb t2 t3 h1
  have ht : truncQ (fval t) = ⌊fval x⌋ := by
    rw [t3, truncQ]
    split
    · exact Int.floor_intCast _
    · exact Int.ceil_intCast _
  have hn : ⌊fval x⌋ < -2 ^ 63 ∨ 2 ^ 63 ≤ ⌊fval x⌋ := by
    rcases h with h | h
    · left; rw [Int.floor_lt]; norm_num at h ⊢; exact h
    · right; rw [Int.le_floor]; norm_num at h ⊢; exact h
  have ti := C40_to_int_partial (lo := -9223372036854775808) (hi := 9223372036854775807) t2 (by norm_num) (by norm_num) (by norm_num) (by norm_num) (by
    rw [t3]
    right
    rw [← Int.cast_abs]
    exact_mod_cast Int.one_le_abs (show ⌊fval x⌋ ≠ 0 by omega))
  rw [ht, if_neg (by omega)] at ti
  refine ⟨.explicit, ?_⟩
  rw [F192.pow2, t1, pure_bind, hz, pure_bind, ti, pure_bind]

/-- positive numbers with exponent fields which are read as negative -/
private theorem pow2_high {x : F192} (hx : FValid x) (h0 : 0 < fval x) (h : 2 ^ 63 + 2 ^ 48 ≤ x.exp) : Panics (F192.pow2 x) := by
  obtain ⟨-, -, -, -, ⟨t, t1, t2, t3⟩, -⟩ := C43_wrong hx h
  rw [if_neg (not_lt.2 h0.le)] at t3
  rw [(F192.fval_eq_zero t2).1 t3] at t1
  obtain ⟨s, m, e, hm, he, hzz, rfl, hv⟩ := mk_of_not_zero hx h0.ne'
  have hp := mg_pos (e := e) hm
  rw [F192.mk_exp] at h
  cases s
  · have ti : F192.to_int (-9223372036854775808) 9223372036854775807 ZERO = pure (some 0) := rfl
    have hl : F192.LN_2 = mk' false 235865763225513294137944142764154484399 281474976710528 := by decide
    have nl : Nrm 235865763225513294137944142764154484399 := ⟨by norm_num, by norm_num⟩
    have hone : ONE = mk' false 170141183460469231731687303715884105728 281474976710529 := by decide
    rw [F192.pow2, t1, pure_bind, F192.sub_zero_right hm hzz hzz, pure_bind, ti, pure_bind]
    dsimp only
    rw [hl]
    by_cases hb : 18446744073709551616 ≤ e + 281474976710528
    · rw [F192.mul_panic hm nl hzz (F192.nz_exp (by norm_num)) hb]
      exact ⟨_, rfl⟩
    obtain ⟨k, i, a1, a5, a6, a4, a2, a3, -⟩ := F192.mul_c (a := false) (b := false) hm nl hzz (F192.nz_exp (by norm_num)) (by omega) (show e + 281474976710528 < 18446744073709551616 by omega)
    rw [show (false != false) = false from rfl] at a3
    rw [a3, pure_bind]
    have zi : ¬Z false k i := F192.nz_exp (by omega)
    refine panics_bind ?_ _
    rw [F192.pow2Loop, hone]
    rcases F192.add_same (s := false) n127 a1 (show 281474976710529 < 18446744073709551616 by norm_num) (by omega) (F192.nz_exp (by norm_num)) zi with ⟨g, -⟩ | ⟨m', e', -, -, -, -, -, -, g, -⟩
    · refine ⟨.overflow, ?_⟩
      rw [g]
      rfl
    · rw [g, pure_bind, F192.mul_panic a1 a1 zi zi (by show 18446744073709551616 ≤ i + i; omega)]
      exact ⟨_, rfl⟩
  · rw [hv, F192.sgn_true] at h0
    linarith

/-- From `2^63 - 2^48 + 128` on, and below `-2^63` for exponent fields below `2^63 + 2^48`, the power panics. -/
theorem C73_pow2_panics {x : F192} (hx : FValid x) (h : 2 ^ 63 - 2 ^ 48 + 128 ≤ fval x ∨ fval x < -2 ^ 63 ∧ x.exp < 2 ^ 63 + 2 ^ 48) : Panics (F192.pow2 x) := by
  by_cases h1 : x.exp < 2 ^ 63
  · by_cases h2 : fval x < -2 ^ 63 ∨ 2 ^ 63 ≤ fval x
    · exact to_int_big hx h1 h2
    rw [not_or, not_lt, not_le] at h2
    rcases h with h | h
    · have ha : |fval x| ≤ 2 ^ 63 := by
        rw [abs_le]
        exact ⟨h2.1, h2.2.le⟩
      have hx0 : 1 ≤ fval x := by norm_num at h; linarith
      have hb : 1 ≤ |fval x| := by
        rw [abs_of_pos (by linarith)]
        exact hx0
      obtain ⟨a, a2, k2, k3, -, hp⟩ := pow2_core (rng_big hx hb ha) (by norm_num) (by norm_num) h2.1 h2.2 (Or.inl (by linarith))
      have n2 : 2 ^ 63 - 2 ^ 48 + 128 ≤ ⌊fval x⌋ := by rw [Int.le_floor]; norm_num at h ⊢; exact h
      refine ⟨.overflow, ?_⟩
      rw [hp, F192.scale_panic a2 k2 k3 n2]
      rfl
    · exact absurd h.1 (not_lt.2 h2.1)
  · by_cases h2 : x.exp < 2 ^ 63 + 2 ^ 48
    · exact panics_bind (C43_panic hx (by omega) h2).2.1 _
    · rcases h with h | h
      · exact pow2_high hx (by norm_num at h; linarith) (by omega)
      · exact absurd h.2 h2

private theorem pos63_val : fval ⟨0, 281474976710592⟩ = 2 ^ 63 := by
  have := F192.fval_mk (s := false) (m := 170141183460469231731687303715884105728) (e := 281474976710656 - 64) n127 (F192.nz_exp (by omega))
  rw [mg_coeff_sub (by omega), F192.sgn_false, one_mul] at this
  exact this.trans (by norm_num)

/-- `2^63` -/
example : Panics (F192.pow2 ⟨0, 281474976710592⟩) := C73_pow2_panics (by decide) (Or.inl (by rw [pos63_val]; norm_num))

/-- The number is at least minus `2^-129`, and below zero: the difference to the floor rounds to one, which is mistaken for minus one half, and the
power comes out as 0.35. -/
theorem C73_pow2_below_zero {x : F192} (hx : FValid x) (hr : InRange x) (h1 : -1 / 2 ^ 129 ≤ fval x) (h2 : fval x < 0) :
    F192.pow2 x = pure ⟨70474785707535279845185036742912847704, 281474976710527⟩ := by
  have main : ∀ {x : F192}, FValid x → InRange x → -1 / 2 ^ 129 ≤ fval x → fval x < 0 →
      F192.floor x = pure (mk' true 170141183460469231731687303715884105728 281474976710529) ∧
      F192.sub x (mk' true 170141183460469231731687303715884105728 281474976710529) = pure (mk' true 170141183460469231731687303715884105728 281474976710528) := by
    intro x hx hr h1 h2
    have hb : x.exp < 2 ^ 63 := by
      rcases hr with h | h
      · rw [h]; decide
      · omega
    obtain ⟨t, t1, t2, t3⟩ := C43_floor_partial hx hb
    have hf : ⌊fval x⌋ = -1 := by
      rw [Int.floor_eq_iff]
      norm_num at h1 ⊢
      constructor <;> linarith
    have v1 : fval (mk' true 170141183460469231731687303715884105728 281474976710529) = -1 := by
      have := F192.fval_one true
      rw [F192.sgn_true] at this
      exact this
    have v2 : fval (mk' true 170141183460469231731687303715884105728 281474976710528) = -1 / 2 := by
      have := F192.fval_mk (s := true) (m := 170141183460469231731687303715884105728) (e := 281474976710656 - 128) n127 (F192.nz_exp (by omega))
      rw [mg_coeff_sub (by omega), F192.sgn_true] at this
      exact this.trans (by norm_num)
    have d1 : FValid (mk' true 170141183460469231731687303715884105728 281474976710529) := F192.valid_mk n127 (by norm_num)
    have d2 : FValid (mk' true 170141183460469231731687303715884105728 281474976710528) := F192.valid_mk n127 (by norm_num)
    rw [hf] at t3
    have te := F192.fval_inj t2 d1 (t3.trans (by rw [v1]; norm_num))
    refine ⟨by rw [t1, te], ?_⟩
    have r1 : InRange (mk' true 170141183460469231731687303715884105728 281474976710529) := Or.inr (by rw [F192.mk_exp]; norm_num)
    have nh : ∀ {y : F192}, InRange y → ¬Hole y := by
      rintro y (rfl | h) hh
      · exact absurd hh.1 (by decide)
      · have := hh.1
        omega
    obtain ⟨-, -, r3⟩ := (C41_sub_all hx d1 (by rw [v1]; linarith)).2 (nh hr) (nh r1)
    rw [seen_inRange hr, seen_inRange r1, v1] at r3
    obtain ⟨z, z1, z2, z3⟩ := r3 (-128) (by
      rw [abs_of_pos (by norm_num at h1 ⊢; linarith)]
      norm_num at h1 ⊢
      linarith) (by
      rw [abs_of_pos (by norm_num at h1 ⊢; linarith)]
      norm_num
      exact h2)
    rw [z1, F192.fval_inj z2 d2 (z3.trans (by rw [v2]; norm_num))]
  obtain ⟨a1, a2⟩ := main hx hr h1 h2
  have hw : fval ⟨170141183460469231731687303715884105728, 281474976710400⟩ = -1 / 2 ^ 129 := by
    have := F192.fval_mk (s := true) (m := 170141183460469231731687303715884105728) (e := 281474976710656 - 256) n127 (F192.nz_exp (by omega))
    rw [mg_coeff_sub (by omega), F192.sgn_true] at this
    exact this.trans (by norm_num)
  obtain ⟨b1, b2⟩ := main (x := ⟨170141183460469231731687303715884105728, 281474976710400⟩) (by decide) (Or.inr (by decide)) hw.ge (by rw [hw]; norm_num)
  rw [← (F192.pow2E_c _).ret pow2_wit, F192.pow2, F192.pow2, a1, b1, pure_bind, pure_bind, a2, b2]

/-- `-2^-140` -/
example : F192.pow2 ⟨170141183460469231731687303715884105728, 281474976710389⟩ = pure ⟨70474785707535279845185036742912847704, 281474976710527⟩ := by
  have hv : fval ⟨170141183460469231731687303715884105728, 281474976710389⟩ = -1 / 2 ^ 140 := by
    have := F192.fval_mk (s := true) (m := 170141183460469231731687303715884105728) (e := 281474976710656 - 267) n127 (F192.nz_exp (by omega))
    rw [mg_coeff_sub (by omega), F192.sgn_true, show (2 : ℚ) ^ 267 = 2 ^ 127 * 2 ^ 140 by rw [← pow_add]] at this
    exact this.trans (by norm_num)
  exact C73_pow2_below_zero (by decide) (Or.inr (by decide)) (by rw [hv]; norm_num) (by rw [hv]; norm_num)

end Props
end Hmath
