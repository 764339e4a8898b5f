import Verif.Props.Fp192
import Verif.Proofs.Fp192Pow

/-!
# C42, C43, C60: numbers with large exponents
-/

namespace Hmath
namespace Props

open F192 (mk' mg ulp sgn Nrm Z ZERO ONE)

/-- the exponent of a number as the code computes it, with the field read as a signed number -/
def signedExp (x : F192) : ℤ := if x.exp < 2 ^ 63 then (x.exp : ℤ) - 2 ^ 48 else x.exp - 2 ^ 64 - 2 ^ 48

private theorem expI64_signed {s : Bool} {m e : Nat} (he : e < B64) (h : e < 9223372036854775808 ∨ 9223653511831486464 ≤ e) :
    F192.expI64 (mk' s m e) = pure (signedExp (mk' s m e)) := by
  unfold signedExp
  rw [F192.mk_exp]
  rcases h with h | h
  · rw [F192.expI64_c h, if_pos (by omega)]
    norm_num
  · rw [F192.expI64_big h he, if_neg (by omega)]
    norm_num

/-- Conversion to a rational, for all numbers: it panics for exponent fields from `2^63` to `2^63 + 2^48`, and otherwise a multiple of `2^32` is
missing in the exponent. -/
theorem C42_to_ratio_all {x : F192} (hx : FValid x) (h0 : fval x ≠ 0) :
    (2 ^ 63 ≤ x.exp ∧ x.exp ≤ 2 ^ 63 + 2 ^ 48 → Panics (F192.to_ratio x)) ∧
    (¬(2 ^ 63 ≤ x.exp ∧ x.exp ≤ 2 ^ 63 + 2 ^ 48) → ∃ r, F192.to_ratio x = pure r ∧ RValid r ∧
      rval r = fval x * 2 ^ ((signedExp x).tmod (2 ^ 32) - ((x.exp : ℤ) - 2 ^ 48))) := by
  obtain ⟨s, m, e, hm, he, hz, rfl, hv⟩ := F192.mk_of_not_zero hx h0
  rw [F192.mk_exp]
  constructor
  · rintro ⟨h1, h2⟩
    refine ⟨.overflow, ?_⟩
    rw [F192.to_ratio, F192.is_zero_mk hm, if_neg (by simpa [Z] using hz)]
    rcases Nat.lt_or_ge e 9223653511831486464 with h | h
    · rw [F192.expI64_panic (by omega) h]
      rfl
    · rw [F192.expI64_big h he]
      dsimp only
      rw [pure_bind, F192.absU32, if_pos (by norm_num at h2; omega)]
      rfl
  · intro h
    norm_num at h
    have hs : e < 9223372036854775808 ∨ 9223653511831486464 < e := by omega
    have hE := expI64_signed (s := s) (m := m) he (hs.imp_right le_of_lt)
    have hE0 : signedExp (mk' s m e) ≠ -9223372036854775808 := by
      unfold signedExp
      rw [F192.mk_exp]
      split_ifs <;> norm_num at * <;> omega
    generalize signedExp (mk' s m e) = E at *
    obtain ⟨k, hk⟩ : ∃ k, k = E.natAbs % 4294967296 := ⟨_, rfl⟩
    have hR : E.tmod (2 ^ 32) = if E < 0 then -(k : ℤ) else k := by
      by_cases h : E < 0
      · obtain ⟨n, rfl⟩ : ∃ n : Nat, E = -n := ⟨E.natAbs, by omega⟩
        rw [if_pos h, Int.neg_tmod, Int.tmod_eq_emod_of_nonneg (by omega)]
        omega
      · rw [if_neg h, Int.tmod_eq_emod_of_nonneg (by omega)]
        omega
    have hscale : F192.ratioScale (Ratio.from_u128 m) (ofInt (2 ^ k)) E = pure (ofRat (m * 2 ^ (E.tmod (2 ^ 32)))) := by
      rw [F192.ratioScale, F192.rfrom_u128 hm.2, hR]
      by_cases h : E < 0
      · rw [if_pos h, if_pos h, Ratio.div_bi_mut_c _ (by positivity), zpow_neg, zpow_natCast, div_eq_mul_inv]
        push_cast
        rfl
      · rw [if_neg h, if_neg h, Ratio.mul_bi_mut_c, zpow_natCast]
        push_cast
        rfl
    have hval : fval (mk' s m e) * 2 ^ (E.tmod (2 ^ 32) - ((e : ℤ) - 2 ^ 48)) = sgn s * (m * 2 ^ (E.tmod (2 ^ 32))) := by
      rw [hv, F192.mg, mul_assoc, mul_assoc, ← zpow_add₀ (by norm_num), add_sub_cancel]
    refine ⟨ofRat (sgn s * (m * 2 ^ (E.tmod (2 ^ 32)))), ?_, rvalid_ofRat _, by rw [rval_ofRat, hval]⟩
    rw [F192.to_ratio, F192.is_zero_mk hm, if_neg (by simpa [Z] using hz), F192.or_mk hm, hE]
    dsimp only
    rw [pure_bind, F192.absU32, if_neg hE0, pure_bind, ← hk, BigI.one_c, BigI.mul_pow2_c, pure_bind, one_mul, F192.is_neg_mk hm, hscale, pure_bind]
    cases s
    · rw [if_neg (by decide), F192.sgn_false, one_mul]
    · rw [if_pos rfl, Ratio.negate_mut_c, F192.sgn_true, neg_one_mul]

/-- `2^(127 + 2^33 + 5)` converts to `2^(127 + 5)` -/
example : ∃ r, F192.to_ratio ⟨0, 2 ^ 48 + 2 ^ 33 + 5⟩ = pure r ∧ RValid r ∧
    rval r = fval ⟨0, 2 ^ 48 + 2 ^ 33 + 5⟩ * 2 ^ ((signedExp ⟨0, 2 ^ 48 + 2 ^ 33 + 5⟩).tmod (2 ^ 32) - ((2 ^ 48 + 2 ^ 33 + 5 : ℕ) - 2 ^ 48 : ℤ)) ∧
    (signedExp ⟨0, 2 ^ 48 + 2 ^ 33 + 5⟩).tmod (2 ^ 32) = 5 := by
  obtain ⟨r, h1, h2, h3⟩ := (C42_to_ratio_all (x := ⟨0, 2 ^ 48 + 2 ^ 33 + 5⟩) (by decide)
    (fun hc => absurd ((F192.fval_eq_zero (by decide)).1 hc) (by decide))).2 (by norm_num)
  exact ⟨r, h1, h2, h3, by decide⟩

example : Panics (F192.to_ratio ⟨7, 2 ^ 63 + 2 ^ 48⟩) :=
  (C42_to_ratio_all (x := ⟨7, 2 ^ 63 + 2 ^ 48⟩) (by decide) (fun hc => absurd ((F192.fval_eq_zero (by decide)).1 hc) (by decide))).1 (by norm_num)

/-- The conversion is right exactly for zero and for exponents below `2^32` in magnitude. -/
theorem C42_to_ratio_iff {x : F192} (hx : FValid x) : (∃ r, F192.to_ratio x = pure r ∧ rval r = fval x) ↔ InRange x := by
  constructor
  · rintro ⟨r, h1, h2⟩
    by_cases h0 : fval x = 0
    · exact Or.inl ((F192.fval_eq_zero hx).1 h0)
    right
    obtain ⟨a, b⟩ := C42_to_ratio_all hx h0
    by_cases hc : 2 ^ 63 ≤ x.exp ∧ x.exp ≤ 2 ^ 63 + 2 ^ 48
    · obtain ⟨p, hp⟩ := a hc
      rw [hp] at h1
      cases h1
    obtain ⟨r', g1, -, g3⟩ := b hc
    rw [h1] at g1
    obtain rfl : r = r' := by injection g1 with g1; injection g1
    rw [h2] at g3
    have h4 : (2 : ℚ) ^ ((signedExp x).tmod (2 ^ 32) - ((x.exp : ℤ) - 2 ^ 48)) = 1 := by
      have := mul_left_cancel₀ h0 (g3.symm.trans (mul_one _).symm)
      exact this
    have h5 : (signedExp x).tmod (2 ^ 32) = (x.exp : ℤ) - 2 ^ 48 := by
      have := (zpow_eq_one_iff_right₀ (by norm_num : (0 : ℚ) ≤ 2) (by norm_num)).1 h4
      omega
    have h6 := Int.natAbs_tmod (signedExp x) (2 ^ 32)
    have h7 : (signedExp x).natAbs % 2 ^ 32 < 2 ^ 32 := Nat.mod_lt _ (by norm_num)
    rw [h5] at h6
    have h8 : ((x.exp : ℤ) - 2 ^ 48).natAbs < 2 ^ 32 := h6 ▸ h7
    norm_num at h8 ⊢
    omega
  · intro h
    obtain ⟨r, h1, -, h3⟩ := C42_to_ratio_partial hx h
    exact ⟨r, h1, h3⟩

example : ¬∃ r, F192.to_ratio ⟨0, 2 ^ 48 - 2 ^ 32⟩ = pure r ∧ rval r = fval ⟨0, 2 ^ 48 - 2 ^ 32⟩ := by
  rw [C42_to_ratio_iff (by decide)]
  unfold InRange
  decide

/-- From an exponent field of `2^63` on, up to `2^63 + 2^48`, all roundings panic. -/
theorem C43_panic {x : F192} (hx : FValid x) (h1 : 2 ^ 63 ≤ x.exp) (h2 : x.exp < 2 ^ 63 + 2 ^ 48) :
    Panics (F192.truncate x) ∧ Panics (F192.floor x) ∧ Panics (F192.ceil x) ∧ Panics (F192.round x) ∧ Panics (F192.frac x) ∧
      Panics (F192.is_integer x) := by
  obtain ⟨s, m, e, hm, he, rfl⟩ := F192.exists_mk hx
  rw [F192.mk_exp] at h1 h2
  have ht : Panics (F192.truncate (mk' s m e)) := ⟨_, F192.truncate_panic hm (by omega) (by omega)⟩
  refine ⟨ht, F192.panics_bind ht _, F192.panics_bind ht _, F192.panics_bind ht _, F192.panics_bind ht _, .overflow, ?_⟩
  have hz : ¬Z s m e := F192.nz_exp (by omega)
  rw [F192.is_integer, F192.is_zero_mk hm, if_neg (by simpa [Z] using hz), F192.expI64_panic (by omega) (by omega)]
  rfl

example : Panics (F192.round ⟨5, 2 ^ 63 + 2 ^ 47⟩) := (C43_panic (by decide) (by norm_num) (by norm_num)).2.2.2.1

/-- Above, the numbers are huge integers, but they are treated as fractions of magnitude below one half when truncated, and as fractions of
magnitude above it when rounded. -/
theorem C43_wrong {x : F192} (hx : FValid x) (h : 2 ^ 63 + 2 ^ 48 ≤ x.exp) :
    (∃ n : ℤ, fval x = n) ∧ F192.is_integer x = pure false ∧ F192.truncate x = pure ZERO ∧ F192.frac x = pure x ∧
    (∃ t, F192.floor x = pure t ∧ FValid t ∧ fval t = if fval x < 0 then -1 else 0) ∧
    (∃ t, F192.ceil x = pure t ∧ FValid t ∧ fval t = if fval x < 0 then 0 else 1) ∧
    ∃ t, F192.round x = pure t ∧ FValid t ∧ fval t = if fval x < 0 then -1 else 1 := by
  obtain ⟨s, m, e, hm, he, rfl⟩ := F192.exists_mk hx
  rw [F192.mk_exp] at h
  have hz : ∀ s, ¬Z s m e := fun s => F192.nz_exp (by omega)
  have ht := F192.truncate_big (s := s) hm (by omega) he
  have hv := F192.fval_mk (s := s) hm (hz s)
  have hp := F192.mg_pos (e := e) hm
  have hne : ZERO ≠ mk' s m e := fun hc => by
    have := congrArg fval hc
    rw [F192.fval_zero, hv] at this
    exact absurd this.symm (mul_ne_zero (F192.sgn_ne s) hp.ne')
  have hsub := F192.sub_zero_right hm (hz s) (hz false)
  have hneg : (fval (mk' s m e) < 0) = (s = true) := by
    rw [hv]
    cases s
    · simp only [F192.sgn_false, one_mul, Bool.false_eq_true, eq_iff_iff, iff_false, not_lt]
      exact hp.le
    · simp only [F192.sgn_true, neg_one_mul, eq_iff_iff, iff_true]
      linarith
  have hhalf : 1 / 2 ≤ mg m e := by
    have := F192.mg_lt_of_exp (e₁ := 281474976710529) (e₂ := e) (F192.nrm_S) hm (by omega)
    rw [F192.mg_one] at this
    linarith
  simp only [hneg]
  refine ⟨?_, ?_, ht, ?_, ?_, ?_, ?_⟩
  · obtain ⟨k, hk⟩ : ∃ k : Nat, e = 281474976710656 + k := ⟨e - 281474976710656, by omega⟩
    refine ⟨(if s then -1 else 1) * (m * 2 ^ k), ?_⟩
    rw [hv, F192.mg, hk, show (((281474976710656 + k : Nat) : ℤ) - 2 ^ 48) = (k : ℤ) by push_cast; ring, zpow_natCast]
    push_cast
    cases s <;> rfl
  · rw [F192.is_integer, F192.is_zero_mk hm, if_neg (by simpa [Z] using hz s), F192.expI64_big (by omega) he, pure_bind, if_pos (by omega)]
  · rw [F192.frac, ht, pure_bind, hsub]
  · rw [F192.floor, ht, pure_bind, if_neg hne, F192.is_neg_mk hm]
    cases s
    · exact ⟨ZERO, rfl, by decide, by rw [F192.fval_zero, if_neg (by decide)]⟩
    · rw [if_pos rfl, F192.one_c, pure_bind, F192.sub_zero_left _ (F192.is_neg_mk F192.nrm_S), F192.neg_mk F192.nrm_S (F192.nz_exp (by omega))]
      refine ⟨_, rfl, F192.valid_mk F192.nrm_S (by omega), ?_⟩
      rw [F192.fval_one, if_pos rfl]
      rfl
  · rw [F192.ceil, ht, pure_bind, if_neg hne, F192.is_neg_mk hm]
    cases s
    · rw [if_neg (by decide), F192.one_c, pure_bind, F192.add_zero_left _ (F192.is_neg_mk F192.nrm_S)]
      refine ⟨_, rfl, F192.valid_mk F192.nrm_S (by omega), ?_⟩
      rw [F192.fval_one, if_neg (by decide)]
      rfl
    · exact ⟨ZERO, rfl, by decide, by rw [F192.fval_zero, if_pos rfl]⟩
  · rw [F192.round, ht, pure_bind, if_neg hne]
    dsimp only
    rw [F192.half_c, F192.mhalf_c, hsub, pure_bind,
      F192.round_step (s := s) (r := mg m e) (F192.valid_mk hm he) hv hp.le, if_pos hhalf, F192.add_zero_one]
    refine ⟨_, rfl, F192.valid_mk F192.nrm_S (by omega), ?_⟩
    rw [F192.fval_one]
    cases s <;> rfl

example : ∃ t, F192.round F192.MAX = pure t ∧ FValid t ∧ fval t = if fval F192.MAX < 0 then -1 else 1 :=
  (C43_wrong (by decide) (by decide)).2.2.2.2.2.2

/-- `ilog2` panics for zero, for negative numbers and for exponent fields from `2^63` to `2^63 + 2^48`; above, the result is negative, and
smaller by `2^64` than the logarithm. -/
theorem C60_ilog2_wrong {x : F192} (hx : FValid x) : (fval x ≤ 0 → Panics (F192.ilog2 x)) ∧
    (2 ^ 63 ≤ x.exp → x.exp < 2 ^ 63 + 2 ^ 48 → Panics (F192.ilog2 x)) ∧
    (2 ^ 63 + 2 ^ 48 ≤ x.exp → 0 < fval x → ∃ z, F192.ilog2 x = pure z ∧ FValid z ∧ fval z < 0 ∧
      ∃ n : ℤ, fval z = n - 2 ^ 64 ∧ (2 : ℚ) ^ n ≤ fval x ∧ fval x < 2 ^ (n + 1)) := by
  obtain ⟨s, m, e, hm, he, rfl⟩ := F192.exists_mk hx
  rw [F192.mk_exp]
  have hp := F192.mg_pos (e := e) hm
  refine ⟨fun h => ?_, fun h1 h2 => ?_, fun h1 h2 => ?_⟩
  · rw [F192.ilog2, F192.is_neg_mk hm, F192.is_zero_mk hm]
    cases s
    · rw [if_neg (by decide)]
      by_cases hz : Z false m e
      · rw [if_pos (by simpa [Z] using hz)]
        exact ⟨_, rfl⟩
      · rw [F192.fval_mk hm hz, F192.sgn_false] at h
        linarith
    · rw [if_pos rfl]
      exact ⟨_, rfl⟩
  · have hz : ¬Z s m e := F192.nz_exp (by omega)
    rw [F192.ilog2, F192.is_neg_mk hm, F192.is_zero_mk hm]
    cases s
    · rw [if_neg (by decide), if_neg (by simpa [Z] using hz), F192.expI64_panic (by omega) (by omega)]
      exact ⟨_, rfl⟩
    · rw [if_pos rfl]
      exact ⟨_, rfl⟩
  · have hz : ¬Z s m e := F192.nz_exp (by omega)
    rw [F192.fval_mk hm hz] at h2 ⊢
    cases s
    swap
    · rw [F192.sgn_true] at h2
      linarith
    obtain ⟨z, z1, z2, z3⟩ := F192.from_int_c (n := (e : ℤ) - 18446744073709551616 - 281474976710656 + 127) (by omega) (by omega)
    refine ⟨z, ?_, z2, ?_, (e : ℤ) - 281474976710656 + 127, ?_, ?_, ?_⟩
    · rw [F192.ilog2, F192.is_neg_mk hm, if_neg (by decide), F192.is_zero_mk hm, if_neg (by simpa [Z] using hz),
        F192.expI64_big (by omega) he, pure_bind, i64Chk, if_pos (by omega), pure_bind, z1]
    · rw [z3]
      exact_mod_cast (by omega : (e : ℤ) - 18446744073709551616 - 281474976710656 + 127 < 0)
    · rw [z3]
      push_cast
      ring
    · rw [F192.sgn_false, one_mul, F192.mg, show (2 : ℤ) ^ 48 = 281474976710656 by norm_num, zpow_add₀ (by norm_num), mul_comm]
      have : ((170141183460469231731687303715884105728 : Nat) : ℚ) ≤ m := Nat.cast_le.2 hm.1
      have hu : (0 : ℚ) < 2 ^ ((e : ℤ) - 281474976710656) := zpow_pos (by norm_num) _
      apply mul_le_mul_of_nonneg_right _ hu.le
      refine le_trans (le_of_eq ?_) this
      norm_num
    · rw [F192.sgn_false, one_mul, F192.mg, show (2 : ℤ) ^ 48 = 281474976710656 by norm_num, add_assoc, zpow_add₀ (by norm_num), mul_comm]
      have : (m : ℚ) < (340282366920938463463374607431768211456 : Nat) := Nat.cast_lt.2 hm.2
      have hu : (0 : ℚ) < 2 ^ ((e : ℤ) - 281474976710656) := zpow_pos (by norm_num) _
      apply mul_lt_mul_of_pos_left _ hu
      refine lt_of_lt_of_le this (le_of_eq ?_)
      norm_num

example : Panics (F192.ilog2 (mk' true (2 ^ 127) 5)) ∧ Panics (F192.ilog2 ⟨9, 2 ^ 63 + 5⟩) :=
  ⟨(C60_ilog2_wrong (by decide)).1 (by
      have hn : Nrm (2 ^ 127) := ⟨by norm_num, by norm_num⟩
      rw [F192.fval_mk hn F192.nz_true, F192.sgn_true]
      linarith [F192.mg_pos (e := 5) hn]), (C60_ilog2_wrong (by decide)).2.1 (by norm_num) (by norm_num)⟩

/-- `from_pow2` panics from `2^63 - 2^48` on; the exponent field wraps around below `127 - 2^48`, and the result is too large by a factor of `2^(2^64)`. -/
theorem C60_from_pow2_wrong {n : Int} (h1 : -2 ^ 63 ≤ n) (h2 : n < 2 ^ 63) :
    (2 ^ 63 - 2 ^ 48 ≤ n → Panics (F192.from_pow2 n)) ∧
    (n < 127 - 2 ^ 48 → ∃ z, F192.from_pow2 n = pure z ∧ FValid z ∧ fval z = 2 ^ (n + 2 ^ 64)) := by
  norm_num at h1 h2
  refine ⟨fun h => ?_, fun h => ?_⟩
  · norm_num at h
    rw [F192.from_pow2, show F192.EXP_COEFF = 281474976710656 from rfl, i64Chk, if_neg (by push_cast; omega)]
    exact ⟨_, rfl⟩
  · norm_num at h
    refine ⟨mk' false 170141183460469231731687303715884105728 (n + 18446744073709551616 + 281474976710656 - 127).toNat, ?_, F192.valid_mk F192.nrm_S (by omega), ?_⟩
    · rw [F192.from_pow2, show F192.EXP_COEFF = 281474976710656 from rfl, i64Chk, if_pos (by push_cast; omega), pure_bind, i64Chk,
        if_pos (by push_cast; omega), pure_bind, asU64]
      have : ((n + (281474976710656 : Nat) - 127) % 18446744073709551616).toNat = (n + 18446744073709551616 + 281474976710656 - 127).toNat := by
        push_cast; omega
      rw [this]
      rfl
    · rw [F192.fval_mk F192.nrm_S (F192.nz_exp (by omega)), F192.sgn_false, one_mul, F192.mg, show (2 : ℤ) ^ 48 = 281474976710656 by norm_num]
      have : (((n + 18446744073709551616 + 281474976710656 - 127).toNat : ℤ) - 281474976710656) = n + 2 ^ 64 - 127 := by norm_num; omega
      rw [this]
      have h2 : ((170141183460469231731687303715884105728 : Nat) : ℚ) = 2 ^ (127 : ℤ) := by norm_num
      rw [h2, ← zpow_add₀ (by norm_num)]
      congr 1
      omega

example : ∃ z, F192.from_pow2 (-2 ^ 50) = pure z ∧ FValid z ∧ fval z = 2 ^ (-2 ^ 50 + 2 ^ 64 : ℤ) :=
  (C60_from_pow2_wrong (by norm_num) (by norm_num)).2 (by norm_num)

end Props
end Hmath
