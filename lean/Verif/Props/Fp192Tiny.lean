import Verif.Props.Fp192Atrigo
import Verif.Props.Misc
import Verif.Props.Basics
import Verif.Props.Fp192Sum
import Verif.Proofs.Fp192Sm

/-!
# C41, C71, C72: products and quotients with an `i32` for all exponents, inverse functions of tiny numbers
-/

namespace Hmath
namespace Props

open F192 (mk' mg ulp sgn Nrm Z ZERO ONE ONE_OVER_SQRT_2 mg_eq mg_pos ulp_pos nz_exp fval_mk mk_of_not_zero prodSign Sm sm_of sm_mul prodSign_pos sm_mul_i32 sm_div_i32
  sm_add mul_low div_low)

private theorem natAbs_i32' {a : Int} (h : IsI32 a) (h' : a ≠ -2 ^ 31) : a.natAbs < 2147483648 := by
  unfold IsI32 at h; omega

/-- The product with an `i32` panics exactly if the exponent field has no room for it, or if the product of the upper 96 bits of the mantissa is
below a power of two and the product of the whole mantissa is not. -/
theorem C41_mul_i32_panic_iff {x : F192} {a : Int} (hx : FValid x) (ha : IsI32 a) (h' : a ≠ -2 ^ 31) (h0 : fval x ≠ 0) (ha0 : a ≠ 0) {m : Nat}
    (hm : m = 2 ^ 127 + x.digits % 2 ^ 127) :
    Panics (F192.mul_i32 x a) ↔ 2 ^ 64 - 32 ≤ x.exp ∨ ∃ j, m / 2 ^ 32 * a.natAbs < 2 ^ j ∧ 2 ^ (j + 32) ≤ m * a.natAbs := by
  obtain ⟨s, m', e, hm', he, hz, rfl, hv⟩ := mk_of_not_zero hx h0
  obtain rfl : m = m' := by
    have hd := F192.digits_mod (s := s) (e := e) hm'
    have := hm'.1
    generalize (mk' s m' e).digits = d at *
    omega
  rw [F192.mk_exp]
  have hA := natAbs_i32' ha h'
  by_cases hbig : e + 32 < 18446744073709551616
  · rcases F192.mul_i32_d hm' hz ha0 hA hbig with ⟨g1, -, g2⟩ | ⟨m', e', -, -, -, g1, -, g2⟩
    · exact ⟨fun _ => Or.inr g2, fun _ => ⟨_, g1⟩⟩
    · constructor
      · rintro ⟨p, hp⟩
        rw [g1] at hp
        cases hp
      · rintro (h | h)
        · omega
        · exact absurd h g2
  · refine ⟨fun _ => Or.inl (by omega), fun _ => ⟨.overflow, ?_⟩⟩
    have hq : ∀ q, q < 2 ^ 96 → q * a.natAbs < 340282366920938463463374607431768211456 := fun q hq => by
      calc q * a.natAbs ≤ 2 ^ 96 * 2 ^ 31 := Nat.mul_le_mul (by omega) (by omega)
        _ < _ := by norm_num
    have hmm := hm'.2
    rw [F192.mul_i32, if_neg, i32AbsU128, if_neg (by omega), pure_bind, F192.or_mk hm', u128Mul, uMul_eq (hq _ ?_),
      pure_bind, uShr_eq (by norm_num), pure_bind, uMul_eq (hq _ ?_), pure_bind, F192.mk_exp, u64Add, uAdd,
      if_neg (by omega)]
    · rfl
    · omega
    · rw [show (4294967295 : Nat) = 2 ^ 32 - 1 by norm_num, Nat.and_two_pow_sub_one_eq_mod]
      omega
    · rw [F192.is_zero_mk hm']
      simp only [Bool.or_eq_true, decide_eq_true_eq, not_or, beq_iff_eq]
      exact ⟨hz, ha0⟩

private theorem ne_zero {x : F192} (hx : FValid x) (h : x ≠ ZERO) : fval x ≠ 0 := fun hc => h ((F192.fval_eq_zero hx).1 hc)

/-- the number next to `4/3`, and its neighbour, times 3 -/
example : Panics (F192.mul_i32 ⟨56713727820156410577229101238628035243, 2 ^ 48 - 127⟩ 3) ∧
    ¬Panics (F192.mul_i32 ⟨56713727820156410577229101238628035242, 2 ^ 48 - 127⟩ 3) := by
  rw [C41_mul_i32_panic_iff (by decide) (by unfold IsI32; norm_num) (by norm_num) (ne_zero (by decide) (by decide)) (by norm_num) rfl,
    C41_mul_i32_panic_iff (by decide) (by unfold IsI32; norm_num) (by norm_num) (ne_zero (by decide) (by decide)) (by norm_num) rfl]
  constructor
  · exact Or.inr ⟨97, by norm_num, by norm_num⟩
  · rintro (h | ⟨j, h1, h2⟩)
    · norm_num at h
    · norm_num at h1 h2
      have h3 : 2 ^ 96 < 2 ^ j := lt_of_le_of_lt (by norm_num) h1
      have h4 : 2 ^ (j + 32) < 2 ^ 129 := lt_of_le_of_lt h2 (by norm_num)
      have h5 := (Nat.pow_lt_pow_iff_right (by norm_num)).1 h3
      have h6 := (Nat.pow_lt_pow_iff_right (by norm_num)).1 h4
      omega

private theorem n127 : Nrm 170141183460469231731687303715884105728 := ⟨by norm_num, by norm_num⟩

private theorem negTiny_val : fval negTiny = -mg 170141183460469231731687303715884105728 0 := by
  have hn : negTiny = mk' true 170141183460469231731687303715884105728 0 := by decide
  rw [hn]
  exact F192.fval_neg n127

private theorem minPos_val : fval F192.MIN_POSITIVE = mg 170141183460469231731687303715884105729 0 := by
  have := fval_mk (s := false) (m := 170141183460469231731687303715884105729) (e := 0) ⟨by norm_num, by norm_num⟩ (by rintro ⟨-, h, -⟩; norm_num at h)
  rw [F192.sgn_false, one_mul] at this
  have hn : F192.MIN_POSITIVE = mk' false 170141183460469231731687303715884105729 0 := by decide
  rw [hn]
  exact this

private theorem quot_val {s : Bool} {m e : Nat} {a : Int} (h0 : a ≠ 0) : sgn (prodSign s a) * (mg m e / a.natAbs) = sgn s * mg m e / a := by
  have hA : ((a.natAbs : Nat) : ℚ) ≠ 0 := by
    have : a.natAbs ≠ 0 := by omega
    exact_mod_cast this
  have haq : (a : ℚ) ≠ 0 := by exact_mod_cast h0
  have hsq : ((a.natAbs : Nat) : ℚ) * (a.natAbs : Nat) = a * a := by
    rw [Nat.cast_natAbs]; push_cast; exact abs_mul_abs_self _
  have := prodSign_val (s := s) (a := a) (mg m e / (a.natAbs * a.natAbs))
  rw [hsq] at this
  rw [eq_div_iff haq]
  rw [show mg m e / ((a : ℚ) * a) * (a.natAbs : Nat) = mg m e / a.natAbs by
    rw [← hsq]; field_simp] at this
  rw [this]; field_simp

/-- The quotient by an `i32` for all exponents.  Quotients below all numbers in magnitude panic, other quotients are cut off to 128 bits; between zero and
the least positive number they are zero. -/
theorem C41_div_i32_all {x : F192} {a : Int} (hx : FValid x) (ha : IsI32 a) (h' : a ≠ -2 ^ 31) (h0 : a ≠ 0) (hz : fval x ≠ 0) :
    (|fval x / a| < |fval negTiny| → Panics (F192.div_i32 x a)) ∧
    (fval x / a ≤ fval negTiny ∨ fval F192.MIN_POSITIVE ≤ fval x / a →
      ∃ z, F192.div_i32 x a = pure z ∧ Truncates z (fval x / a) ∧ Close z (fval x / a) (1 / 2 ^ 127)) ∧
    (|fval negTiny| ≤ fval x / a → fval x / a < fval F192.MIN_POSITIVE → F192.div_i32 x a = pure ZERO) := by
  obtain ⟨s, m, e, hm, he, hzz, rfl, hv⟩ := mk_of_not_zero hx hz
  obtain ⟨m', k, b1, b2, b5, b3, b4⟩ := F192.div_i32_d (e := e) hm hzz h0 (natAbs_i32' ha h')
  have hA1 : 1 ≤ a.natAbs := by omega
  rw [hv, ← quot_val h0, negTiny_val, minPos_val, b3]
  generalize prodSign s a = t at *
  generalize a.natAbs = A at *
  have hA0 : (0 : ℚ) < A := by exact_mod_cast hA1
  have hp := mg_pos (e := e) hm
  have hq : 0 < mg m e / A := div_pos hp hA0
  have hu := ulp_pos 0
  have e0 : mg m e = ((m * 2 ^ e : Nat) : ℚ) * ulp 0 := by
    have := F192.mg_shift m 0 e
    rw [Nat.zero_add] at this
    rw [← this, mg_eq]
  have hle : k ≤ e ↔ mg 170141183460469231731687303715884105728 0 ≤ mg m e / A := by
    rw [le_div_iff₀ hA0, e0, mg_eq, mul_right_comm, mul_le_mul_iff_left₀ hu]
    rw [← Nat.cast_mul, Nat.cast_le]
    constructor
    · intro hk
      calc 170141183460469231731687303715884105728 * A ≤ m / A * 2 ^ k * A := Nat.mul_le_mul_right _ b5.1
        _ = m / A * A * 2 ^ k := by ring
        _ ≤ m * 2 ^ k := Nat.mul_le_mul_right _ (Nat.div_mul_le_self m A)
        _ ≤ m * 2 ^ e := Nat.mul_le_mul_left _ (Nat.pow_le_pow_right (by norm_num) hk)
    · intro hk
      by_contra hc
      have c1 : m / A < 2 ^ (128 - k) := by
        have e1 : (2 : Nat) ^ 128 = 2 ^ (128 - k) * 2 ^ k := by rw [← pow_add, Nat.sub_add_cancel (by omega)]
        have b6 := b5.2
        rw [e1] at b6
        exact Nat.lt_of_mul_lt_mul_right b6
      rw [Nat.div_lt_iff_lt_mul hA1] at c1
      have : m * 2 ^ e < 2 ^ 127 * A := by
        calc m * 2 ^ e < 2 ^ (128 - k) * A * 2 ^ e := Nat.mul_lt_mul_of_pos_right c1 (by positivity)
          _ = 2 ^ (128 - k + e) * A := by rw [pow_add]; ring
          _ ≤ 2 ^ 127 * A := Nat.mul_le_mul_right _ (Nat.pow_le_pow_right (by norm_num) (by omega))
      norm_num at this
      omega
  have hsv : ∀ {v : ℚ}, 0 < v → |sgn t * v| = v := fun h => by rw [abs_mul, F192.abs_sgn, one_mul, abs_of_pos h]
  have hp127 := mg_pos (e := 0) n127
  have hstep : mg 170141183460469231731687303715884105729 0 = mg 170141183460469231731687303715884105728 0 + ulp 0 := by
    rw [mg_eq, mg_eq]
    push_cast
    ring
  rw [abs_neg, abs_of_pos hp127, hstep, hsv hq]
  refine ⟨fun h => ?_, fun h => ?_, fun h1 h2 => ?_⟩
  · rw [if_neg (fun hc => absurd (hle.1 hc) (not_le.2 h))]
    exact ⟨_, rfl⟩
  · have hk : k ≤ e := by
      rw [hle]
      rcases h with h | h
      · have := neg_le_abs (sgn t * (mg m e / A))
        rw [hsv hq] at this
        linarith
      · have := le_abs_self (sgn t * (mg m e / A))
        rw [hsv hq] at this
        linarith
    rw [if_pos hk]
    have ht := b4 hk
    have hnz : ¬Z t m' (e - k) := by
      rintro ⟨z1, z2, z3⟩
      have g1 := ht.2
      rw [z2, z3] at g1
      rcases h with h | h
      · rw [z1, F192.sgn_false, one_mul] at h
        linarith
      · rw [z1, F192.sgn_false, one_mul] at h
        linarith
    exact ⟨_, rfl, truncates_trunc b1 (by omega) hnz ht, close_trunc b1 (by omega) hnz ht⟩
  · have ht0 : t = false := by
      cases t
      · rfl
      · rw [F192.sgn_true] at h1
        linarith
    subst ht0
    rw [F192.sgn_false, one_mul] at h1 h2
    have hk := hle.2 h1
    have ht := b4 hk
    have hek : e - k = 0 := by
      by_contra hc
      have g1 := F192.mg_lt_of_exp (e₁ := 0) (e₂ := e - k) (m₁ := 170141183460469231731687303715884105729) ⟨by norm_num, by norm_num⟩ b1 (by omega)
      have g2 := ht.1
      rw [hstep] at g1
      linarith
    have hm' : m' = 170141183460469231731687303715884105728 := by
      have g1 := lt_of_le_of_lt ht.1 h2
      rw [hek, mg_eq, mg_eq, ← add_one_mul, mul_lt_mul_iff_left₀ hu] at g1
      have : m' < 170141183460469231731687303715884105728 + 1 := by exact_mod_cast g1
      have := b1.1
      omega
    rw [if_pos hk, hek, hm']
    rfl

private instance : DecidableEq (M F192) := inferInstanceAs (DecidableEq (Option (Except Panic F192)))

/-- the three cases -/
example : Panics (F192.div_i32 ⟨0, 1⟩ 3) ∧ F192.div_i32 ⟨0, 5⟩ (-3) = pure ⟨226854911280625642308916404954512140970, 3⟩ ∧ F192.div_i32 ⟨0, 1⟩ 2 = pure ZERO :=
  ⟨⟨.overflow, (F192.div_i32E_c _ _).panics (by decide +kernel)⟩, (F192.div_i32E_c _ _).ret (by decide +kernel), (F192.div_i32E_c _ _).ret (by decide +kernel)⟩

/-! ### the inverse sine of tiny numbers -/

private theorem asinLoop_zero {m e : Nat} {q : F192} (h : Nrm m) (hz : ¬Z false m e) (n : Nat) : ∀ i, n + i ≤ 15 →
    F192.asinLoop q n i (mk' false m e) ZERO = pure (mk' false m e) := by
  induction n with
  | zero => exact fun _ _ => rfl
  | succ n ih =>
    intro i hi
    rw [F192.asinLoop, sm_add (E := (e : Int) - 128) h hz (Or.inl rfl) (by omega), pure_bind, F192.mul, show F192.is_zero ZERO = true from rfl, Bool.true_or, if_pos rfl,
      pure_bind, F192.mul_i32, show F192.is_zero ZERO = true from rfl, Bool.true_or, if_pos rfl, pure_bind, F192.div_i32, if_neg (by positivity),
      show F192.is_zero ZERO = true from rfl, if_pos rfl, pure_bind]
    exact ih (i + 1) (by omega)

private theorem asinLoop_tiny {m e : Nat} {E F : Int} {q : F192} (h : Nrm m) (he : e < 281474976710656) (hz : ¬Z false m e) (hE : E + 128 ≤ e) (hq : Sm F q)
    (hF : F + 160 ≤ 281474976710656) : ∀ n i c, n + i ≤ 15 → Sm E c →
      Panics (F192.asinLoop q n i (mk' false m e) c) ∨ F192.asinLoop q n i (mk' false m e) c = pure (mk' false m e) := by
  intro n
  induction n with
  | zero => exact fun _ _ _ _ => Or.inr rfl
  | succ n ih =>
    intro i c hi hc
    rw [F192.asinLoop, sm_add h hz hc hE, pure_bind]
    obtain ⟨c1, e1, s1⟩ := sm_mul hc hq (by omega)
    rw [e1, pure_bind]
    have hb : ((2 * i + 3) * (2 * i + 3) * (2 * i + 4) : Int) < 2147483648 ∧ ((i + 2) * (i + 2) * (2 * i + 5) * 4 : Int) < 2147483648 := by
      have hi' : i < 16 := by omega
      clear ih hi e1 s1
      interval_cases i <;> norm_num
    rcases sm_mul_i32 (a := (2 * i + 3) * (2 * i + 3) * (2 * i + 4)) s1 (by positivity) hb.1 (by omega) with ⟨p, hp⟩ | ⟨c2, e2, s2⟩
    · exact Or.inl ⟨p, by rw [hp]; rfl⟩
    rw [e2, pure_bind]
    rcases sm_div_i32 (a := (i + 2) * (i + 2) * (2 * i + 5) * 4) s2 (by positivity) hb.2 with ⟨p, hp⟩ | ⟨c3, e3, s3⟩
    · exact Or.inl ⟨p, by rw [hp]; rfl⟩
    rw [e3, pure_bind]
    refine ih (i + 1) c3 (by omega) ?_
    rcases s3 with s3 | ⟨m3, f3, g1, g2, g3, g4⟩
    · exact Or.inl s3
    · exact Or.inr ⟨m3, f3, g1, g2, g3, by omega⟩

private theorem one_val : fval ONE = 1 := by
  have := fval_mk (s := false) (m := 170141183460469231731687303715884105728) (e := 281474976710656 - 127) n127 (nz_exp (by omega))
  rw [F192.mg_coeff_sub (by omega), F192.sgn_false, one_mul] at this
  exact this.trans (by norm_num)

private theorem asin_zero : F192.asinE ZERO = pure ZERO := by decide +kernel

/-- The inverse sine of a number of magnitude at most `2^-70`, however tiny, panics or returns the number itself, which is that close to the true value.
Below about `2^(-2^48/5)` it does not panic. -/
theorem C71_asin_tiny {x : F192} (hx : FValid x) (ht : x ≠ negTiny) (h : |fval x| ≤ 1 / 2 ^ 70) :
    (Panics (F192.asin x) ∨ F192.asin x = pure x) ∧ (5 * x.exp + 384 < 2 ^ 50 → F192.asin x = pure x) ∧
      |((fval x : ℚ) : ℝ) - Real.arcsin ((fval x : ℚ) : ℝ)| ≤ |((fval x : ℚ) : ℝ)| / 2 ^ 140 := by
  have hreal : |((fval x : ℚ) : ℝ) - Real.arcsin ((fval x : ℚ) : ℝ)| ≤ |((fval x : ℚ) : ℝ)| / 2 ^ 140 := by
    generalize fval x = v at h
    have e1 := RealSeries.asinSum_abs (n := 1) (y := v) (by norm_num) (lt_of_le_of_lt h (by norm_num))
    have e2 : asinSum 1 v = v := by
      rw [asinSum, Finset.sum_range_one]
      norm_num
    rw [e2] at e1
    rw [abs_sub_comm]
    refine e1.trans ?_
    have h' : |(v : ℝ)| ≤ 1 / 2 ^ 70 := by
      have := (Rat.cast_le (K := ℝ)).2 h
      push_cast at this
      exact this
    rw [← sq_abs (v : ℝ)]
    have h0 := abs_nonneg (v : ℝ)
    generalize |(v : ℝ)| = w at h' h0
    have hw : w ^ 2 ≤ 1 / 2 ^ 140 := by
      calc w ^ 2 ≤ (1 / 2 ^ 70) ^ 2 := by gcongr
        _ = _ := by norm_num
    refine (div_le_self (by positivity) ?_).trans ?_
    · norm_num at hw ⊢
      linarith
    · rw [show w ^ (2 * 1 + 1) = w * w ^ 2 by ring, div_eq_mul_one_div]
      exact mul_le_mul_of_nonneg_left hw h0
  rw [← and_assoc]
  refine ⟨?_, hreal⟩
  clear hreal
  by_cases h0 : fval x = 0
  · rw [(F192.fval_eq_zero hx).1 h0]
    exact ⟨Or.inr ((F192.asinE_c _).ret asin_zero), fun _ => (F192.asinE_c _).ret asin_zero⟩
  obtain ⟨s, m, e, hm, he, hz, rfl, hv⟩ := mk_of_not_zero hx h0
  have hz' : ¬Z false m e := by
    rintro ⟨-, z1, z2⟩
    cases s
    · exact hz ⟨rfl, z1, z2⟩
    · exact ht (by rw [z1, z2]; rfl)
  have hr : (if F192.is_neg (mk' s m e) = true then F192.neg (mk' s m e) else mk' s m e) = mk' false m e := by
    rw [F192.is_neg_mk hm, F192.neg_mk hm hz]
    cases s <;> rfl
  have habs : |fval (mk' s m e)| = mg m e := by rw [hv, abs_mul, F192.abs_sgn, one_mul, abs_of_pos (mg_pos hm)]
  rw [habs] at h
  have hge : e + 197 ≤ 281474976710656 := by
    by_contra hc
    have g := F192.mg_lt_of_exp (e₁ := 281474976710656 - 197) (e₂ := e) n127 hm (by omega)
    rw [F192.mg_coeff_sub (by norm_num)] at g
    norm_num at g h
    linarith
  have hrr := F192.valid_mk (s := false) hm he
  have hvr : fval (mk' false m e) = mg m e := by rw [fval_mk hm hz', F192.sgn_false, one_mul]
  have g1 : F192.gt (mk' false m e) ONE = false := by
    rw [Bool.eq_false_iff, ne_eq, (C39_ops hrr (show FValid ONE by decide)).2.1, hvr, one_val]
    norm_num at h ⊢
    linarith
  have g2 : F192.gt (mk' s m e) ONE_OVER_SQRT_2 = false := by
    rw [Bool.eq_false_iff, ne_eq, (C39_ops hx (show FValid ONE_OVER_SQRT_2 by decide)).2.1]
    have := F192.rsqrt_lo
    have := le_abs_self (fval (mk' s m e))
    rw [habs] at this
    norm_num at h ⊢
    linarith
  have sr : Sm e (mk' false m e) := Or.inr ⟨m, e, hm, hz', rfl, le_rfl⟩
  obtain ⟨q, q1, q2⟩ := sm_mul sr sr (by omega)
  obtain ⟨c, c1, c2⟩ := sm_mul q2 sr (by omega)
  rw [F192.asin, hr, g1, g2]
  simp only [Bool.false_eq_true, if_false, q1, c1, pure_bind]
  obtain ⟨d, d1, d2⟩ := div_low (a := 6) c2 (by norm_num) (by norm_num) (mul_low q2 sr (by omega) c1)
  rw [d1, pure_bind]
  have hfin : (do let r ← (pure (mk' false m e) : M F192); pure (if F192.is_neg (mk' s m e) then F192.neg r else r)) = pure (mk' s m e) := by
    rw [pure_bind, F192.is_neg_mk hm, F192.neg_mk hm hz']
    cases s <;> rfl
  constructor
  · rcases asinLoop_tiny hm (by omega) hz' (by omega) q2 (by omega) 15 0 d (by norm_num) d2 with ⟨p, hp⟩ | hp
    · exact Or.inl ⟨p, by rw [hp]; rfl⟩
    · exact Or.inr (by rw [hp]; exact hfin)
  · intro hlow
    rw [F192.mk_exp] at hlow
    rw [F192.asinLoop, sm_add hm hz' d2 (by omega), pure_bind]
    have hmul : F192.mul d q = pure ZERO := by
      rcases d2 with rfl | ⟨m1, e1, n1, z1, rfl, l1⟩
      · rw [F192.mul, show F192.is_zero ZERO = true from rfl, Bool.true_or, if_pos rfl]
      rcases q2 with rfl | ⟨m2, e2, n2, z2, rfl, l2⟩
      · rw [F192.mul, show F192.is_zero ZERO = true from rfl, Bool.or_true, if_pos rfl]
      exact (F192.mul_flush n1 n2 z1 z2 (by omega)).1
    rw [hmul, pure_bind, F192.mul_i32, show F192.is_zero ZERO = true from rfl, Bool.true_or, if_pos rfl, pure_bind, F192.div_i32, if_neg (by norm_num),
      show F192.is_zero ZERO = true from rfl, if_pos rfl, pure_bind, asinLoop_zero hm hz' 14 1 (by norm_num)]
    exact hfin

private theorem v70 : fval ⟨0, 2 ^ 48 - 197⟩ = 1 / 2 ^ 70 := by
  have := fval_mk (s := false) (m := 170141183460469231731687303715884105728) (e := 281474976710656 - 197) n127 (nz_exp (by omega))
  rw [F192.mg_coeff_sub (by omega), F192.sgn_false, one_mul] at this
  exact this.trans (by norm_num)

/-- `2^-70`, and a number of exponent field 1 -/
example : FValid ⟨0, 2 ^ 48 - 197⟩ ∧ |fval ⟨0, 2 ^ 48 - 197⟩| ≤ 1 / 2 ^ 70 ∧ F192.asin ⟨0, 2 ^ 48 - 197⟩ = pure ⟨0, 2 ^ 48 - 197⟩ ∧
    FValid ⟨5, 1⟩ ∧ F192.asin ⟨5, 1⟩ = pure ⟨5, 1⟩ :=
  ⟨by decide, by rw [v70]; norm_num [abs_of_pos], (F192.asinE_c _).ret (by decide +kernel), by decide, (F192.asinE_c _).ret (by decide +kernel)⟩

/-! ### the inverse cosine and tangent of tiny numbers -/

/-- The inverse cosine of such a number panics with the inverse sine, or it is the difference of a quarter turn and the number, the latter as the conversion to
rationals sees it, if the number is positive, and a quarter turn if the number is negative and at least `-2^-129`. -/
theorem C71_acos_tiny {x : F192} (hx : FValid x) (ht : x ≠ negTiny) (h : |fval x| ≤ 1 / 2 ^ 70) :
    Panics (F192.asin x) ∧ Panics (F192.acos x) ∨
    F192.asin x = pure x ∧ (fval x = 0 → F192.acos x = pure F192.PI_OVER_2) ∧
      (0 < fval x → RoundsTo (F192.acos x) (fval F192.PI_OVER_2 - seen x)) ∧
      (fval x < 0 → -(1 / 2 ^ 129) ≤ fval x → F192.acos x = pure F192.PI_OVER_2) := by
  rcases (C71_asin_tiny hx ht h).1 with ⟨p, hp⟩ | h1
  · exact Or.inl ⟨⟨p, hp⟩, p, by rw [F192.acos, hp]; rfl⟩
  right
  have hP : FValid F192.PI_OVER_2 := by decide
  have hPpos : 0 < fval F192.PI_OVER_2 := by
    rw [F192.pi_val.2.1, F192.pi_val.1]
    norm_num
  have e1 : F192.acos x = F192.sub F192.PI_OVER_2 x := by rw [F192.acos, h1, pure_bind]
  rw [e1]
  refine ⟨h1, fun h0 => ?_, fun h0 => ?_, fun h0 h2 => ?_⟩
  · rw [(F192.fval_eq_zero hx).1 h0, F192.sub]
    rfl
  · have hr : InRange F192.PI_OVER_2 := Or.inr (by decide)
    rw [← seen_inRange hr]
    refine (C41_sub_all hP hx (mul_pos hPpos h0)).2 (by unfold Hole; decide) ?_
    rintro ⟨g1, -⟩
    obtain ⟨s, m, e, hm, he, hz, rfl, hv⟩ := mk_of_not_zero hx h0.ne'
    rw [hv, abs_mul, F192.abs_sgn, one_mul, abs_of_pos (mg_pos hm)] at h
    rw [F192.mk_exp] at g1
    have g := F192.mg_lt_of_exp (e₁ := 281474976710656 - 127) (e₂ := e) n127 hm (by omega)
    rw [F192.mg_coeff_sub (by norm_num)] at g
    norm_num at g h
    linarith
  · obtain ⟨s, m, e, hm, he, hz, rfl, hv⟩ := mk_of_not_zero hx h0.ne
    have hs : s = true := by
      cases s
      · rw [hv, F192.sgn_false, one_mul] at h0
        exact absurd h0 (not_lt.2 (mg_pos hm).le)
      · rfl
    subst hs
    have hz' : ¬Z false m e := by
      rintro ⟨-, z1, z2⟩
      exact ht (by rw [z1, z2]; rfl)
    rw [hv, F192.sgn_true] at h2
    have hge : e + 256 ≤ 281474976710656 := by
      by_contra hc
      have g := F192.mg_lt_of_exp (e₁ := 281474976710656 - 256) (e₂ := e) n127 hm (by omega)
      rw [F192.mg_coeff_sub (by norm_num)] at g
      norm_num at g h2
      linarith
    have hn : F192.is_neg F192.PI_OVER_2 = false := by decide
    have hpi : F192.PI_OVER_2 = mk' false 267257146016241686964920093290467695825 281474976710529 := by decide
    rw [F192.sub, F192.is_neg_mk hm, hn, if_pos (by decide), if_neg (by decide), F192.neg_mk hm hz, hpi]
    exact sm_add (E := e) ⟨by norm_num, by norm_num⟩ (nz_exp (by norm_num)) (Or.inr ⟨m, e, hm, hz', rfl, le_rfl⟩) (by omega)

/-- the negative number of exponent field 1 -/
example : F192.acos ⟨2 ^ 127 + 5, 1⟩ = pure F192.PI_OVER_2 := (F192.acosE_c _).ret (by decide +kernel)

private theorem atan_far : F192.atanE ⟨0, 211106232532865⟩ = pure ⟨56713727820156410577229101238628035243, 281474976710528⟩ := by decide +kernel

private theorem acos_far : F192.acosE ⟨0, 211106232532865⟩ = pure ⟨24090741651075678734778275433283074466, 281474976710528⟩ := by decide +kernel

/-- The difference of two numbers goes through rationals, with exponents modulo `2^32`.  So the inverse tangent of the tiny number `2^(-2^46)` comes out as about
`2/3`, and its inverse cosine as about `π/2 - 1`. -/
theorem C72_tiny_counterexample : ∃ x z w, FValid x ∧ 0 < fval x ∧ fval x ≤ 1 / 2 ^ 100 ∧ F192.atan x = pure z ∧ F192.acos x = pure w ∧
    Real.arctan ((fval x : ℚ) : ℝ) + 66 / 100 ≤ ((fval z : ℚ) : ℝ) ∧ ((fval w : ℚ) : ℝ) + 99 / 100 ≤ Real.arccos ((fval x : ℚ) : ℝ) := by
  have hx : 0 < fval ⟨0, 211106232532865⟩ ∧ fval ⟨0, 211106232532865⟩ ≤ 1 / 2 ^ 100 := by
    have h1 := fval_mk (s := false) (m := 170141183460469231731687303715884105728) (e := 211106232532865) n127 (nz_exp (by omega))
    rw [F192.sgn_false, one_mul] at h1
    have h2 := mg_pos (e := 211106232532865) n127
    have h3 := F192.mg_lt_of_exp (e₁ := 211106232532865) (e₂ := 281474976710656 - 227) n127 n127 (by norm_num)
    rw [F192.mg_coeff_sub (by norm_num)] at h3
    generalize mg 170141183460469231731687303715884105728 211106232532865 = t at h1 h2 h3
    have h4 : fval ⟨0, 211106232532865⟩ = t := h1
    rw [h4]
    refine ⟨h2, h3.le.trans (le_of_eq ?_)⟩
    rw [div_eq_div_iff (by positivity) (by positivity)]
    norm_num
  have hz : fval ⟨56713727820156410577229101238628035243, 281474976710528⟩ = 226854911280625642308916404954512140971 / 2 ^ 128 := by
    have := fval_mk (s := false) (m := 226854911280625642308916404954512140971) (e := 281474976710656 - 128) ⟨by norm_num, by norm_num⟩ (nz_exp (by omega))
    rw [F192.mg_coeff_sub (by omega), F192.sgn_false, one_mul] at this
    exact this.trans (by norm_num)
  have hw : fval ⟨24090741651075678734778275433283074466, 281474976710528⟩ = 194231925111544910466465579149167180194 / 2 ^ 128 := by
    have := fval_mk (s := false) (m := 194231925111544910466465579149167180194) (e := 281474976710656 - 128) ⟨by norm_num, by norm_num⟩ (nz_exp (by omega))
    rw [F192.mg_coeff_sub (by omega), F192.sgn_false, one_mul] at this
    exact this.trans (by norm_num)
  refine ⟨_, _, _, by decide, hx.1, hx.2, (F192.atanE_c _).ret atan_far, (F192.acosE_c _).ret acos_far, ?_, ?_⟩
  · rw [hz]
    have h0 : (0 : ℝ) < ((fval ⟨0, 211106232532865⟩ : ℚ) : ℝ) := by exact_mod_cast hx.1
    have h1 := (Rat.cast_le (K := ℝ)).2 (hx.2.trans (show (1 / 2 ^ 100 : ℚ) ≤ 1 / 1000 by norm_num))
    have h2 := Real.lt_tan (Real.arctan_pos.2 h0) (Real.arctan_lt_pi_div_two _)
    rw [Real.tan_arctan] at h2
    generalize ((fval ⟨0, 211106232532865⟩ : ℚ) : ℝ) = v at *
    push_cast at h1 ⊢
    norm_num
    linarith
  · rw [hw]
    have h0 : (0 : ℝ) < ((fval ⟨0, 211106232532865⟩ : ℚ) : ℝ) := by exact_mod_cast hx.1
    have h1 := (C71_asin_tiny (x := ⟨0, 211106232532865⟩) (by decide) (by decide) (by rw [abs_of_pos hx.1]; exact hx.2.trans (by norm_num))).2.2
    have h3 := (Rat.cast_le (K := ℝ)).2 (hx.2.trans (show (1 / 2 ^ 100 : ℚ) ≤ 1 / 1000000 by norm_num))
    generalize ((fval ⟨0, 211106232532865⟩ : ℚ) : ℝ) = v at *
    have hp := Real.pi_gt_d6
    rw [Real.arccos]
    push_cast at h3 ⊢
    rw [abs_of_pos h0, abs_le] at h1
    norm_num at h1 hp ⊢
    linarith

end Props
end Hmath
