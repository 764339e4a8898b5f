import Verif.Props.Fp192SqrtWide

/-!
# C64: square roots of numbers with exponent fields from `2^63 + 2^48` on
-/

namespace Hmath
namespace Props

open F192 (mk' mg ulp sgn Nrm Z ZERO ONE dg_false LOW_MASK SQRT_2)

private theorem mg_lo {m e : Nat} (hm : Nrm m) : (2 : ℚ) ^ ((e : ℤ) - 281474976710656 + 127) ≤ mg m e := by
  have h : ((170141183460469231731687303715884105728 : Nat) : ℚ) ≤ m := Nat.cast_le.2 hm.1
  rw [F192.mg_eq, F192.ulp, show (2 : ℤ) ^ 48 = 281474976710656 by norm_num, zpow_add₀ (by norm_num), mul_comm]
  refine mul_le_mul ?_ (le_of_eq ?_) (by positivity) (by positivity)
  · norm_num at h ⊢
    exact h
  · norm_num

private theorem mg_hi {m e : Nat} (hm : Nrm m) : mg m e ≤ (2 : ℚ) ^ ((e : ℤ) - 281474976710656 + 128) := by
  have h : (m : ℚ) ≤ ((340282366920938463463374607431768211456 : Nat) : ℚ) := Nat.cast_le.2 hm.2.le
  rw [F192.mg_eq, F192.ulp, show (2 : ℤ) ^ 48 = 281474976710656 by norm_num, zpow_add₀ (by norm_num), mul_comm]
  refine mul_le_mul (le_of_eq ?_) ?_ (by positivity) (by positivity)
  · norm_num
  · norm_num at h ⊢
    exact h

/-- the start of the iteration has about half of the wrapped exponent -/
private theorem start_high {m e f w : Nat} (hm : Nrm m) (h1 : 9223653511831486464 < e) (h2 : e < B64)
    (hf : (f : ℤ) = -((18446744073709551616 + 281474976710656 - (e : ℤ)) / 2) - 64 + 281474976710656 + 18446744073709551616 * w)
    (hf0 : 200 ≤ f) (hf1 : f < B64) :
    Panics (F192.sqrtStart (mk' false m e)) ∨ ∃ a g, Nrm a ∧ F192.sqrtStart (mk' false m e) = pure (mk' false a g) ∧ g ≤ f ∧ f ≤ g + 1 := by
  obtain ⟨r, r1, -⟩ := F192.isqrt_c hm
  set R := 170141183460469231731687303715884105728 + r * 2 ^ 64 % 170141183460469231731687303715884105728 with hR
  have hN : Nrm R := ⟨by omega, by omega⟩
  have hd : r * 2 ^ 64 % 2 ^ 128 &&& LOW_MASK = F192.dg false R := by
    rw [show LOW_MASK = 2 ^ 127 - 1 by decide, Nat.and_two_pow_sub_one_eq_mod, dg_false, hR]
    omega
  have he : ((e : ℤ) - 18446744073709551616 - 281474976710656).tdiv 2 = -((18446744073709551616 + 281474976710656 - (e : ℤ)) / 2) := by
    rw [F192.tdiv_two, if_pos (by omega)]
    congr 2
    ring
  have hu : asU64 (((e : ℤ) - 18446744073709551616 - 281474976710656).tdiv 2 - 64 + 281474976710656) = f := by
    rw [he, asU64]
    omega
  rw [F192.sqrtStart, F192.or_mk hm, F192.expI64_big h1.le h2, pure_bind, r1, pure_bind, F192.i64Abs, if_neg (by omega), pure_bind,
    F192.i64_eq (by rw [he]; omega) (by rw [he]; omega), pure_bind, show (F192.EXP_COEFF : Int) = 281474976710656 from rfl,
    F192.i64_eq (by rw [he]; omega) (by rw [he]; omega), pure_bind, hu, hd]
  change Panics (if ((e : Int) - 18446744073709551616 - 281474976710656).natAbs % 2 = 1 then
    (F192.mul (mk' false R f) SQRT_2 >>= fun approx => pure (if (e : Int) - 18446744073709551616 - 281474976710656 < 0 then F192.shr approx 1 else approx))
    else pure (mk' false R f)) ∨ ∃ a g, Nrm a ∧ (if ((e : Int) - 18446744073709551616 - 281474976710656).natAbs % 2 = 1 then
    (F192.mul (mk' false R f) SQRT_2 >>= fun approx => pure (if (e : Int) - 18446744073709551616 - 281474976710656 < 0 then F192.shr approx 1 else approx))
    else pure (mk' false R f)) = pure (mk' false a g) ∧ _
  by_cases ho : ((e : Int) - 18446744073709551616 - 281474976710656).natAbs % 2 = 1
  · rw [if_pos ho, F192.sqrt2_mk]
    by_cases hb : f + 281474976710529 < B64
    · obtain ⟨p, k, p1, p2, p3, p4, p5, p6, -⟩ := F192.mul_c (a := false) (b := false) hN
        (m₂ := 240615969168004511545033772477625056927) ⟨by norm_num, by norm_num⟩ (e₁ := f) (e₂ := 281474976710529)
        (F192.nz_exp (by omega)) (F192.nz_exp (by omega)) (by omega) hb
      right
      rw [p6, pure_bind, if_pos (by omega), show (false != false) = false from rfl, F192.shr_mk p1 (F192.nz_exp p3) (by omega)]
      exact ⟨p, k - 1, p1, rfl, by omega, by omega⟩
    · left
      rw [F192.mul_panic hN (m₂ := 240615969168004511545033772477625056927) ⟨by norm_num, by norm_num⟩ (F192.nz_exp (by omega)) (F192.nz_exp (by omega)) (by omega)]
      exact ⟨_, rfl⟩
  · rw [if_neg ho]
    exact Or.inr ⟨R, f, hN, rfl, le_rfl, by omega⟩

private theorem sqrt_eq {m e : Nat} (hm : Nrm m) (he : 0 < e) : F192.sqrt (mk' false m e) =
    F192.sqrtStart (mk' false m e) >>= fun a => F192.newton (mk' false m e) a >>= F192.newton (mk' false m e) := by
  rw [F192.sqrt, F192.is_zero_mk hm, F192.is_neg_mk hm, if_neg]
  simp
  omega

/-- the start is tiny: the result is within the quotients there are -/
private theorem small_start {m e f w : Nat} (hm : Nrm m) (h1 : 9223653511831486464 < e) (h2 : e < B64) (hw : w = 0)
    (hf : (f : ℤ) = -((18446744073709551616 + 281474976710656 - (e : ℤ)) / 2) - 64 + 281474976710656 + 18446744073709551616 * w)
    (hf0 : 200 ≤ f) :
    Panics (F192.sqrt (mk' false m e)) ∨ ∃ b h, Nrm b ∧ 0 < h ∧ h < B64 ∧ F192.sqrt (mk' false m e) = pure (mk' false b h) ∧ h ≤ 300000000000000 := by
  rw [sqrt_eq hm (by omega)]
  rcases start_high hm h1 h2 hf hf0 (by omega) with hp | ⟨a, g, a1, a2, a3, a4⟩
  · exact Or.inl (F192.panics_bind hp _)
  rw [a2, pure_bind]
  have rx : LogArg (mk' false m e) := by
    unfold LogArg; rw [F192.mk_exp]; norm_num; omega
  have step : ∀ {t g : Nat}, Nrm t → 0 < g → g ≤ 300000000000000 → Panics (F192.newton (mk' false m e) (mk' false t g)) ∨
      ∃ b h, Nrm b ∧ F192.newton (mk' false m e) (mk' false t g) = pure (mk' false b h) ∧ 0 < h ∧ h ≤ 300000000000000 := by
    intro t g t1 g1 g2
    rcases quot_mk hm t1 (f := g) h2 (by omega) rx (by unfold DivArg LogArg; rw [F192.mk_exp]; norm_num; omega) with hp | ⟨q, k, q1, q2, q3, q4, q5⟩
    · exact Or.inl (F192.panics_bind hp _)
    have hk : 2 < k ∧ k ≤ 300000000000000 := by
      rw [abs_le] at q5
      norm_num at q5
      omega
    obtain ⟨b, h, b1, b2, b3, b4, b5, -⟩ := newton_mk t1 q1 g1 (by omega) (by omega) (by omega) q2
    exact Or.inr ⟨b, h, b1, b2, by omega, by omega⟩
  rcases step (g := g) a1 (by omega) (by omega) with hp | ⟨t, k, t1, t2, t3, t4⟩
  · exact Or.inl (F192.panics_bind hp _)
  rw [t2, pure_bind]
  rcases step t1 t3 t4 with hp | ⟨b, h, b1, b2, b3, b4⟩
  · exact Or.inl hp
  · exact Or.inr ⟨b, h, b1, b3, by omega, b2, b4⟩

/-- the exponent of the start wraps to a huge one: the result is about a quarter of the start -/
private theorem large_start {m e f w : Nat} (hm : Nrm m) (h1 : 9223653511831486464 < e) (h2 : e < B64) (hw : w = 1)
    (hf : (f : ℤ) = -((18446744073709551616 + 281474976710656 - (e : ℤ)) / 2) - 64 + 281474976710656 + 18446744073709551616 * w)
    (hf1 : f < B64) (hf2 : f + 2000000000000 ≤ 18446462598732840960 ∨ 18446462598732840960 + 2000000000000 ≤ f) :
    Panics (F192.sqrt (mk' false m e)) ∨ ∃ b h, Nrm b ∧ 0 < h ∧ h < B64 ∧ F192.sqrt (mk' false m e) = pure (mk' false b h) ∧ f ≤ h + 3 := by
  rw [sqrt_eq hm (by omega)]
  rcases start_high hm h1 h2 hf (by omega) hf1 with hp | ⟨a, g, a1, a2, a3, a4⟩
  · exact Or.inl (F192.panics_bind hp _)
  rw [a2, pure_bind]
  rcases hf2 with hf2 | hf2
  swap
  · left
    refine F192.panics_bind (F192.panics_bind (C62_div_top_panic (F192.valid_mk hm h2) (F192.valid_mk a1 (by omega)) ?_ ?_) _) _
    · rw [F192.mk_exp]; omega
    · rw [F192.mk_exp]; norm_num; omega
  have rx : LogArg (mk' false m e) := by
    unfold LogArg; rw [F192.mk_exp]; norm_num; omega
  have step : ∀ {t g : Nat}, Nrm t → 13000000000000000000 ≤ g → g ≤ f → Panics (F192.newton (mk' false m e) (mk' false t g)) ∨
      ∃ b h, Nrm b ∧ F192.newton (mk' false m e) (mk' false t g) = pure (mk' false b h) ∧ g ≤ h + 1 ∧ h ≤ g := by
    intro t g t1 g1 g2
    rcases quot_mk hm t1 (f := g) h2 (by omega) rx (by unfold DivArg LogArg; rw [F192.mk_exp]; norm_num; omega) with hp | ⟨q, k, q1, q2, q3, q4, q5⟩
    · exact Or.inl (F192.panics_bind hp _)
    have hk : 2 < k ∧ k ≤ 300000000000000 := by
      rw [abs_le] at q5
      norm_num at q5
      omega
    obtain ⟨b, h, b1, b2, b3, b4, b5, -⟩ := newton_mk t1 q1 (by omega) (by omega) (by omega) (by omega) q2
    exact Or.inr ⟨b, h, b1, b2, by omega, by omega⟩
  rcases step (g := g) a1 (by omega) a3 with hp | ⟨t, k, t1, t2, t3, t4⟩
  · exact Or.inl (F192.panics_bind hp _)
  rw [t2, pure_bind]
  rcases step (g := k) t1 (by omega) (by omega) with hp | ⟨b, h, b1, b2, b3, b4⟩
  · exact Or.inl hp
  · exact Or.inr ⟨b, h, b1, by omega, by omega, b2, by omega⟩

/-- Exponent fields from `2^63 + 2^48` on.  The square root reads the exponent as a negative number.  It panics, or the result is much too small
(when half of that number is within the range of exponents) or much too large (when it wraps).  Left out are two narrow ranges, where the start of the
iteration is next to the end of the range of exponents or next to the divisors for which the division panics. -/
theorem C64_sqrt_high {x : F192} (hx : FValid x) (h0 : 0 < fval x) (h1 : 2 ^ 63 + 2 ^ 48 ≤ x.exp)
    (h2 : x.exp < 2 ^ 64 - 2 ^ 50 + 2 ^ 48 - 2 ^ 42 ∨ 2 ^ 64 - 2 ^ 50 + 2 ^ 48 + 2 ^ 42 < x.exp)
    (h3 : x.exp < 2 ^ 64 - 2 ^ 48 - 2 ^ 10 ∨ 2 ^ 64 - 2 ^ 48 + 2 ^ 10 < x.exp) :
    Panics (F192.sqrt x) ∨ ∃ z, F192.sqrt x = pure z ∧ FValid z ∧ 0 < fval z ∧
      (2 ^ 64 - 2 ^ 48 < x.exp → fval z ^ 2 * 2 ^ 200 ≤ fval x) ∧ (x.exp < 2 ^ 64 - 2 ^ 48 → fval x * 2 ^ 200 ≤ fval z ^ 2) := by
  obtain ⟨s, m, e, hm, hb, hz, rfl, hv⟩ := F192.mk_of_not_zero hx h0.ne'
  cases s
  swap
  · rw [F192.fval_neg hm] at h0
    have := F192.mg_pos (e := e) hm
    linarith
  rw [F192.sgn_false, one_mul] at hv
  rw [F192.mk_exp] at h1 h2 h3 ⊢
  rw [hv]
  norm_num at h1 h2 h3
  have fv : ∀ {b g : Nat}, Nrm b → 0 < g → fval (mk' false b g) = mg b g := fun h1 h2 => by
    rw [F192.fval_mk h1 (F192.nz_exp h2), F192.sgn_false, one_mul]
  rcases h1.eq_or_lt with he | he
  · left
    obtain ⟨r, r1, -⟩ := F192.isqrt_c hm
    refine ⟨.overflow, ?_⟩
    rw [sqrt_eq hm (by omega), F192.sqrtStart, F192.or_mk hm, F192.expI64_big h1 hb, pure_bind, r1, pure_bind, F192.i64Abs, if_pos (by omega)]
    rfl
  obtain ⟨d, hd⟩ : ∃ d : Nat, (d : ℤ) = (18446744073709551616 + 281474976710656 - (e : ℤ)) / 2 :=
    ⟨((18446744073709551616 + 281474976710656 - (e : ℤ)) / 2).toNat, by omega⟩
  rcases h3 with h3 | h3
  · obtain ⟨f, hf⟩ : ∃ f : Nat, (f : ℤ) = -(d : ℤ) - 64 + 281474976710656 + 18446744073709551616 * (1 : Nat) :=
      ⟨(-(d : ℤ) - 64 + 281474976710656 + 18446744073709551616).toNat, by omega⟩
    rcases large_start (f := f) hm he hb rfl (by rw [← hd]; exact hf) (by omega) (by omega) with hp | ⟨b, h, b1, b2, b3, b4, b5⟩
    · exact Or.inl hp
    refine Or.inr ⟨_, b4, F192.valid_mk b1 b3, by rw [fv b1 b2]; exact F192.mg_pos b1, fun hc => ?_, fun _ => ?_⟩
    · norm_num at hc; omega
    · rw [fv b1 b2]
      refine (mul_le_mul_of_nonneg_right (mg_hi hm) (by norm_num)).trans (le_trans ?_ (pow_le_pow_left₀ (by positivity) (mg_lo b1) 2))
      rw [show (2 : ℚ) ^ 200 = 2 ^ (200 : ℤ) by norm_num, ← zpow_add₀ (by norm_num), ← zpow_natCast, ← zpow_mul]
      exact zpow_le_zpow_right₀ (by norm_num) (by push_cast; omega)
  · obtain ⟨f, hf⟩ : ∃ f : Nat, (f : ℤ) = -(d : ℤ) - 64 + 281474976710656 + 18446744073709551616 * (0 : Nat) :=
      ⟨(-(d : ℤ) - 64 + 281474976710656).toNat, by omega⟩
    rcases small_start (f := f) hm he hb rfl (by rw [← hd]; exact hf) (by omega) with hp | ⟨b, h, b1, b2, b3, b4, b5⟩
    · exact Or.inl hp
    refine Or.inr ⟨_, b4, F192.valid_mk b1 b3, by rw [fv b1 b2]; exact F192.mg_pos b1, fun _ => ?_, fun hc => ?_⟩
    · rw [fv b1 b2]
      refine (mul_le_mul_of_nonneg_right (pow_le_pow_left₀ (F192.mg_pos b1).le (mg_hi b1) 2) (by norm_num)).trans (le_trans ?_ (mg_lo hm))
      rw [show (2 : ℚ) ^ 200 = 2 ^ (200 : ℤ) by norm_num, ← zpow_natCast, ← zpow_mul, ← zpow_add₀ (by norm_num)]
      exact zpow_le_zpow_right₀ (by norm_num) (by push_cast; omega)
    · norm_num at hc; omega

/-- The root of `2^(2^64 - ...)` comes out far below 1. -/
example : ∃ z, F192.sqrt ⟨7, 2 ^ 64 - 2 ^ 20⟩ = pure z ∧ FValid z ∧ lead z < 0 ∧ fval z ^ 2 * 2 ^ 200 ≤ fval ⟨7, 2 ^ 64 - 2 ^ 20⟩ := by
  have hz : F192.sqrt ⟨7, 2 ^ 64 - 2 ^ 20⟩ = pure ⟨133292018027615261842319438797038682112, 281474976186304⟩ :=
    (sqrtE_c (by decide)).ret (by decide +kernel)
  rcases C64_sqrt_high (x := ⟨7, 2 ^ 64 - 2 ^ 20⟩) (by decide) (sqrt_pos_of (by decide) (by decide) (by decide)) (by decide) (by decide) (by decide) with
    ⟨p, hp⟩ | ⟨z, h1, h2, -, h3, -⟩
  · rw [hz] at hp
    cases hp
  · rw [hz] at h1
    obtain rfl := Except.ok.inj (Option.some.inj h1)
    exact ⟨_, hz, h2, by decide, h3 (by decide)⟩

/-- The root of a number of about `2^(2^64 - 2^62)` comes out as about `2^(2^64 - 2^61)`. -/
example : ∃ z, F192.sqrt ⟨7, 2 ^ 64 - 2 ^ 62⟩ = pure z ∧ FValid z ∧ 2 ^ 63 < lead z ∧ fval ⟨7, 2 ^ 64 - 2 ^ 62⟩ * 2 ^ 200 ≤ fval z ^ 2 := by
  have hz : F192.sqrt ⟨7, 2 ^ 64 - 2 ^ 62⟩ = pure ⟨70474785707535279806898007116416548864, 16141041801984212926⟩ :=
    (sqrtE_c (by decide)).ret (by decide +kernel)
  rcases C64_sqrt_high (x := ⟨7, 2 ^ 64 - 2 ^ 62⟩) (by decide) (sqrt_pos_of (by decide) (by decide) (by decide)) (by decide) (by decide) (by decide) with
    ⟨p, hp⟩ | ⟨z, h1, h2, -, -, h3⟩
  · rw [hz] at hp
    cases hp
  · rw [hz] at h1
    obtain rfl := Except.ok.inj (Option.some.inj h1)
    exact ⟨_, hz, h2, by decide, h3 (by decide)⟩

end Props
end Hmath
