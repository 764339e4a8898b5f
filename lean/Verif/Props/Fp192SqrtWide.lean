import Verif.Props.Fp192Sqrt
import Verif.Props.Fp192Quot
import Verif.Proofs.Fp192Pow
import Verif.Proofs.Fp192Eval

/-!
# C64: square roots of numbers beyond `2^±(2^40)`
-/

namespace Hmath
namespace Props

open F192 (mk' mg ulp sgn Nrm Z ZERO ONE)

/-- the exponent of a quotient of two positive numbers -/
theorem quot_mk {m e a f : Nat} (hm : Nrm m) (ha : Nrm a) (be : e < B64) (bf : f < B64) (rx : LogArg (mk' false m e)) (ry : DivArg (mk' false a f)) :
    Panics (F192.div (mk' false m e) (mk' false a f)) ∨ ∃ q k, Nrm q ∧ F192.div (mk' false m e) (mk' false a f) = pure (mk' false q k) ∧
      wrapLead (mk' false m e) - wrapLead (mk' false a f) - 2 ≤ (k : ℤ) - 281474976710529 ∧
      (k : ℤ) - 281474976710529 ≤ wrapLead (mk' false m e) - wrapLead (mk' false a f) + 1 ∧
      |wrapLead (mk' false m e) - wrapLead (mk' false a f)| ≤ 2 ^ 39 + 1 := by
  have hx := F192.valid_mk (s := false) hm be
  have hy := F192.valid_mk (s := false) ha bf
  have fx : 0 < fval (mk' false m e) := by
    have h := rx.1
    rw [F192.mk_exp] at h
    rw [F192.fval_mk hm (F192.nz_exp h), F192.sgn_false, one_mul]
    exact F192.mg_pos hm
  have fy : 0 < fval (mk' false a f) := by
    have h := ry.1.1
    rw [F192.mk_exp] at h
    rw [F192.fval_mk ha (F192.nz_exp h), F192.sgn_false, one_mul]
    exact F192.mg_pos ha
  rcases C62_div_all hx hy rx ry rfl with ⟨hp, -⟩ | ⟨-, z, hz, -⟩
  · exact Or.inl hp
  right
  obtain ⟨h1, h2, h3, h4, h5⟩ := C62_div_sign hx hy rx ry hz
  have hz0 : 0 < fval z := (mul_pos_iff_of_pos_right (div_pos fx fy)).1 h2
  obtain ⟨s, q, k, hq, hk, hnz, rfl, hv⟩ := F192.mk_of_not_zero h1 hz0.ne'
  cases s
  · rw [lead, F192.mk_exp] at h3 h4
    norm_num at h3 h4
    exact ⟨q, k, hq, hz, by omega, by omega, h5⟩
  · rw [F192.fval_neg hq] at hz0
    have := F192.mg_pos (e := k) hq
    linarith

/-- one step of the iteration with the quotient `q` -/
theorem newton_mk {x : F192} {a f q k : Nat} (ha : Nrm a) (hq : Nrm q) (f0 : 0 < f) (k0 : 0 < k) (bf : f < 18446744073709551615)
    (bk : k < 18446744073709551615) (h : F192.div x (mk' false a f) = pure (mk' false q k)) :
    ∃ t g, Nrm t ∧ F192.newton x (mk' false a f) = pure (mk' false t g) ∧ f ≤ g + 1 ∧ k ≤ g + 1 ∧ (g ≤ f ∨ g ≤ k) ∧
      mg t g * 2 ≤ mg a f + mg q k ∧ mg a f + mg q k ≤ mg t g * 2 * (1 + 1 / 2 ^ 127) := by
  rcases F192.add_same (s := false) ha hq (e₁ := f) (e₂ := k) (by omega) (by omega) (F192.nz_exp f0) (F192.nz_exp k0) with
    ⟨-, h' | h'⟩ | ⟨t, g, t1, t2, t3, t4, t5, t6, t7, t8⟩
  · omega
  · omega
  obtain ⟨g, rfl⟩ : ∃ g', g = g' + 1 := ⟨g - 1, by omega⟩
  refine ⟨t, g, t1, ?_, t3, t4, by omega, ?_, ?_⟩
  · rw [F192.newton, h, pure_bind, t7, pure_bind, F192.shr_mk t1 t6 (by omega), Nat.add_sub_cancel]
  · have := t8.1
    rwa [F192.mg_add, pow_one] at this
  · have h1 := t8.2
    have h2 : ulp (g + 1) * 2 ^ 127 ≤ mg t (g + 1) := by
      rw [F192.mg_eq, mul_comm]
      refine mul_le_mul_of_nonneg_right ?_ (F192.ulp_pos _).le
      have : ((170141183460469231731687303715884105728 : Nat) : ℚ) ≤ t := Nat.cast_le.2 t1.1
      norm_num at this ⊢
      exact this
    rw [F192.mg_add, pow_one] at h1 h2
    generalize ulp (g + 1) = u at *
    norm_num at h2 ⊢
    linarith

private theorem small_of {a f q k : Nat} (ha : Nrm a) (hq : Nrm q) (h : k + 100 ≤ f) : mg q k * 2 ^ 99 ≤ mg a f := by
  rw [← F192.mg_add]
  exact (F192.mg_lt_of_exp hq ha (by omega)).le

private theorem sqrt_high {m e : Nat} (hm : Nrm m) (h1 : 281474976710529 + 1099511627796 ≤ e) (h2 : e < 9223372036854775808) :
    Panics (F192.sqrt (mk' false m e)) ∨ ∃ b g, Nrm b ∧ 0 < g ∧ g < B64 ∧ F192.sqrt (mk' false m e) = pure (mk' false b g) ∧
      mg m e ≤ mg b g ^ 2 * 65 ∧ mg b g ^ 2 * 15 ≤ mg m e := by
  obtain ⟨a, f, a1, a2, a3, a4, a5, a6⟩ := F192.sqrtStart_any hm (e := e) ⟨by omega, h2⟩
  have hsq : F192.sqrt (mk' false m e) = F192.newton (mk' false m e) (mk' false a f) >>= F192.newton (mk' false m e) := by
    rw [F192.sqrt, F192.is_zero_mk hm, F192.is_neg_mk hm, if_neg, a2, pure_bind]
    simp
    omega
  have rx : LogArg (mk' false m e) := by
    unfold LogArg; rw [F192.mk_exp]; norm_num; omega
  have step : ∀ {t g : Nat}, Nrm t → f ≤ g + 1 → g ≤ f → Panics (F192.newton (mk' false m e) (mk' false t g)) ∨
      ∃ b h, Nrm b ∧ F192.newton (mk' false m e) (mk' false t g) = pure (mk' false b h) ∧ g ≤ h + 1 ∧ h ≤ g ∧
        mg b h * 2 ≤ mg t g * (1 + 1 / 2 ^ 99) ∧ mg t g ≤ mg b h * 2 * (1 + 1 / 2 ^ 127) := by
    intro t g t1 g1 g2
    have ry : DivArg (mk' false t g) := by
      unfold DivArg LogArg; rw [F192.mk_exp]; norm_num; omega
    rcases quot_mk hm t1 (by omega) (by omega) rx ry with hp | ⟨q, k, q1, q2, q3, q4, q5⟩
    · exact Or.inl (F192.panics_bind hp _)
    right
    have hk : k + 100 ≤ g ∧ 0 < k := by
      simp only [wrapLead, lead, F192.mk_exp, abs_le] at q3 q4 q5
      norm_num at q3 q4 q5
      omega
    obtain ⟨b, h, b1, b2, b3, b4, b5, b6, b7⟩ := newton_mk t1 q1 (by omega) hk.2 (by omega) (by omega) q2
    have sm := small_of t1 q1 hk.1
    have pq := F192.mg_pos (e := k) q1
    refine ⟨b, h, b1, b2, b3, by omega, ?_, by linarith⟩
    norm_num at sm ⊢
    linarith
  rw [hsq]
  rcases step a1 (by omega) le_rfl with hp | ⟨t, g, t1, t2, t3, t4, t5, t6⟩
  · exact Or.inl (F192.panics_bind hp _)
  rw [t2, pure_bind]
  rcases step t1 t3 t4 with hp | ⟨b, h, b1, b2, b3, b4, b5, b6⟩
  · exact Or.inl hp
  refine Or.inr ⟨b, h, b1, by omega, by omega, b2, ?_, ?_⟩
  · have pA := F192.mg_pos (e := f) a1
    have pB := F192.mg_pos (e := h) b1
    have u : mg a f ≤ mg b h * (4001 / 1000) := by
      norm_num at t6 b6 ⊢
      linarith
    have := pow_le_pow_left₀ pA.le u 2
    rw [mul_pow] at this
    norm_num at this
    linarith
  · have pA := F192.mg_pos (e := f) a1
    have pB := F192.mg_pos (e := h) b1
    have u : mg b h * (3999 / 1000) ≤ mg a f := by
      norm_num at t5 b5 ⊢
      linarith
    have := pow_le_pow_left₀ (by positivity) u 2
    rw [mul_pow] at this
    norm_num at this
    linarith

private theorem sqrt_low {m e n : Nat} (hn : n = 1099511627766) (hm : Nrm m) (h1 : 0 < e) (h2 : e + 1099511627796 ≤ 281474976710529) :
    Panics (F192.sqrt (mk' false m e)) ∨ ∃ b g, Nrm b ∧ 0 < g ∧ g < B64 ∧ F192.sqrt (mk' false m e) = pure (mk' false b g) ∧
      mg m e * (2 ^ n) ^ 2 ≤ mg b g ^ 2 * 2 ^ 9 := by
  obtain ⟨a, f, a1, a2, a3, a4, a5, a6⟩ := F192.sqrtStart_any hm (e := e) ⟨by omega, by omega⟩
  have hsq : F192.sqrt (mk' false m e) = F192.newton (mk' false m e) (mk' false a f) >>= F192.newton (mk' false m e) := by
    rw [F192.sqrt, F192.is_zero_mk hm, F192.is_neg_mk hm, if_neg, a2, pure_bind]
    simp
    omega
  have rx : LogArg (mk' false m e) := by
    unfold LogArg; rw [F192.mk_exp]; norm_num; omega
  rw [hsq]
  rcases quot_mk hm a1 (f := f) (by omega) (by omega) rx (by unfold DivArg LogArg; rw [F192.mk_exp]; norm_num; omega) with hp | ⟨q, k, q1, q2, q3, q4, q5⟩
  · exact Or.inl (F192.panics_bind (F192.panics_bind hp _) _)
  have hk : f + n < k ∧ k < 1000000000000000 := by
    simp only [wrapLead, lead, F192.mk_exp, abs_le] at q3 q4 q5
    norm_num at q3 q4 q5
    omega
  obtain ⟨t, g, t1, t2, t3, t4, t5, t6, t7⟩ := newton_mk a1 q1 (by omega) (by omega) (by omega) (by omega) q2
  rw [t2, pure_bind]
  rcases quot_mk hm t1 (f := g) (by omega) (by omega) rx (by unfold DivArg LogArg; rw [F192.mk_exp]; norm_num; omega) with hp | ⟨q', k', r1, r2, r3, r4, r5⟩
  · exact Or.inl (F192.panics_bind hp _)
  have hk' : 0 < k' ∧ k' < 1000000000000000 := by
    clear q3 q4 q5
    simp only [wrapLead, lead, F192.mk_exp, abs_le] at r3 r4 r5
    norm_num at r3 r4 r5
    omega
  obtain ⟨b, h, b1, b2, b3, b4, b5, b6, b7⟩ := newton_mk t1 r1 (by omega) (by omega) (by omega) (by omega) r2
  refine Or.inr ⟨b, h, b1, by omega, by omega, b2, ?_⟩
  have lt := F192.mg_lt_of_exp a1 q1 hk.1
  rw [F192.mg_add] at lt
  have pA := F192.mg_pos (e := f) a1
  have pB := F192.mg_pos (e := h) b1
  have pQ := F192.mg_pos (e := k') r1
  have pn : (0 : ℚ) < 2 ^ n := by positivity
  generalize (2 : ℚ) ^ n = N at *
  have u : mg a f * N ≤ mg b h * (4001 / 1000) := by
    norm_num at t7 b7 ⊢
    linarith
  have u2 := pow_le_pow_left₀ (by positivity) u 2
  rw [mul_pow, mul_pow] at u2
  have u3 := mul_le_mul_of_nonneg_right a5 (sq_nonneg N)
  rw [mul_right_comm] at u3
  have u4 := u3.trans u2
  have u5 := sq_nonneg (mg b h)
  generalize mg m e * N ^ 2 = P at *
  generalize mg b h ^ 2 = Q at *
  norm_num at u4 ⊢
  linarith

/-- Beyond `2^±(2^40 + 20)` the divisions see the exponents modulo `2^40`.  When they do not panic, the quotients are much too small for large numbers, so that the
result is about one quarter of the start of the iteration, and much too large for small numbers. -/
theorem C64_sqrt_wide_wrong {x : F192} (hx : FValid x) (h0 : 0 < fval x) (he : 0 < x.exp) (he' : x.exp < 2 ^ 63) {n : Nat} (hn : n = 2 ^ 41 - 29) :
    (2 ^ 40 + 20 ≤ lead x → Panics (F192.sqrt x) ∨ ∃ z, F192.sqrt x = pure z ∧ FValid z ∧ 0 < fval z ∧ fval x / 65 ≤ fval z ^ 2 ∧ fval z ^ 2 ≤ fval x / 15) ∧
    (lead x ≤ -2 ^ 40 - 20 → Panics (F192.sqrt x) ∨ ∃ z, F192.sqrt x = pure z ∧ FValid z ∧ 0 < fval z ∧ fval x * 2 ^ n ≤ fval z ^ 2) := by
  obtain ⟨s, m, e, hm, hb, hz, rfl, hv⟩ := F192.mk_of_not_zero hx h0.ne'
  cases s
  swap
  · rw [F192.fval_neg hm] at h0
    have := F192.mg_pos (e := e) hm
    linarith
  rw [F192.sgn_false, one_mul] at hv
  rw [lead, F192.mk_exp] at *
  rw [hv]
  norm_num at he' ⊢
  have fv : ∀ {b g : Nat}, Nrm b → 0 < g → fval (mk' false b g) = mg b g := fun h1 h2 => by
    rw [F192.fval_mk h1 (F192.nz_exp h2), F192.sgn_false, one_mul]
  constructor
  · intro hl
    rcases sqrt_high hm (e := e) (by omega) (by omega) with hp | ⟨b, g, b1, b2, b3, b4, b5, b6⟩
    · exact Or.inl hp
    · refine Or.inr ⟨_, b4, F192.valid_mk b1 b3, ?_⟩
      rw [fv b1 b2]
      exact ⟨F192.mg_pos b1, by linarith, by linarith⟩
  · intro hl
    obtain ⟨j, hj⟩ : ∃ j, j = 1099511627766 := ⟨_, rfl⟩
    rcases sqrt_low hj hm he (by omega) with hp | ⟨b, g, b1, b2, b3, b4, b5⟩
    · exact Or.inl hp
    · refine Or.inr ⟨_, b4, F192.valid_mk b1 b3, ?_⟩
      rw [fv b1 b2]
      refine ⟨F192.mg_pos b1, ?_⟩
      rw [← pow_mul, show j * 2 = n + 9 by norm_num at hn; omega, pow_add, ← mul_assoc] at b5
      exact le_of_mul_le_mul_right b5 (by norm_num)

theorem sqrt_pos_of {x : F192} (hx : FValid x) (hn : F192.is_neg x = false) (h0 : x ≠ ZERO) : 0 < fval x := by
  rw [F192.is_neg_c hx, decide_eq_false_iff_not, not_lt] at hn
  exact lt_of_le_of_ne hn fun hc => h0 ((F192.fval_eq_zero hx).1 hc.symm)

/-- `newton` with a bounded number of rounds of the division, for the examples -/
def newtonE (x a : F192) : M F192 := F192.divE x a >>= fun q => F192.addE a q >>= fun s => pure (F192.shr s 1)

/-- `sqrt` of a positive number with a bounded number of rounds of the divisions, for the examples -/
def sqrtE (x : F192) : M F192 := F192.sqrtStart x >>= fun a => newtonE x a >>= fun a => newtonE x a

theorem newtonE_c (x a : F192) : F192.Le (newtonE x a) (F192.newton x a) :=
  (F192.divE_c x a).bind fun q => (F192.addE_c a q).bind fun _ => F192.Le.refl _

theorem sqrtE_c {x : F192} (h : (F192.is_zero x || F192.is_neg x) = false) : F192.Le (sqrtE x) (F192.sqrt x) := by
  rw [F192.sqrt, if_neg (by rw [h]; decide)]
  exact F192.Le.bind' fun a => (newtonE_c x a).bind fun b => newtonE_c x b

/-- The root of `2^(2^41)` comes out as about `2^(2^40 - 2)`. -/
example : ∃ z, F192.sqrt ⟨0, 2 ^ 48 - 127 + 2 ^ 41⟩ = pure z ∧ FValid z ∧ fval z ^ 2 ≤ fval ⟨0, 2 ^ 48 - 127 + 2 ^ 41⟩ / 15 := by
  have hz : F192.sqrt ⟨0, 2 ^ 48 - 127 + 2 ^ 41⟩ = pure ⟨170141183460469231722567801800623612942, 2 ^ 48 - 127 + 1099511627773⟩ :=
    (sqrtE_c (by decide)).ret (by decide +kernel)
  rcases (C64_sqrt_wide_wrong (x := ⟨0, 2 ^ 48 - 127 + 2 ^ 41⟩) (by decide) (sqrt_pos_of (by decide) (by decide) (by decide)) (by decide) (by decide) rfl).1
    (by decide) with ⟨p, hp⟩ | ⟨z, h1, h2, -, -, h3⟩
  · rw [hz] at hp
    cases hp
  · exact ⟨z, h1, h2, h3⟩

/-- The root of `2^(-2^41)` comes out between 1 and 2. -/
example : ∃ z, F192.sqrt ⟨0, 2 ^ 48 - 127 - 2 ^ 41⟩ = pure z ∧ FValid z ∧ lead z = 0 ∧ fval ⟨0, 2 ^ 48 - 127 - 2 ^ 41⟩ * 2 ^ (2 ^ 41 - 29) ≤ fval z ^ 2 := by
  have hz : F192.sqrt ⟨0, 2 ^ 48 - 127 - 2 ^ 41⟩ = pure ⟨40731938656533829242811418942409539585, 2 ^ 48 - 127⟩ :=
    (sqrtE_c (by decide)).ret (by decide +kernel)
  obtain ⟨n, hn⟩ : ∃ n, n = 2 ^ 41 - 29 := ⟨_, rfl⟩
  rw [← hn]
  rcases (C64_sqrt_wide_wrong (x := ⟨0, 2 ^ 48 - 127 - 2 ^ 41⟩) (by decide) (sqrt_pos_of (by decide) (by decide) (by decide)) (by decide) (by decide) hn).2
    (by decide) with ⟨p, hp⟩ | ⟨z, h1, h2, -, h3⟩
  · rw [hz] at hp
    cases hp
  · rw [hz] at h1
    obtain rfl := Except.ok.inj (Option.some.inj h1)
    exact ⟨_, hz, h2, by decide, h3⟩

/-- Exponent fields from `2^63` to `2^63 + 2^48 - 1` panic. -/
theorem C64_sqrt_exp_panic {x : F192} (hx : FValid x) (h0 : 0 < fval x) (h1 : 2 ^ 63 ≤ x.exp) (h2 : x.exp < 2 ^ 63 + 2 ^ 48) : Panics (F192.sqrt x) := by
  obtain ⟨s, m, e, hm, hb, hz, rfl, hv⟩ := F192.mk_of_not_zero hx h0.ne'
  cases s
  swap
  · rw [F192.fval_neg hm] at h0
    have := F192.mg_pos (e := e) hm
    linarith
  rw [F192.mk_exp] at h1 h2
  norm_num at h1 h2
  refine ⟨.overflow, ?_⟩
  rw [F192.sqrt, F192.is_zero_mk hm, F192.is_neg_mk hm, if_neg, F192.sqrtStart, F192.expI64_panic h1 h2]
  · rfl
  · simp
    omega

example : Panics (F192.sqrt ⟨7, 2 ^ 63 + 12345⟩) :=
  C64_sqrt_exp_panic (by decide) (sqrt_pos_of (by decide) (by decide) (by decide)) (by decide) (by decide)

end Props
end Hmath
