import Verif.Proofs.Fp192Div
import Verif.Props.Fp192

/-!
# C62: division of 192-bit floating point numbers
-/

namespace Hmath
namespace Props

open F192 (mk' mg ulp sgn Nrm Z ZERO)

/-- the exponent of the leading bit: a number `x` other than zero has `2^(lead x) ≤ |x| < 2^(lead x + 1)` -/
def lead (x : F192) : Int := x.exp - (2 ^ 48 - 127)

/-- the residue of `lead x` modulo `2^40` from `-2^39` to `2^39 - 1` -/
def wrapLead (x : F192) : Int := (lead x + 2 ^ 39) % 2 ^ 40 - 2 ^ 39

/-- the approximate logarithm has a result: the exponent field is not 0 and not from `2^63` to `2^63 + 2^48 - 1` -/
def LogArg (x : F192) : Prop := 0 < x.exp ∧ (x.exp < 2 ^ 63 ∨ 2 ^ 63 + 2 ^ 48 ≤ x.exp)

/-- products of `y` with quotients do not overflow -/
def DivArg (y : F192) : Prop := LogArg y ∧ y.exp < 2 ^ 64 - 2 ^ 48 - 2 ^ 40

instance (x : F192) : Decidable (LogArg x) := by unfold LogArg; infer_instance
instance (x : F192) : Decidable (DivArg x) := by unfold DivArg; infer_instance

/-- the difference of the leading exponents is at most `2^39 - 2` in magnitude and the same between the residues -/
def DivRange (x y : F192) : Prop := wrapLead x - wrapLead y = lead x - lead y ∧ |lead x - lead y| ≤ 2 ^ 39 - 2

theorem dmod {a b : Bool} {m₁ e₁ m₂ e₂ : Nat} (b1 : e₁ < B64) (b2 : e₂ < B64) (rx : LogArg (mk' a m₁ e₁)) (ry : DivArg (mk' b m₂ e₂)) :
    ∃ c₁ c₂, F192.DMod e₁ e₂ c₁ c₂ ∧ (c₁ : Int) = wrapLead (mk' a m₁ e₁) + 281474976710529 ∧
      (c₂ : Int) = wrapLead (mk' b m₂ e₂) + 281474976710529 := by
  simp only [LogArg, DivArg, wrapLead, lead, F192.mk_exp] at rx ry ⊢
  norm_num at rx ry ⊢
  obtain ⟨c₁, h1⟩ : ∃ c : Nat, (c : Int) = ((e₁ : Int) - 281474976710529 + 549755813888) % 1099511627776 - 549755813888 + 281474976710529 :=
    ⟨(((e₁ : Int) - 281474976710529 + 549755813888) % 1099511627776 - 549755813888 + 281474976710529).toNat, by omega⟩
  obtain ⟨c₂, h2⟩ : ∃ c : Nat, (c : Int) = ((e₂ : Int) - 281474976710529 + 549755813888) % 1099511627776 - 549755813888 + 281474976710529 :=
    ⟨(((e₂ : Int) - 281474976710529 + 549755813888) % 1099511627776 - 549755813888 + 281474976710529).toNat, by omega⟩
  refine ⟨c₁, c₂, ⟨⟨rx.1, rx.2, b1⟩, ⟨⟨ry.1.1, ry.1.2, b2⟩, ry.2⟩, ⟨?_, ?_⟩, ⟨?_, ?_⟩,
    ⟨((e₁ : Int) - 281474976710529 + 549755813888) / 1099511627776, ?_⟩, ⟨((e₂ : Int) - 281474976710529 + 549755813888) / 1099511627776, ?_⟩⟩,
    h1, h2⟩ <;> omega

/-- The division of numbers with almost arbitrary exponents.  The exponents are seen only modulo `2^40`.  When the difference of the residues
is `2^39 - 1` or more the division may panic, from `2^39 + 2` on it does.  Otherwise the loop ends, and up to a factor of 2 the result is `2^-t`
times the quotient, `t` being the change of the difference; if `t` is 0 and the exponent field of the divisor is `2^40` or more, the result is at most `2^-124` (relatively) too large in magnitude and
never too small. -/
theorem C62_div_all {x y : F192} (hx : FValid x) (hy : FValid y) (rx : LogArg x) (ry : DivArg y) {t : ℤ}
    (ht : t = lead x - lead y - (wrapLead x - wrapLead y)) :
    Panics (F192.div x y) ∧ 2 ^ 39 - 1 ≤ |wrapLead x - wrapLead y| ∨
    |wrapLead x - wrapLead y| ≤ 2 ^ 39 + 1 ∧ ∃ z, F192.div x y = pure z ∧ FValid z ∧
      |fval x / fval y| ≤ |fval z| * 2 ^ t * 2 ∧ |fval z| * 2 ^ t ≤ |fval x / fval y| * 2 ∧
      (t = 0 → 2 ^ 40 ≤ y.exp → ∃ δ, 0 ≤ δ ∧ δ ≤ 1 / 2 ^ 124 ∧ fval z = fval x / fval y * (1 + δ)) := by
  obtain ⟨a, m₁, e₁, h1, b1, rfl⟩ := F192.exists_mk hx
  obtain ⟨b, m₂, e₂, h2, b2, rfl⟩ := F192.exists_mk hy
  obtain ⟨c₁, c₂, d, k1, k2⟩ := dmod b1 b2 rx ry
  have x1 := d.g₁.1
  have y1 := d.g₂.1.1
  rcases F192.div_all (a := a) (b := b) h1 h2 d with ⟨hp, hc⟩ | ⟨hc, n₁, f₁, n₂, f₂, m, e, m', e', w1, w2, -, -, lo, hi, r1, r2, r3, r4, r5, r0, -, -, r6, r7⟩
  · refine Or.inl ⟨hp, ?_⟩
    rw [le_abs]
    norm_num
    omega
  right
  have z1 := r2.1
  have z2 := r2.2
  refine ⟨?_, _, r0, F192.valid_mk r1 (by omega), ?_⟩
  · rw [abs_le]
    norm_num
    omega
  rw [← and_assoc]
  constructor
  · rw [F192.fval_mk r1 (F192.nz_exp (by omega)), F192.fval_mk h1 (F192.nz_exp (by omega)), F192.fval_mk h2 (F192.nz_exp (by omega)),
      abs_div, abs_mul, abs_mul, abs_mul, F192.abs_sgn, F192.abs_sgn, F192.abs_sgn, one_mul, one_mul, one_mul,
      abs_of_pos (F192.mg_pos r1), abs_of_pos (F192.mg_pos h1), abs_of_pos (F192.mg_pos h2),
      F192.mg_zadd m₁ (show (e₁ : Int) = c₁ + ((e₁ : Int) - c₁) by omega), F192.mg_zadd m₂ (show (e₂ : Int) = c₂ + ((e₂ : Int) - c₂) by omega)]
    have hp1 : (0 : ℚ) < 2 ^ ((e₁ : Int) - c₁ : ℤ) := by positivity
    have hp2 : (0 : ℚ) < 2 ^ ((e₂ : Int) - c₂ : ℤ) := by positivity
    have hT : (2 : ℚ) ^ ((e₁ : Int) - c₁ : ℤ) = 2 ^ t * 2 ^ ((e₂ : Int) - c₂ : ℤ) := by
      rw [← zpow_add₀ (by norm_num)]
      congr 1
      rw [ht, k1, k2, lead, lead, F192.mk_exp, F192.mk_exp]; ring
    rw [hT]
    have hpt : (0 : ℚ) < 2 ^ t := by positivity
    generalize (2 : ℚ) ^ ((e₂ : Int) - c₂ : ℤ) = P at *
    generalize (2 : ℚ) ^ t = T at *
    have q1 := F192.mg_pos (e := c₁) h1
    have q2 := F192.mg_pos (e := c₂) h2
    have q3 := F192.mg_pos (e := e) r1
    have q4 : mg n₁ f₁ ≤ mg m e := by
      have : 0 < ulp e' := by unfold ulp; positivity
      linarith
    have e1 : mg m₁ c₁ * (T * P) / (mg m₂ c₂ * P) = mg m₁ c₁ * T / mg m₂ c₂ := by
      rw [← mul_assoc, mul_div_mul_right _ _ hp2.ne']
    rw [e1]
    constructor
    · rw [div_le_iff₀ q2]
      have := mul_le_mul_of_nonneg_right (lo.trans (mul_le_mul_of_nonneg_right (mul_le_mul_of_nonneg_right q4 q2.le) (by norm_num))) hpt.le
      linarith
    · rw [div_mul_eq_mul_div, le_div_iff₀ q2]
      have := mul_le_mul_of_nonneg_right ((mul_le_mul_of_nonneg_right r7 q2.le).trans hi) hpt.le
      linarith
  · intro h0 hy
    norm_num [F192.mk_exp] at hy
    have hk : (e₁ : Int) - e₂ = c₁ - c₂ := by
      rw [h0, lead, lead, F192.mk_exp, F192.mk_exp] at ht
      omega
    have np : ¬Panics (F192.div (mk' a m₁ e₁) (mk' b m₂ e₂)) := by
      rintro ⟨p, hp⟩
      rw [r0] at hp
      cases hp
    obtain ⟨m₃, e₃, g1, g2, g3, g4, g5⟩ := F192.div_err' (a := a) (b := b) h1 h2 d hy np hk
    have f1 := g2.1
    rw [r0] at g3
    rw [show mk' (a != b) m e = mk' (a != b) m₃ e₃ from Except.ok.inj (Option.some.inj g3)]
    have p1 := F192.mg_pos (e := e₁) h1
    have p2 := F192.mg_pos (e := e₂) h2
    have hq : 0 < mg m₁ e₁ / mg m₂ e₂ := div_pos p1 p2
    refine ⟨mg m₃ e₃ / (mg m₁ e₁ / mg m₂ e₂) - 1, ?_, ?_, ?_⟩
    · rw [sub_nonneg, le_div_iff₀ hq, one_mul]; exact g4
    · rw [sub_le_iff_le_add, div_le_iff₀ hq, add_comm, mul_comm]; exact g5
    · rw [F192.fval_mk g1 (F192.nz_exp (by omega)), F192.fval_mk h1 (F192.nz_exp (by omega)), F192.fval_mk h2 (F192.nz_exp (by omega)),
        F192.sgn_xor, add_sub_cancel]
      have := F192.sgn_mul_self b
      have hb := F192.sgn_ne b
      have h3 : (sgn b)⁻¹ = sgn b := by
        rw [inv_eq_iff_eq_inv, eq_comm, inv_eq_of_mul_eq_one_left this]
      rw [mul_div_mul_comm, div_eq_mul_inv (sgn a), h3, mul_assoc (sgn a * sgn b), mul_div_cancel₀ _ hq.ne']

/-- `2^(2^60) / 2^(2^60 - 2)`: the exponents are far beyond `2^39`, but so near each other that the quotient is right -/
example : ∃ z δ, F192.div ⟨0, 2 ^ 60⟩ ⟨0, 2 ^ 60 - 2⟩ = pure z ∧ 0 ≤ δ ∧ δ ≤ 1 / 2 ^ 124 ∧
    fval z = fval ⟨0, 2 ^ 60⟩ / fval ⟨0, 2 ^ 60 - 2⟩ * (1 + δ) := by
  rcases C62_div_all (x := ⟨0, 2 ^ 60⟩) (y := ⟨0, 2 ^ 60 - 2⟩) (by decide) (by decide) (by decide) (by decide) rfl with ⟨-, h⟩ | ⟨-, z, h1, -, -, -, h⟩
  · exact absurd h (by decide)
  · obtain ⟨δ, h2⟩ := h (by decide) (by decide)
    exact ⟨z, δ, h1, h2⟩

/-- The loop ends, and the quotient is at most `2^-124` (relatively) too large in magnitude, never too small. -/
theorem C62_div_partial {x y : F192} (hx : FValid x) (hy : FValid y) (rx : LogArg x) (ry : DivArg y) (hy' : 2 ^ 40 ≤ y.exp)
    (hd : DivRange x y) :
    ∃ z δ, F192.div x y = pure z ∧ FValid z ∧ 0 ≤ δ ∧ δ ≤ 1 / 2 ^ 124 ∧ fval z = fval x / fval y * (1 + δ) := by
  obtain ⟨d1, d2⟩ := hd
  rcases C62_div_all hx hy rx ry rfl with ⟨-, h⟩ | ⟨-, z, h1, h2, -, -, h⟩
  · rw [d1] at h
    generalize |lead x - lead y| = A at *
    omega
  · obtain ⟨δ, h3, h4, h5⟩ := h (by rw [d1, sub_self]) hy'
    exact ⟨z, δ, h1, h2, h3, h4, h5⟩

/-- exponents up to `2^37` in magnitude are in the range -/
theorem divRange_small {x y : F192} (rx : 2 ^ 48 - 2 ^ 37 ≤ x.exp ∧ x.exp < 2 ^ 48 + 2 ^ 37)
    (ry : 2 ^ 48 - 2 ^ 37 ≤ y.exp ∧ y.exp < 2 ^ 48 + 2 ^ 37) : LogArg x ∧ DivArg y ∧ 2 ^ 40 ≤ y.exp ∧ DivRange x y := by
  simp only [LogArg, DivArg, DivRange, wrapLead, lead, abs_le]
  obtain ⟨d, e⟩ := x
  obtain ⟨d', e'⟩ := y
  simp only at rx ry ⊢
  norm_num at rx ry ⊢
  omega

/-- `-1 / 3` -/
example : ∃ z δ, F192.div (mk' true F192.SIGN_MASK (2 ^ 48 - 127)) ⟨2 ^ 126, 2 ^ 48 - 126⟩ = pure z ∧ 0 ≤ δ ∧ δ ≤ 1 / 2 ^ 124 ∧
    fval z = -1 / 3 * (1 + δ) := by
  have hv : fval ⟨2 ^ 126, 2 ^ 48 - 126⟩ = 3 := by
    refine (F192.fval_mk (s := false) (m := 255211775190703847597530955573826158592) (e := 281474976710656 - 126)
      ⟨by norm_num, by norm_num⟩ (F192.nz_exp (by norm_num))).trans ?_
    rw [F192.mg_coeff_sub (by norm_num), F192.sgn_false, one_mul]; norm_num
  obtain ⟨z, δ, h1, -, h2, h3, h4⟩ := C62_div_partial (x := mk' true F192.SIGN_MASK (2 ^ 48 - 127)) (y := ⟨2 ^ 126, 2 ^ 48 - 126⟩)
    (by decide) (by decide) (by decide) (by decide) (by decide) ⟨by decide, by decide⟩
  refine ⟨z, δ, h1, h2, h3, ?_⟩
  rw [h4, hv, show fval (mk' true F192.SIGN_MASK (2 ^ 48 - 127)) = -1 from F192.fval_one true]

/-- Zero divided by anything, even by zero, is zero; anything else divided by zero panics. -/
theorem C62_div_zero (x : F192) : F192.div ZERO x = pure ZERO ∧ (fval x ≠ 0 → Panics (F192.div x ZERO)) := by
  refine ⟨rfl, fun h => ⟨.explicit, ?_⟩⟩
  rw [F192.div, F192.is_zero_eq, decide_eq_false (fun hc => h (by rw [hc]; rfl)), if_neg (by decide), if_pos (by decide)]

example : Panics (F192.div F192.ONE ZERO) := (C62_div_zero _).2 (by rw [show fval F192.ONE = 1 from F192.fval_one false]; norm_num)

private instance : DecidableEq (M F192) := inferInstanceAs (DecidableEq (Option (Except Panic F192)))
private instance : DecidableEq (M Int) := inferInstanceAs (DecidableEq (Option (Except Panic Int)))

private theorem one_mk : F192.ONE = mk' false 170141183460469231731687303715884105728 281474976710529 := by decide

/-- Division by one is not the identity: the result for `1 + 2^-127` is too large. -/
theorem C62_div_one_counterexample : ∃ z, F192.div ⟨1, 2 ^ 48 - 127⟩ F192.ONE = pure z ∧ FValid z ∧ fval ⟨1, 2 ^ 48 - 127⟩ < fval z := by
  have ho : fval F192.ONE = 1 := F192.fval_one false
  have hp : (0 : ℚ) < fval ⟨1, 2 ^ 48 - 127⟩ := by
    refine lt_of_lt_of_eq (F192.mg_pos ⟨by norm_num, by norm_num⟩) ((F192.fval_mk (s := false)
      (m := 170141183460469231731687303715884105729) (e := 281474976710529) ⟨by norm_num, by norm_num⟩
      (F192.nz_exp (by norm_num))).trans (one_mul _)).symm
  obtain ⟨z, δ, h1, h2, h3, -, h5⟩ := C62_div_partial (x := ⟨1, 2 ^ 48 - 127⟩) (y := F192.ONE) (by decide) (by decide)
    (by decide) (by decide) (by decide) ⟨by decide, by decide⟩
  refine ⟨z, h1, h2, lt_of_le_of_ne ?_ (fun hc => ?_)⟩
  · rw [h5, ho, div_one]
    exact le_mul_of_one_le_right hp.le (by linarith)
  obtain rfl := F192.fval_inj (by decide) h2 hc
  obtain ⟨m, e, m', e', -, -, -, -, -, g, -, ⟨q, q1, q2⟩⟩ := F192.div_c (a := false) (b := false)
    (m₁ := 170141183460469231731687303715884105729) (e₁ := 281474976710529) (m₂ := 170141183460469231731687303715884105728)
    (e₂ := 281474976710529) (c₁ := 281474976710529) (c₂ := 281474976710529) ⟨by norm_num, by norm_num⟩ ⟨by norm_num, by norm_num⟩
    F192.one_pair.toDMod (by norm_num) (F192.one_pair.np ⟨by norm_num, by norm_num⟩ ⟨by norm_num, by norm_num⟩) rfl
  have hx : mk' false 170141183460469231731687303715884105729 281474976710529 = ⟨1, 2 ^ 48 - 127⟩ := by decide
  rw [hx, ← one_mk, h1] at g
  rw [← one_mk] at q1
  rw [hx] at q2
  rw [← show (⟨1, 2 ^ 48 - 127⟩ : F192) = mk' false m e from Except.ok.inj (Option.some.inj g)] at q1
  have hm : F192.mul F192.ONE ⟨1, 2 ^ 48 - 127⟩ = pure F192.ONE := by decide +kernel
  rw [hm] at q1
  rw [← show F192.ONE = q from Except.ok.inj (Option.some.inj q1)] at q2
  exact absurd q2 (by decide)

private theorem near_one : F192.Near 1 0 := by
  constructor <;> norm_num

/-- Beyond exponents of `2^39` the estimate wraps around: `2^(2^40) / 1` is at most 2. -/
theorem C62_div_range_counterexample : (∀ k : ℤ, k = 2 ^ 40 → fval ⟨0, 2 ^ 48 - 127 + 2 ^ 40⟩ = 2 ^ k) ∧
    ∃ z, F192.div ⟨0, 2 ^ 48 - 127 + 2 ^ 40⟩ F192.ONE = pure z ∧ FValid z ∧ fval z ≤ 2 := by
  constructor
  · rintro k hk
    unfold fval
    rw [if_neg (by norm_num), if_neg (by norm_num), Nat.zero_mod, add_zero, one_mul, Nat.cast_pow, Nat.cast_ofNat,
      ← zpow_natCast, ← zpow_add₀ (by norm_num)]
    exact congrArg _ (by rw [hk]; norm_num)
  obtain ⟨n₁, f₁, p1, p2, p3, p4⟩ := F192.fast_pow2_c (n := 0 - 0 - 1048576) (by omega) (by omega)
  obtain ⟨n₂, f₂, q1, q2, q3, q4⟩ := F192.fast_pow2_c (n := 0 - 0 + 1048576) (by omega) (by omega)
  have lo := F192.near_lo one_pos one_pos near_one near_one p4
  have hi := F192.near_hi one_pos (F192.mg_pos (e := f₂) q1) near_one near_one q4
  have hgap := F192.gap_c p1 one_pos lo hi
  have fe1 : F192.Fe f₁ := ⟨by omega, by omega⟩
  have fe2 : F192.Fe f₂ := ⟨by omega, by omega⟩
  have hmul : ∀ m e, Nrm m → F192.Fe e → ∃ p, F192.mul F192.ONE (mk' false m e) = pure p := fun m e hm hf => by
    obtain ⟨m', e', -, -, -, g, -⟩ := F192.mul_fe (a := false) F192.nrm_S (eo := 281474976710529) F192.one_pair.g₂ (by norm_num) hm hf
    rw [← one_mk] at g
    exact ⟨_, g⟩
  obtain ⟨m, e, m', e', r1, r2, -, -, -, -, -, r8, r9⟩ := F192.divLoop_c (s := ⟨0, 2 ^ 48 - 127 + 2 ^ 40⟩) (o := F192.ONE) false hmul
    _ n₁ f₁ n₂ f₂ p1 q1 fe1 fe2 hgap (le_refl _)
  have b1 := r2.1
  have b2 := r2.2
  rw [if_neg (by decide)] at r9
  refine ⟨mk' false m e, ?_, F192.valid_mk r1 (by omega), ?_⟩
  · have l1 : F192.fast_log2 ⟨0, 2 ^ 48 - 127 + 2 ^ 40⟩ = pure 0 := by decide +kernel
    have l2 : F192.fast_log2 F192.ONE = pure 0 := by decide +kernel
    rw [F192.div, if_neg (by decide), if_neg (by decide), l1, pure_bind, l2, pure_bind, F192.i64_eq (by norm_num) (by norm_num), pure_bind,
      F192.i64_eq (by norm_num) (by norm_num), pure_bind, F192.i64_eq (by norm_num) (by norm_num), pure_bind, p3, pure_bind, q3, pure_bind]
    exact r9
  · rw [F192.fval_mk r1 (F192.nz_exp (by omega)), F192.sgn_false, one_mul]
    refine r8.2.trans (le_of_pow_le_pow_left₀ (n := 256) (by norm_num) (by norm_num) (q4.2.trans ?_))
    norm_num

/-- When the residues modulo `2^40` are near each other the loop ends, but the quotient is that of numbers with these exponents: up to a
factor of 2 it is `2^-t` times the right one, `t` being the change of the difference. -/
theorem C62_div_residue {x y : F192} (hx : FValid x) (hy : FValid y) (rx : LogArg x) (ry : DivArg y)
    (hd : |wrapLead x - wrapLead y| ≤ 2 ^ 39 - 2) {t : ℤ} (ht : t = lead x - lead y - (wrapLead x - wrapLead y)) :
    ∃ z, F192.div x y = pure z ∧ FValid z ∧ |fval x / fval y| ≤ |fval z| * 2 ^ t * 2 ∧ |fval z| * 2 ^ t ≤ |fval x / fval y| * 2 := by
  rcases C62_div_all hx hy rx ry ht with ⟨-, h⟩ | ⟨-, z, h1, h2, h3, h4, -⟩
  · generalize |wrapLead x - wrapLead y| = A at *
    omega
  · exact ⟨z, h1, h2, h3, h4⟩

/-- `2^(2^40) / 2`: the residues are `0` and `1`, so that the result is close to `1/2` -/
example : lead ⟨0, 2 ^ 48 - 127 + 2 ^ 40⟩ = 2 ^ 40 ∧ wrapLead ⟨0, 2 ^ 48 - 127 + 2 ^ 40⟩ = 0 ∧
    ∃ z, F192.div ⟨0, 2 ^ 48 - 127 + 2 ^ 40⟩ ⟨0, 2 ^ 48 - 126⟩ = pure z ∧ FValid z := by
  obtain ⟨z, h1, h2, -⟩ := C62_div_residue (x := ⟨0, 2 ^ 48 - 127 + 2 ^ 40⟩) (y := ⟨0, 2 ^ 48 - 126⟩) (by decide) (by decide) (by decide)
    (by decide) (by decide) rfl
  exact ⟨by decide, by decide, z, h1, h2⟩

/-- So outside of the range of `C62_div_partial` the result, if any, is wrong by a factor of at least `2^(2^40 - 1)`. -/
theorem C62_div_wrong {x y : F192} (hx : FValid x) (hy : FValid y) (rx : LogArg x) (ry : DivArg y)
    (hne : wrapLead x - wrapLead y ≠ lead x - lead y) {k : ℤ} (hk : k = 2 ^ 40 - 1) :
    Panics (F192.div x y) ∧ 2 ^ 39 - 1 ≤ |wrapLead x - wrapLead y| ∨
    ∃ z, F192.div x y = pure z ∧ FValid z ∧ (|fval z| * 2 ^ k ≤ |fval x / fval y| ∨ |fval x / fval y| * 2 ^ k ≤ |fval z|) := by
  obtain ⟨t, ht⟩ : ∃ t, t = lead x - lead y - (wrapLead x - wrapLead y) := ⟨_, rfl⟩
  rcases C62_div_all hx hy rx ry ht with h | ⟨-, z, h1, h2, h3, h4, -⟩
  · exact Or.inl h
  refine Or.inr ⟨z, h1, h2, ?_⟩
  have hcase : k + 1 ≤ t ∨ t + (k + 1) ≤ 0 := by
    clear h3 h4
    unfold wrapLead at ht hne
    generalize lead x = X at *
    generalize lead y = Y at *
    norm_num at ht hne hk
    omega
  rcases hcase with hc | hc
  · left
    have : (2 : ℚ) ^ k * 2 ≤ 2 ^ t := by
      rw [← zpow_add_one₀ (by norm_num)]
      exact zpow_le_zpow_right₀ (by norm_num) hc
    have := mul_le_mul_of_nonneg_left this (abs_nonneg (fval z))
    linarith
  · right
    have hs : (2 : ℚ) ^ t * (2 ^ k * 2) ≤ 1 := by
      rw [← zpow_add_one₀ (by norm_num), ← zpow_add₀ (by norm_num)]
      exact zpow_le_one_of_nonpos₀ (by norm_num) hc
    have hp : (0 : ℚ) < 2 ^ k := by positivity
    have a1 := mul_le_mul_of_nonneg_right h3 hp.le
    have a2 := mul_le_mul_of_nonneg_left hs (abs_nonneg (fval z))
    linarith

/-- `1 / 2^(2^40)` is a number of `C62_div_wrong`; there is a result. -/
example {k : ℤ} (hk : k = 2 ^ 40 - 1) : ∃ z, F192.div F192.ONE ⟨0, 2 ^ 48 - 127 + 2 ^ 40⟩ = pure z ∧ FValid z ∧
    (|fval z| * 2 ^ k ≤ |fval F192.ONE / fval ⟨0, 2 ^ 48 - 127 + 2 ^ 40⟩| ∨ |fval F192.ONE / fval ⟨0, 2 ^ 48 - 127 + 2 ^ 40⟩| * 2 ^ k ≤ |fval z|) := by
  rcases C62_div_wrong (x := F192.ONE) (y := ⟨0, 2 ^ 48 - 127 + 2 ^ 40⟩) (by decide) (by decide) (by decide) (by decide) (by decide) hk with ⟨-, h⟩ | h
  · exact absurd h (by decide)
  · exact h

/-- When the residues are farther than `2^39 + 1` from each other, the division panics. -/
theorem C62_div_panic {x y : F192} (hx : FValid x) (hy : FValid y) (rx : LogArg x) (ry : DivArg y)
    (hd : 2 ^ 39 + 2 ≤ |wrapLead x - wrapLead y|) : Panics (F192.div x y) := by
  rcases C62_div_all hx hy rx ry rfl with ⟨h, -⟩ | ⟨h, -⟩
  · exact h
  · generalize |wrapLead x - wrapLead y| = A at *
    omega

/-- `2^(2^38 + 1) / 2^(-2^38 - 1)` -/
example : Panics (F192.div ⟨0, 2 ^ 48 - 127 + (2 ^ 38 + 1)⟩ ⟨0, 2 ^ 48 - 127 - (2 ^ 38 + 1)⟩) :=
  C62_div_panic (by decide) (by decide) (by decide) (by decide) (by decide)

/-- Exponent fields from `2^63` to `2^63 + 2^48 - 1` panic. -/
theorem C62_div_log_panic {x y : F192} (hx : FValid x) (hy : FValid y) (zx : x.exp ≠ 0) (zy : y.exp ≠ 0)
    (h : 2 ^ 63 ≤ x.exp ∧ x.exp < 2 ^ 63 + 2 ^ 48 ∨ 2 ^ 63 ≤ y.exp ∧ y.exp < 2 ^ 63 + 2 ^ 48) : Panics (F192.div x y) := by
  obtain ⟨a, m₁, e₁, h1, b1, rfl⟩ := F192.exists_mk hx
  obtain ⟨b, m₂, e₂, h2, b2, rfl⟩ := F192.exists_mk hy
  rw [F192.mk_exp] at *
  rw [F192.mk_exp] at *
  norm_num at h
  exact F192.div_log_panics h1 h2 (by omega) (by omega) b1 h

/-- `1 / 2^(2^63 - 2^48 + 127)` -/
example : Panics (F192.div F192.ONE ⟨0, 2 ^ 63⟩) :=
  C62_div_log_panic (by decide) (by decide) (by decide) (by decide) (Or.inr (by decide))

/-- Divisors near the end of the range panic. -/
theorem C62_div_top_panic {x y : F192} (hx : FValid x) (hy : FValid y) (rx : x.exp ≠ 0) (h : 2 ^ 64 - 2 ^ 48 + 2 ^ 40 ≤ y.exp) :
    Panics (F192.div x y) := by
  obtain ⟨a, m₁, e₁, h1, b1, rfl⟩ := F192.exists_mk hx
  obtain ⟨b, m₂, e₂, h2, b2, rfl⟩ := F192.exists_mk hy
  rw [F192.mk_exp] at *
  norm_num at h
  by_cases hc : 9223372036854775808 ≤ e₁ ∧ e₁ < 9223653511831486464
  · exact F192.div_log_panics h1 h2 (by omega) (by omega) b1 (Or.inl hc)
  · exact F192.div_top_panics h1 h2 ⟨by omega, by omega, b1⟩ ⟨by omega, by omega, b2⟩ h

/-- the largest number divided by itself -/
example : Panics (F192.div ⟨2 ^ 127 - 1, 2 ^ 64 - 1⟩ ⟨2 ^ 127 - 1, 2 ^ 64 - 1⟩) :=
  C62_div_top_panic (by decide) (by decide) (by decide) (by decide)

end Props
end Hmath
