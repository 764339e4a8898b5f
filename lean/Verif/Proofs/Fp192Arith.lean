import Verif.Proofs.Fp192Ops

/-!
# 192-bit floating point numbers: addition of equal signs, multiplication, small factors and divisors
-/

namespace Hmath
namespace F192

/-! ### truncation -/

/-- `mg m e` is the number of largest magnitude below `v` -/
theorem mg_gap {m e m' e' : Nat} (h : Nrm m) (h' : Nrm m') {v : ℚ} (hv : v < mg m e + ulp e) (hw : mg m' e' ≤ v) :
    mg m' e' ≤ mg m e := by
  by_contra hc
  rw [not_le, mg_lt_iff h h'] at hc
  have : mg m e + ulp e ≤ mg m' e' := by
    rcases hc with hc | ⟨rfl, hc⟩
    · obtain ⟨k, rfl⟩ : ∃ k, e' = e + 1 + k := ⟨e' - (e + 1), by omega⟩
      have h1 : ((m : ℚ) + 1) ≤ 2 * m' := by
        have := h.2
        have := h'.1
        have : m + 1 ≤ 2 * m' := by omega
        exact_mod_cast this
      have h2 : (1 : ℚ) ≤ 2 ^ k := one_le_pow₀ (by norm_num)
      rw [mg_eq, mg_eq, ulp_add, ulp_add]
      have h3 := ulp_pos e
      have h4 : (2 * (m' : ℚ)) * 1 ≤ (2 * m') * 2 ^ k := mul_le_mul_of_nonneg_left h2 (by positivity)
      nlinarith
    · have : ((m : ℚ) + 1) ≤ m' := by exact_mod_cast hc
      rw [mg_eq, mg_eq]
      have h3 := ulp_pos e
      nlinarith
  linarith

/-! ### addition -/

/-- `(mk' s m e)` truncates the positive number `v` -/
def Trunc (v : ℚ) (m e : Nat) : Prop := mg m e ≤ v ∧ v < mg m e + ulp e

theorem trunc_of_nat {v : ℚ} {m e e0 k S : Nat} (he : e = e0 + k) (hv : v = S * ulp e0) (h1 : m * 2 ^ k ≤ S)
    (h2 : S < (m + 1) * 2 ^ k) : Trunc v m e := by
  subst he hv
  have h3 := ulp_pos e0
  have a1 : (m : ℚ) * 2 ^ k ≤ S := by exact_mod_cast h1
  have a2 : (S : ℚ) < (m + 1) * 2 ^ k := by exact_mod_cast h2
  refine ⟨?_, ?_⟩
  · rw [mg_eq, ulp_add]; nlinarith
  · rw [mg_eq, ulp_add]; nlinarith

theorem sign_digits {s : Bool} {m e : Nat} (h : Nrm m) : (mk' s m e).digits / 2 ^ 127 * 2 ^ 127 = signBit s := by
  rw [show (2 : Nat) ^ 127 = S127 by norm_num, digits_div h]
  cases s <;> rfl

theorem half_sum (a b : Nat) : a / 2 + b / 2 + (a % 2 + b % 2) / 2 = (a + b) / 2 := by omega

theorem addAligned_c {s : Bool} {m₁ e₁ m₂ e₂ : Nat} (h1 : Nrm m₁) (h2 : Nrm m₂) (he : e₂ ≤ e₁) (hb : e₁ < B64) :
    (e₁ = 18446744073709551615 ∧ e₁ - e₂ ≤ 127 ∧ B128 ≤ m₁ + m₂ / 2 ^ (e₁ - e₂) ∧
      addAligned (mk' s m₁ e₁) (mk' s m₂ e₂) = throw .overflow) ∨
    ∃ m e, Nrm m ∧ e < B64 ∧ e₁ ≤ e ∧ e ≤ e₁ + 1 ∧ (e = e₁ → m₁ ≤ m) ∧
      addAligned (mk' s m₁ e₁) (mk' s m₂ e₂) = pure (mk' s m e) ∧ Trunc (mg m₁ e₁ + mg m₂ e₂) m e := by
  obtain ⟨d, rfl⟩ : ∃ d, e₁ = e₂ + d := ⟨e₁ - e₂, by omega⟩
  have hv : mg m₁ (e₂ + d) + mg m₂ e₂ = ((m₁ * 2 ^ d + m₂ : Nat) : ℚ) * ulp e₂ := by
    rw [mg_add, mg_eq, mg_eq]; push_cast; ring
  rw [hv]
  have hdd : e₂ + d - e₂ = d := by omega
  rw [addAligned]
  simp only [mk_exp, or_mk h1, or_mk h2, sign_digits h1, hdd]
  by_cases hd : d > 127
  · right
    rw [if_pos hd]
    refine ⟨m₁, e₂ + d, h1, hb, le_refl _, by omega, fun _ => le_refl _, rfl, trunc_of_nat rfl rfl (by omega) ?_⟩
    have : B128 ≤ 2 ^ d := by
      calc B128 = 2 ^ 128 := by norm_num
        _ ≤ _ := Nat.pow_le_pow_right (by norm_num) (by omega)
    have := h2.2
    rw [add_mul]; omega
  · rw [if_neg hd, uShr_eq (by omega), pure_bind]
    have hdm := Nat.div_add_mod m₂ (2 ^ d)
    have hml := Nat.mod_lt m₂ (show 0 < 2 ^ d by positivity)
    generalize m₂ / 2 ^ d = q at *
    generalize m₂ % 2 ^ d = r at *
    generalize hD : 2 ^ d = D at *
    by_cases hc : m₁ + q < B128
    · right
      rw [if_pos hc]
      refine ⟨m₁ + q, e₂ + d, ⟨by have := h1.1; omega, hc⟩, hb, le_refl _, by omega, fun _ => by omega, ?_,
        trunc_of_nat rfl rfl ?_ ?_⟩
      · rw [pack_mk ⟨by have := h1.1; omega, hc⟩]
        have := h1.1; omega
      · rw [hD, ← hdm]; nlinarith
      · rw [hD, ← hdm]; nlinarith
    · rw [if_neg hc]
      have hq : q < B128 := by
        have := h2.2
        have hD0 : 0 < D := by omega
        nlinarith
      have hb1 := h1.2
      rw [u128Add, uAdd_eq (by omega), pure_bind, uAdd_eq (by omega), pure_bind, half_sum]
      by_cases hE : e₂ + d + 1 < B64
      · right
        rw [u64Add, uAdd_eq hE, pure_bind]
        refine ⟨(m₁ + q) / 2, e₂ + d + 1, ⟨by omega, by omega⟩, hE, by omega, le_refl _, fun _ => by omega, ?_,
          trunc_of_nat (k := d + 1) (by omega) rfl ?_ ?_⟩
        · have hn : Nrm ((m₁ + q) / 2) := ⟨by omega, by omega⟩
          rw [pack_mk hn]
          have := hn.1; have := hn.2; omega
        · rw [pow_succ, hD, ← hdm]
          have : (m₁ + q) / 2 * 2 ≤ m₁ + q := by omega
          nlinarith
        · rw [pow_succ, hD, ← hdm]
          have : m₁ + q + 1 ≤ ((m₁ + q) / 2 + 1) * 2 := by omega
          nlinarith
      · left
        refine ⟨by omega, by omega, by omega, ?_⟩
        rw [u64Add, uAdd, if_neg (by omega)]; rfl

/-- equal signs -/
theorem add_same {s : Bool} {m₁ e₁ m₂ e₂ : Nat} (h1 : Nrm m₁) (h2 : Nrm m₂) (b1 : e₁ < B64) (b2 : e₂ < B64)
    (z1 : ¬Z s m₁ e₁) (z2 : ¬Z s m₂ e₂) :
    add (mk' s m₁ e₁) (mk' s m₂ e₂) = throw .overflow ∧
      (e₁ = 18446744073709551615 ∨ e₂ = 18446744073709551615) ∨
    ∃ m e, Nrm m ∧ e < B64 ∧ e₁ ≤ e ∧ e₂ ≤ e ∧ (e ≤ e₁ + 1 ∨ e ≤ e₂ + 1) ∧ ¬Z s m e ∧
      add (mk' s m₁ e₁) (mk' s m₂ e₂) = pure (mk' s m e) ∧ Trunc (mg m₁ e₁ + mg m₂ e₂) m e := by
  rw [add, is_neg_mk h1, is_neg_mk h2, is_zero_mk h1, is_zero_mk h2, if_neg (by simp),
    if_neg (by simpa [Z] using z1), if_neg (by simpa [Z] using z2), mk_exp, mk_exp]
  by_cases hg : e₁ > e₂
  · rw [if_pos hg]
    rcases addAligned_c (s := s) h1 h2 (le_of_lt hg) b1 with ⟨h, -, -, h'⟩ | ⟨m, e, hm, he, g1, g2, -, g3, g4⟩
    · exact Or.inl ⟨h', Or.inl h⟩
    · exact Or.inr ⟨m, e, hm, he, g1, by omega, Or.inl g2, nz_exp (by omega), g3, g4⟩
  · rw [if_neg hg, add_comm (mg m₁ e₁)]
    rcases addAligned_c (s := s) h2 h1 (not_lt.1 hg) b2 with ⟨h, -, -, h'⟩ | ⟨m, e, hm, he, g1, g2, g0, g3, g4⟩
    · exact Or.inl ⟨h', Or.inr h⟩
    · refine Or.inr ⟨m, e, hm, he, by omega, g1, Or.inr g2, ?_, g3, g4⟩
      rintro ⟨rfl, rfl, rfl⟩
      have e2 : e₂ = 0 := by omega
      have := g0 e2.symm
      have := h2.1
      exact z2 ⟨rfl, by omega, e2⟩

/-! ### multiplication -/

theorem mulDigits_c {d₁ d₂ : Nat} (h1 : Nrm d₁) (h2 : Nrm d₂) (E : Nat) : ∃ P, 2 ^ 126 ≤ P ∧ P < B128 ∧
    mulDigits d₁ d₂ E = pure (P, E) ∧ B128 * P ≤ d₁ * d₂ ∧ d₁ * d₂ < B128 * (P + 3) := by
  have e1 := Nat.div_add_mod d₁ (2 ^ 64)
  have e2 := Nat.div_add_mod d₂ (2 ^ 64)
  have a1 : 2 ^ 63 ≤ d₁ / 2 ^ 64 ∧ d₁ / 2 ^ 64 < 2 ^ 64 := by
    obtain ⟨g1, g2⟩ := h1; constructor <;> omega
  have a2 : 2 ^ 63 ≤ d₂ / 2 ^ 64 ∧ d₂ / 2 ^ 64 < 2 ^ 64 := by
    obtain ⟨g1, g2⟩ := h2; constructor <;> omega
  have b1 : d₁ % 2 ^ 64 < 2 ^ 64 := Nat.mod_lt _ (by norm_num)
  have b2 : d₂ % 2 ^ 64 < 2 ^ 64 := Nat.mod_lt _ (by norm_num)
  rw [mulDigits]
  rw [show (18446744073709551615 : Nat) = 2 ^ 64 - 1 by norm_num, Nat.and_two_pow_sub_one_eq_mod,
    Nat.and_two_pow_sub_one_eq_mod]
  generalize d₁ / 2 ^ 64 = p at *
  generalize d₁ % 2 ^ 64 = q at *
  generalize d₂ / 2 ^ 64 = r at *
  generalize d₂ % 2 ^ 64 = t at *
  have c0 : p * r ≤ (2 ^ 64 - 1) * (2 ^ 64 - 1) := Nat.mul_le_mul (by omega) (by omega)
  have c1 : p * t ≤ (2 ^ 64 - 1) * (2 ^ 64 - 1) := Nat.mul_le_mul (by omega) (by omega)
  have c2 : r * q ≤ (2 ^ 64 - 1) * (2 ^ 64 - 1) := Nat.mul_le_mul (by omega) (by omega)
  have c3 : q * t ≤ (2 ^ 64 - 1) * (2 ^ 64 - 1) := Nat.mul_le_mul (by omega) (by omega)
  have c4 : 2 ^ 63 * 2 ^ 63 ≤ p * r := Nat.mul_le_mul a1.1 a2.1
  have key : d₁ * d₂ = p * r * B128 + (p * t + r * q) * 2 ^ 64 + q * t := by
    rw [← e1, ← e2]; ring
  have hlt : d₁ * d₂ < B128 * B128 := by
    calc d₁ * d₂ < B128 * d₂ := Nat.mul_lt_mul_of_pos_right h1.2 (by have := h2.1; omega)
      _ ≤ _ := Nat.mul_le_mul_left _ (le_of_lt h2.2)
  rw [key] at hlt ⊢
  norm_num at c0 c1 c2 c3 c4 hlt
  rw [u128Mul, uMul_eq (by omega), pure_bind, uMul_eq (by omega), pure_bind, uMul_eq (by omega),
    pure_bind, u128Add, uAdd_eq (by omega), pure_bind, uShr_eq (by omega), pure_bind]
  generalize p * r = u at *
  generalize p * t = v at *
  generalize r * q = w at *
  generalize q * t = z at *
  have hX : (v / 2 + w / 2) / 2 ^ 63 * 2 ^ 64 ≤ v + w := by omega
  have hX' : v + w < ((v / 2 + w / 2) / 2 ^ 63 + 1) * 2 ^ 64 + 2 := by omega
  generalize (v / 2 + w / 2) / 2 ^ 63 = X at *
  refine ⟨u + X, by omega, by omega, ?_, by omega, by omega⟩
  rw [mulSum, if_pos (by omega)]

theorem xor_sign (a b : Bool) (m₁ m₂ e₁ e₂ : Nat) (h1 : Nrm m₁) (h2 : Nrm m₂) :
    ((mk' a m₁ e₁).digits ^^^ (mk' b m₂ e₂).digits) &&& SIGN_MASK = signBit (a != b) := by
  rw [Nat.and_xor_distrib_right, high_mk h1, high_mk h2]
  cases a <;> cases b <;> decide

theorem mul_c {a b : Bool} {m₁ e₁ m₂ e₂ : Nat} (h1 : Nrm m₁) (h2 : Nrm m₂) (z1 : ¬Z a m₁ e₁) (z2 : ¬Z b m₂ e₂)
    (hE : 281474976710656 ≤ e₁ + e₂) (hE' : e₁ + e₂ < B64) : ∃ m e, Nrm m ∧ e < B64 ∧ 0 < e ∧
    e₁ + e₂ + 127 ≤ e + 281474976710656 ∧ e + 281474976710656 ≤ e₁ + e₂ + 128 ∧
    mul (mk' a m₁ e₁) (mk' b m₂ e₂) = pure (mk' (a != b) m e) ∧ mg m e ≤ mg m₁ e₁ * mg m₂ e₂ ∧
    mg m₁ e₁ * mg m₂ e₂ * (1 - 3 / 2 ^ 126) ≤ mg m e := by
  obtain ⟨P, p1, p2, p3, p4, p5⟩ := mulDigits_c h1 h2 (e₁ + e₂ - 281474976710656 + 128)
  have hP0 : P ≠ 0 := by omega
  obtain ⟨l1, l2⟩ := lz_bounds hP0 p2
  have l3 : lz128 P ≤ 1 := by
    rw [lz128, if_neg hP0]
    have := (Nat.le_log2 hP0).2 p1
    omega
  have hsh : P * 2 ^ lz128 P % 2 ^ 128 = P * 2 ^ lz128 P := Nat.mod_eq_of_lt l2.2
  have hu : mg m₁ e₁ * mg m₂ e₂ = ((m₁ * m₂ : Nat) : ℚ) * ulp (e₁ + e₂ - 281474976710656) := by
    have : ulp e₁ * ulp e₂ = ulp (e₁ + e₂ - 281474976710656) := by
      unfold ulp
      rw [← zpow_add₀ (by norm_num)]
      have : (e₁ : ℤ) - 2 ^ 48 + (e₂ - 2 ^ 48) = ((e₁ + e₂ - 281474976710656 : Nat) : ℤ) - 2 ^ 48 := by omega
      rw [this]
    rw [mg_eq, mg_eq, ← this]; push_cast; ring
  have hz : mg (P * 2 ^ lz128 P) (e₁ + e₂ - 281474976710656 + 128 - lz128 P) =
      ((B128 * P : Nat) : ℚ) * ulp (e₁ + e₂ - 281474976710656) := by
    rw [mg_shift, show e₁ + e₂ - 281474976710656 + 128 - lz128 P + lz128 P = e₁ + e₂ - 281474976710656 + 128 by omega,
      mg_add, mg_eq]
    push_cast; ring
  refine ⟨P * 2 ^ lz128 P, e₁ + e₂ - 281474976710656 + 128 - lz128 P, l2, by omega, by omega, by omega, by omega,
    ?_, ?_, ?_⟩
  · rw [mul, is_zero_mk h1, is_zero_mk h2, if_neg (by
      simp only [Bool.or_eq_true, decide_eq_true_eq, not_or]; exact ⟨z1, z2⟩), mk_exp, mk_exp, u64Add,
      uAdd_eq hE', pure_bind, if_neg (by unfold EXP_COEFF; omega), uAdd_eq (by unfold EXP_COEFF; omega), pure_bind,
      or_mk' h1, or_mk' h2]
    rw [show e₁ + e₂ - EXP_COEFF + 128 = e₁ + e₂ - 281474976710656 + 128 from rfl, p3, pure_bind]
    dsimp only
    rw [uShl_eq (by omega), pure_bind, hsh, uSub_eq (by omega), pure_bind, xor_sign _ _ _ _ _ _ h1 h2,
      pack_mk l2]
    have := l2.1; have := l2.2; omega
  · rw [hz, hu]
    exact mul_le_mul_of_nonneg_right (by exact_mod_cast p4) (le_of_lt (ulp_pos _))
  · rw [hz, hu]
    have q1 : ((m₁ * m₂ : Nat) : ℚ) ≤ ((B128 * P : Nat) : ℚ) + 3 * 2 ^ 128 := by
      have : m₁ * m₂ ≤ B128 * P + 3 * 2 ^ 128 := by omega
      exact_mod_cast this
    have q2 : (2 ^ 254 : ℚ) ≤ ((m₁ * m₂ : Nat) : ℚ) := by
      have : 2 ^ 254 ≤ m₁ * m₂ := by
        calc 2 ^ 254 = S127 * S127 := by norm_num
          _ ≤ _ := Nat.mul_le_mul h1.1 h2.1
      exact_mod_cast this
    rw [mul_right_comm]
    apply mul_le_mul_of_nonneg_right _ (le_of_lt (ulp_pos _))
    generalize ((m₁ * m₂ : Nat) : ℚ) = A at *
    generalize ((B128 * P : Nat) : ℚ) = B at *
    linarith

theorem mul_flush {a b : Bool} {m₁ e₁ m₂ e₂ : Nat} (h1 : Nrm m₁) (h2 : Nrm m₂) (z1 : ¬Z a m₁ e₁) (z2 : ¬Z b m₂ e₂)
    (hE : e₁ + e₂ < 281474976710656) : mul (mk' a m₁ e₁) (mk' b m₂ e₂) = pure ZERO ∧
    mg m₁ e₁ * mg m₂ e₂ < 2 ^ (256 - 2 ^ 48 : ℤ) := by
  constructor
  · rw [mul, is_zero_mk h1, is_zero_mk h2, if_neg (by
      simp only [Bool.or_eq_true, decide_eq_true_eq, not_or]; exact ⟨z1, z2⟩), mk_exp, mk_exp, u64Add,
      uAdd_eq (by omega), pure_bind, if_pos (by unfold EXP_COEFF; omega)]
  · have : ulp e₁ * ulp e₂ ≤ 2 ^ (- 2 ^ 48 : ℤ) := by
      unfold ulp
      rw [← zpow_add₀ (by norm_num)]
      exact zpow_le_zpow_right₀ (by norm_num) (by omega)
    have h3 : ((m₁ : ℚ) * m₂) < 2 ^ 256 := by
      have : m₁ * m₂ < 2 ^ 256 := by
        calc m₁ * m₂ < B128 * m₂ := Nat.mul_lt_mul_of_pos_right h1.2 (by have := h2.1; omega)
          _ ≤ B128 * B128 := Nat.mul_le_mul_left _ (le_of_lt h2.2)
          _ = 2 ^ 256 := by norm_num
      exact_mod_cast this
    rw [sub_eq_add_neg, zpow_add₀ (by norm_num), mg_eq, mg_eq]
    have h4 : (0 : ℚ) < 2 ^ (-2 ^ 48 : ℤ) := zpow_pos (by norm_num) _
    have h5 : (0 : ℚ) ≤ (m₁ : ℚ) * m₂ := by positivity
    have h6 : (2 : ℚ) ^ (256 : ℤ) = 2 ^ 256 := by norm_cast
    rw [h6]
    calc (m₁ : ℚ) * ulp e₁ * (m₂ * ulp e₂) = (m₁ * m₂) * (ulp e₁ * ulp e₂) := by ring
      _ ≤ (m₁ * m₂) * 2 ^ (-2 ^ 48 : ℤ) := mul_le_mul_of_nonneg_left this h5
      _ < _ := mul_lt_mul_of_pos_right h3 h4

theorem mul_panic {a b : Bool} {m₁ e₁ m₂ e₂ : Nat} (h1 : Nrm m₁) (h2 : Nrm m₂) (z1 : ¬Z a m₁ e₁) (z2 : ¬Z b m₂ e₂)
    (hE : B64 ≤ e₁ + e₂) : mul (mk' a m₁ e₁) (mk' b m₂ e₂) = throw .overflow := by
  rw [mul, is_zero_mk h1, is_zero_mk h2, if_neg (by
      simp only [Bool.or_eq_true, decide_eq_true_eq, not_or]; exact ⟨z1, z2⟩), mk_exp, mk_exp, u64Add, uAdd,
      if_neg (by omega)]
  rfl

end F192
end Hmath
