import Verif.Proofs.Fp192Arith

/-!
# 192-bit floating point numbers: products and quotients with an `i32`
-/

namespace Hmath
namespace F192

theorem norm_step {d k : Nat} (h : 2 ^ 127 ≤ d * 2 ^ (k + 1) ∧ d * 2 ^ (k + 1) < 2 ^ 128) :
    2 ^ 127 ≤ d * 2 * 2 ^ k ∧ d * 2 * 2 ^ k < 2 ^ 128 := by
  rw [mul_assoc, ← pow_succ']; exact h

theorem normLoop_c (k : Nat) : ∀ {d r e : Nat}, 2 ^ 127 ≤ d * 2 ^ k ∧ d * 2 ^ k < 2 ^ 128 → r * 2 ^ k < 2 ^ 128 →
    normLoop d r e = if k ≤ e then pure (d * 2 ^ k, r * 2 ^ k, e - k) else throw .overflow := by
  induction k with
  | zero =>
    intro d r e h hr
    rw [normLoop, if_neg (by unfold SIGN_MASK; omega), if_pos (by omega)]
    simp
  | succ k ih =>
    intro d r e h hr
    have hs := norm_step h
    have hr' : r * 2 * 2 ^ k < 2 ^ 128 := by rw [mul_assoc, ← pow_succ']; exact hr
    have hk : 1 ≤ 2 ^ k := Nat.one_le_two_pow
    have d1 : d * 2 < 2 ^ 128 := lt_of_le_of_lt (Nat.le_mul_of_pos_right _ hk) hs.2
    have r1 : r * 2 < 2 ^ 128 := lt_of_le_of_lt (Nat.le_mul_of_pos_right _ hk) hr'
    rw [normLoop, if_pos (by unfold SIGN_MASK; omega), u128Mul, uMul_eq (by omega), pure_bind,
      uMul_eq (by omega), pure_bind]
    by_cases he : 1 ≤ e
    · rw [uSub_eq he, pure_bind, ih hs hr']
      by_cases hc : k + 1 ≤ e
      · rw [if_pos hc, if_pos (by omega)]
        have : e - 1 - k = e - (k + 1) := by omega
        rw [this]
        have q1 : d * 2 * 2 ^ k = d * 2 ^ (k + 1) := by ring
        have q2 : r * 2 * 2 ^ k = r * 2 ^ (k + 1) := by ring
        rw [q1, q2]
      · rw [if_neg hc, if_neg (by omega)]
    · rw [uSub, if_neg he, if_neg (by omega)]; rfl

/-- shift that brings `n` between `2^127` and `2^128` -/
theorem exists_norm {n lo : Nat} (hl : 2 ^ lo ≤ n) (hlo : lo ≤ 127) (hn : n < 2 ^ 128) :
    ∃ k, k ≤ 127 - lo ∧ 2 ^ 127 ≤ n * 2 ^ k ∧ n * 2 ^ k < 2 ^ 128 := by
  have h0 : n ≠ 0 := Nat.pos_iff_ne_zero.1 (lt_of_lt_of_le (show 0 < 2 ^ lo by positivity) hl)
  obtain ⟨h1, h2, h3⟩ := lz_bounds h0 (by omega)
  refine ⟨lz128 n, ?_, by omega, by omega⟩
  rw [lz128, if_neg h0]
  have := (Nat.le_log2 h0).2 hl
  omega

theorem nrm_add {u v w : Nat} (h1 : 2 ^ 127 ≤ u) (h2 : u + w ≤ 2 ^ 128) (h3 : v < w) : Nrm (u + v) :=
  ⟨by omega, by omega⟩

/-- the result of a product or quotient with a signed factor -/
def prodSign (s : Bool) (a : Int) : Bool := s != decide (a < 0)

/-- the product, with the exact condition for the overflow -/
theorem mul_i32_d {s : Bool} {m e : Nat} {a : Int} (h : Nrm m) (h0 : ¬Z s m e) (ha : a ≠ 0)
    (ha' : a.natAbs < 2147483648) (he : e + 32 < B64) :
    (mul_i32 (mk' s m e) a = throw .overflow ∧ m % 2 ^ 32 ≠ 0 ∧ ∃ j, m / 2 ^ 32 * a.natAbs < 2 ^ j ∧ 2 ^ (j + 32) ≤ m * a.natAbs) ∨
    ∃ m' e', Nrm m' ∧ e ≤ e' ∧ e' ≤ e + 32 ∧ mul_i32 (mk' s m e) a = pure (mk' (prodSign s a) m' e') ∧
      Trunc (mg m e * a.natAbs) m' e' ∧ ¬∃ j, m / 2 ^ 32 * a.natAbs < 2 ^ j ∧ 2 ^ (j + 32) ≤ m * a.natAbs := by
  have h1 := h.1
  have h2 := h.2
  have hA : 1 ≤ a.natAbs := by omega
  have hq : 2 ^ 95 ≤ m / 2 ^ 32 ∧ m / 2 ^ 32 < 2 ^ 96 := by constructor <;> omega
  have hdm := Nat.div_add_mod m (2 ^ 32)
  have hr : m % 2 ^ 32 < 2 ^ 32 := Nat.mod_lt _ (by norm_num)
  rw [mul_i32, is_zero_mk h, if_neg (by
    simp only [Bool.or_eq_true, decide_eq_true_eq, not_or, beq_iff_eq]; exact ⟨h0, ha⟩), or_mk h]
  dsimp only
  rw [show (4294967295 : Nat) = 2 ^ 32 - 1 by norm_num, Nat.and_two_pow_sub_one_eq_mod, i32AbsU128,
    if_neg (by omega), pure_bind, is_neg_mk h, mk_exp]
  rw [show decide (a < 0) = decide (a < 0) from rfl]
  change (do
    let rem ← u128Mul (m % 2 ^ 32) a.natAbs
    let d ← uShr 128 m 32
    let d ← u128Mul d a.natAbs
    let e ← u64Add e 32
    let p ← normLoop d rem e
    let d ← u128Add p.1 (p.2.1 / 2 ^ 32)
    pure (⟨d &&& LOW_MASK ||| signBit (prodSign s a), p.2.2⟩ : F192)) = throw .overflow ∧ _ ∨ ∃ m' e', _ ∧ _ ∧ _ ∧ (do
    let rem ← u128Mul (m % 2 ^ 32) a.natAbs
    let d ← uShr 128 m 32
    let d ← u128Mul d a.natAbs
    let e ← u64Add e 32
    let p ← normLoop d rem e
    let d ← u128Add p.1 (p.2.1 / 2 ^ 32)
    pure (⟨d &&& LOW_MASK ||| signBit (prodSign s a), p.2.2⟩ : F192)) = _ ∧ _
  generalize prodSign s a = t
  generalize a.natAbs = A at *
  generalize hqq : m / 2 ^ 32 = q at *
  generalize m % 2 ^ 32 = r at *
  have c1 : q * A < 2 ^ 128 := by
    calc q * A < 2 ^ 96 * A := Nat.mul_lt_mul_of_pos_right hq.2 hA
      _ ≤ 2 ^ 96 * 2 ^ 31 := Nat.mul_le_mul_left _ (by omega)
      _ < 2 ^ 128 := by norm_num
  have c2 : r * A < 2 ^ 63 := by
    calc r * A < 2 ^ 32 * A := Nat.mul_lt_mul_of_pos_right hr hA
      _ ≤ 2 ^ 32 * 2 ^ 31 := Nat.mul_le_mul_left _ (by omega)
      _ = 2 ^ 63 := by norm_num
  have c3 : 2 ^ 95 ≤ q * A := le_trans hq.1 (Nat.le_mul_of_pos_right _ hA)
  obtain ⟨k, k1, k2⟩ := exists_norm c3 (by norm_num) c1
  have c4 : r * A * 2 ^ k < 2 ^ 128 := by
    calc r * A * 2 ^ k < 2 ^ 63 * 2 ^ k := Nat.mul_lt_mul_of_pos_right c2 (by positivity)
      _ ≤ 2 ^ 63 * 2 ^ 32 := Nat.mul_le_mul_left _ (Nat.pow_le_pow_right (by norm_num) (by omega))
      _ < 2 ^ 128 := by norm_num
  rw [u128Mul, uMul_eq (by omega), pure_bind, uShr_eq (by norm_num), pure_bind, hqq, uMul_eq (by omega), pure_bind,
    u64Add, uAdd_eq he, pure_bind, normLoop_c k k2 c4, if_pos (by omega), pure_bind]
  dsimp only
  obtain ⟨j, hj⟩ : ∃ j, 32 = k + j := ⟨32 - k, by omega⟩
  have key : m * A = (q * A * 2 ^ k) * 2 ^ j + r * A := by
    rw [← hdm, hj, pow_add]; ring
  have hrj : r * A * 2 ^ k / 2 ^ 32 = r * A / 2 ^ j := by
    rw [hj, pow_add, mul_comm (2 ^ k), Nat.mul_div_mul_right _ _ (by positivity)]
  rw [hrj]
  have hdm2 := Nat.div_add_mod (r * A) (2 ^ j)
  have hml2 := Nat.mod_lt (r * A) (show 0 < 2 ^ j by positivity)
  have hr0 : r = 0 → r * A / 2 ^ j = 0 := by rintro rfl; simp
  generalize r * A / 2 ^ j = v at *
  have kd : 2 ^ 128 * 2 ^ j = 2 ^ (128 - k + 32) := by rw [← pow_add]; congr 1; omega
  have kq : q * A < 2 ^ (128 - k) := by
    have e1 : (2 : Nat) ^ 128 = 2 ^ (128 - k) * 2 ^ k := by rw [← pow_add]; congr 1; omega
    rw [e1] at k2
    exact Nat.lt_of_mul_lt_mul_right k2.2
  have kn : ∀ i, q * A < 2 ^ i → 128 ≤ i + k := fun i hi => by
    have : 2 ^ 127 < 2 ^ (i + k) := lt_of_le_of_lt k2.1 (by rw [pow_add]; exact Nat.mul_lt_mul_of_pos_right hi (by positivity))
    have := (Nat.pow_lt_pow_iff_right (by norm_num)).1 this
    omega
  generalize q * A * 2 ^ k = u at *
  by_cases hV : u + v < B128
  · right
    have hn : Nrm (u + v) := ⟨by omega, hV⟩
    refine ⟨u + v, e + 32 - k, hn, by omega, by omega, ?_, ?_, ?_⟩
    · rw [u128Add, uAdd_eq hV, pure_bind, pack_mk hn]
      have := hn.1; omega
    · refine trunc_of_nat (e0 := e) (k := j) (S := m * A) (by omega) ?_ ?_ ?_
      · rw [mg_eq]; push_cast; ring
      · rw [key, ← hdm2]
        have : (u + v) * 2 ^ j = u * 2 ^ j + 2 ^ j * v := by ring
        omega
      · rw [key]
        have : (u + v + 1) * 2 ^ j = u * 2 ^ j + 2 ^ j * v + 2 ^ j := by ring
        omega
    · rintro ⟨i, i1, i2⟩
      have i3 := kn i i1
      have : m * A < 2 ^ (i + 32) := by
        refine lt_of_lt_of_le (b := (u + v + 1) * 2 ^ j) ?_ (le_trans (b := 2 ^ 128 * 2 ^ j) (Nat.mul_le_mul_right _ hV) ?_)
        · rw [key]
          have : (u + v + 1) * 2 ^ j = u * 2 ^ j + 2 ^ j * v + 2 ^ j := by ring
          omega
        · rw [kd]
          exact Nat.pow_le_pow_right (by norm_num) (by omega)
      omega
  · left
    refine ⟨?_, fun hc => ?_, 128 - k, kq, ?_⟩
    · rw [u128Add, uAdd, if_neg hV]; rfl
    · have := hr0 hc; omega
    · rw [← kd, key]
      have : 2 ^ 128 * 2 ^ j ≤ (u + v) * 2 ^ j := Nat.mul_le_mul_right _ (not_lt.1 hV)
      have : (u + v) * 2 ^ j = u * 2 ^ j + 2 ^ j * v := by ring
      omega

theorem mul_i32_c {s : Bool} {m e : Nat} {a : Int} (h : Nrm m) (h0 : ¬Z s m e) (ha : a ≠ 0)
    (ha' : a.natAbs < 2147483648) (he : e + 32 < B64) :
    (mul_i32 (mk' s m e) a = throw .overflow ∧ m % 2 ^ 32 ≠ 0) ∨
    ∃ m' e', Nrm m' ∧ e ≤ e' ∧ e' ≤ e + 32 ∧ mul_i32 (mk' s m e) a = pure (mk' (prodSign s a) m' e') ∧
      Trunc (mg m e * a.natAbs) m' e' := by
  rcases mul_i32_d h h0 ha ha' he with ⟨g1, g2, -⟩ | ⟨m', e', g1, g2, g3, g4, g5, -⟩
  · exact Or.inl ⟨g1, g2⟩
  · exact Or.inr ⟨m', e', g1, g2, g3, g4, g5⟩

/-- the quotient, with the shift -/
theorem div_i32_d {s : Bool} {m e : Nat} {a : Int} (h : Nrm m) (h0 : ¬Z s m e) (ha : a ≠ 0)
    (ha' : a.natAbs < 2147483648) : ∃ m' k, Nrm m' ∧ k ≤ 31 ∧ (2 ^ 127 ≤ m / a.natAbs * 2 ^ k ∧ m / a.natAbs * 2 ^ k < 2 ^ 128) ∧
      div_i32 (mk' s m e) a = (if k ≤ e then pure (mk' (prodSign s a) m' (e - k)) else throw .overflow) ∧
      (k ≤ e → Trunc (mg m e / a.natAbs) m' (e - k)) := by
  have h1 := h.1
  have h2 := h.2
  have hA : 1 ≤ a.natAbs := by omega
  rw [div_i32, is_zero_mk h, if_neg ha, if_neg (by simpa [Z] using h0), or_mk h]
  dsimp only
  rw [i32AbsU128, if_neg (by omega), pure_bind, is_neg_mk h, mk_exp]
  change ∃ m' k, _ ∧ _ ∧ _ ∧ (do
    let rem ← uRem m a.natAbs
    let d ← uDiv m a.natAbs
    let p ← normLoop d rem e
    let q ← uDiv p.2.1 a.natAbs
    let d ← u128Add p.1 q
    pure (⟨d &&& LOW_MASK ||| signBit (prodSign s a), p.2.2⟩ : F192)) = _ ∧ _
  generalize prodSign s a = t
  generalize a.natAbs = A at *
  have hdm := Nat.div_add_mod m A
  have hr : m % A < A := Nat.mod_lt _ hA
  have c1 : m / A < 2 ^ 128 := lt_of_le_of_lt (Nat.div_le_self _ _) (by omega)
  have c3 : 2 ^ 96 ≤ m / A := by
    rw [Nat.le_div_iff_mul_le hA]
    calc 2 ^ 96 * A ≤ 2 ^ 96 * 2 ^ 31 := Nat.mul_le_mul_left _ (by omega)
      _ ≤ m := by omega
  obtain ⟨k, k1, k2⟩ := exists_norm c3 (by norm_num) c1
  have c4 : m % A * 2 ^ k < 2 ^ 62 := by
    calc m % A * 2 ^ k < A * 2 ^ k := Nat.mul_lt_mul_of_pos_right hr (by positivity)
      _ ≤ 2 ^ 31 * 2 ^ 31 := Nat.mul_le_mul (by omega) (Nat.pow_le_pow_right (by norm_num) (by omega))
      _ = 2 ^ 62 := by norm_num
  rw [uRem_eq (by omega), pure_bind, uDiv_eq (by omega), pure_bind, normLoop_c k k2 (by omega)]
  generalize m / A = q at *
  generalize m % A = r at *
  have hdm2 := Nat.div_add_mod (r * 2 ^ k) A
  have hml2 := Nat.mod_lt (r * 2 ^ k) hA
  have hv : r * 2 ^ k / A < 2 ^ k := by
    rw [Nat.div_lt_iff_lt_mul hA, mul_comm (2 ^ k)]
    exact Nat.mul_lt_mul_of_pos_right hr (by positivity)
  have hu : q * 2 ^ k + 2 ^ k ≤ 2 ^ 128 := by
    have : 2 ^ 128 = 2 ^ (128 - k) * 2 ^ k := by rw [← pow_add, show 128 - k + k = 128 by omega]
    have h3 := k2.2
    rw [this] at h3 ⊢
    have := Nat.lt_of_mul_lt_mul_right h3
    calc q * 2 ^ k + 2 ^ k = (q + 1) * 2 ^ k := by ring
      _ ≤ _ := Nat.mul_le_mul_right _ this
  have key : m * 2 ^ k = A * (q * 2 ^ k) + r * 2 ^ k := by rw [← hdm]; ring
  have hn : Nrm (q * 2 ^ k + r * 2 ^ k / A) := nrm_add k2.1 hu hv
  refine ⟨q * 2 ^ k + r * 2 ^ k / A, k, hn, by omega, k2, ?_, ?_⟩
  · by_cases hk : k ≤ e
    · rw [if_pos hk, if_pos hk, pure_bind]
      dsimp only
      rw [uDiv_eq (by omega), pure_bind, u128Add, uAdd_eq hn.2, pure_bind, pack_mk hn]
      obtain ⟨g1, g2⟩ := hn
      generalize q * 2 ^ k + r * 2 ^ k / A = V at *
      omega
    · rw [if_neg hk, if_neg hk]; rfl
  · intro hk
    generalize r * 2 ^ k / A = v at *
    generalize q * 2 ^ k = u at *
    have b1 : (u + v) * A ≤ m * 2 ^ k := by
      rw [key, ← hdm2]
      have : (u + v) * A = A * u + A * v := by ring
      omega
    have b2 : m * 2 ^ k < (u + v + 1) * A := by
      rw [key]
      have : (u + v + 1) * A = A * u + A * v + A := by ring
      omega
    have hA0 : (0 : ℚ) < A := by exact_mod_cast hA
    have hm : mg m e = ((m * 2 ^ k : Nat) : ℚ) * ulp (e - k) := by
      have := mg_shift m (e - k) k
      rw [show e - k + k = e by omega] at this
      rw [← this, mg_eq]
    have hu := ulp_pos (e - k)
    have b1' : (((u + v : Nat) : ℚ)) * A ≤ ((m * 2 ^ k : Nat) : ℚ) := by exact_mod_cast b1
    have b2' : ((m * 2 ^ k : Nat) : ℚ) < (((u + v : Nat) : ℚ) + 1) * A := by exact_mod_cast b2
    generalize ((m * 2 ^ k : Nat) : ℚ) = M at *
    refine ⟨?_, ?_⟩
    · rw [hm, le_div_iff₀ hA0, mg_eq]
      nlinarith
    · rw [hm, div_lt_iff₀ hA0, mg_eq]
      nlinarith

theorem div_i32_c {s : Bool} {m e : Nat} {a : Int} (h : Nrm m) (h0 : ¬Z s m e) (ha : a ≠ 0)
    (ha' : a.natAbs < 2147483648) : ∃ m' k, Nrm m' ∧ k ≤ 31 ∧
      div_i32 (mk' s m e) a = (if k ≤ e then pure (mk' (prodSign s a) m' (e - k)) else throw .overflow) ∧
      (k ≤ e → Trunc (mg m e / a.natAbs) m' (e - k)) := by
  obtain ⟨m', k, g1, g2, -, g3, g4⟩ := div_i32_d (e := e) h h0 ha ha'
  exact ⟨m', k, g1, g2, g3, g4⟩

end F192
end Hmath
