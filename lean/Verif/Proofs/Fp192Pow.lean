import Verif.Model.Fp192Funcs
import Verif.Proofs.Fp192Div
import Mathlib.Algebra.Order.Ring.Pow

/-!
# 192-bit floating point numbers: integer powers
-/

namespace Hmath
namespace F192

/-- the relative error of a product -/
def ue : ℚ := 3 / 2 ^ 126

theorem ue_pos : 0 < ue := by norm_num [ue]
theorem ue_lt : ue < 1 := by norm_num [ue]

/-- sign of a power -/
def psign (s : Bool) (n : Nat) : Bool := s && decide (n % 2 = 1)

theorem psign_add (s : Bool) (a b : Nat) : (psign s a != psign s b) = psign s (a + b) := by
  unfold psign
  cases s
  · simp
  · simp only [Bool.true_and]
    rcases Nat.mod_two_eq_zero_or_one a with ha | ha <;> rcases Nat.mod_two_eq_zero_or_one b with hb | hb <;>
      simp [ha, hb, Nat.add_mod]

theorem sgn_psign (s : Bool) (n : Nat) : sgn (psign s n) = sgn s ^ n := by
  unfold psign
  cases s
  · simp [sgn]
  · rcases Nat.mod_two_eq_zero_or_one n with h | h
    · rw [h]
      have : Even n := Nat.even_iff.2 h
      simp [sgn, this.neg_one_pow]
    · rw [h]
      have : Odd n := Nat.odd_iff.2 h
      simp [sgn, this.neg_one_pow]

/-- `r` is the power with exponent `n`, with `k` roundings -/
def IsPow (s : Bool) (m e : Nat) (r : F192) (n k : Nat) : Prop :=
  ∃ m' e' : Nat, r = mk' (psign s n) m' e' ∧ Nrm m' ∧
    (n : Int) * ((e : Int) - 281474976710529) ≤ (e' : Int) - 281474976710529 ∧
    (e' : Int) - 281474976710529 ≤ (n : Int) * ((e : Int) - 281474976710529) + k ∧
    mg m e ^ n * (1 - ue) ^ k ≤ mg m' e' ∧ mg m' e' ≤ mg m e ^ n

/-- the range of exponents -/
def PRange (e N : Nat) : Prop := -281474976710402 ≤ (N : Int) * ((e : Int) - 281474976710529) ∧
  (N : Int) * (max ((e : Int) - 281474976710529) 0 + 2) ≤ 18446181123756130557

theorem PRange.le {e N n : Nat} (h : PRange e N) (hn : n ≤ N) : PRange e n := by
  unfold PRange at *
  have hn' : (n : Int) ≤ N := by exact_mod_cast hn
  have h0 : (0 : Int) ≤ n := by positivity
  refine ⟨?_, le_trans (mul_le_mul_of_nonneg_right hn' (by positivity)) h.2⟩
  rcases le_total 0 ((e : Int) - 281474976710529) with h1 | h1
  · have := mul_nonneg h0 h1
    omega
  · exact le_trans h.1 (mul_le_mul_of_nonpos_right hn' h1)

theorem PRange.bounds {e N : Nat} (h : PRange e N) : -281474976710402 ≤ (N : Int) * ((e : Int) - 281474976710529) ∧
    (N : Int) * ((e : Int) - 281474976710529) + 2 * N ≤ 18446181123756130557 ∧ 2 * (N : Int) ≤ 18446181123756130557 := by
  obtain ⟨h1, h2⟩ := h
  have hN : (0 : Int) ≤ N := by positivity
  have h3 := mul_le_mul_of_nonneg_left (le_max_left ((e : Int) - 281474976710529) 0) hN
  have h4 := mul_le_mul_of_nonneg_left (le_max_right ((e : Int) - 281474976710529) 0) hN
  rw [mul_add] at h2
  refine ⟨h1, ?_, ?_⟩ <;> linarith

theorem IsPow.mul {s : Bool} {m e : Nat} (hm : Nrm m) {r₁ r₂ : F192} {n₁ n₂ k₁ k₂ : Nat} (h1 : IsPow s m e r₁ n₁ k₁)
    (h2 : IsPow s m e r₂ n₂ k₂) (hk : k₁ + k₂ ≤ 2 * (n₁ + n₂)) (hr : PRange e (n₁ + n₂)) :
    ∃ r, F192.mul r₁ r₂ = pure r ∧ IsPow s m e r (n₁ + n₂) (k₁ + k₂ + 1) := by
  obtain ⟨a, x, rfl, ha, a1, a2, a3, a4⟩ := h1
  obtain ⟨b, y, rfl, hb, b1, b2, b3, b4⟩ := h2
  obtain ⟨c1, c2, -⟩ := hr.bounds
  obtain ⟨d1, d2, -⟩ := (hr.le (Nat.le_add_right n₁ n₂)).bounds
  obtain ⟨f1, f2, -⟩ := (hr.le (Nat.le_add_left n₂ n₁)).bounds
  push_cast at c1 c2
  rw [add_mul] at c1 c2
  generalize hP : (n₁ : Int) * ((e : Int) - 281474976710529) = P at *
  generalize hQ : (n₂ : Int) * ((e : Int) - 281474976710529) = Q at *
  obtain ⟨m', e', g1, g2, g3, g4, g5, g6, g7, g8⟩ := mul_c (a := psign s n₁) (b := psign s n₂) ha hb (e₁ := x) (e₂ := y)
    (nz_exp (by omega)) (nz_exp (by omega)) (by omega) (by omega)
  refine ⟨_, g6, m', e', by rw [psign_add], g1, ?_, ?_, ?_, ?_⟩
  · push_cast; rw [add_mul, hP, hQ]; omega
  · push_cast; rw [add_mul, hP, hQ]; omega
  · refine le_trans ?_ g8
    have hp := mg_pos (e := e) hm
    have hu := sub_pos.2 ue_lt
    have := mul_le_mul a3 b3 (by positivity) (mg_pos ha).le
    rw [show (1 : ℚ) - 3 / 2 ^ 126 = 1 - ue from rfl]
    refine le_trans (le_of_eq ?_) (mul_le_mul_of_nonneg_right this hu.le)
    rw [pow_succ, pow_add, pow_add]; ring
  · refine le_trans g7 ?_
    rw [pow_add]
    exact mul_le_mul a4 b4 (mg_pos hb).le (pow_nonneg (mg_pos hm).le _)

theorem isPow_one (s : Bool) (m e : Nat) : IsPow s m e ONE 0 0 := by
  refine ⟨2 ^ 127, 281474976710529, ?_, ⟨by norm_num, by norm_num⟩, by simp, by simp, ?_, ?_⟩
  · simp only [psign]
    decide +revert +kernel
  · simp [mg]; norm_num
  · simp [mg]; norm_num

theorem isPow_self {s : Bool} {m e : Nat} (hm : Nrm m) : IsPow s m e (mk' s m e) 1 0 := by
  refine ⟨m, e, by simp [psign], hm, by simp, by simp, by simp, by simp⟩

theorem powiLoop_c {s : Bool} {m e : Nat} (hm : Nrm m) {aa : F192} (ha : IsPow s m e aa 2 1) : ∀ (b : Nat) (r : F192) (n k : Nat),
    IsPow s m e r n k → k ≤ n → PRange e (n + b) →
    ∃ r' n' k', powiLoop aa b r = pure (r', b % 2) ∧ IsPow s m e r' n' k' ∧ n' + b % 2 = n + b ∧ k' + n = k + n' := by
  intro b
  induction b using Nat.strong_induction_on with
  | _ b ih =>
    intro r n k hr hk hR
    match b, ih, hR with
    | 0, _, _ => exact ⟨r, n, k, rfl, hr, rfl, rfl⟩
    | 1, _, _ => exact ⟨r, n, k, rfl, hr, rfl, rfl⟩
    | b + 2, ih, hR =>
      obtain ⟨r₁, h1, h2⟩ := hr.mul hm ha (by omega) (hR.le (by omega))
      obtain ⟨r', n', k', g1, g2, g3, g4⟩ := ih b (by omega) r₁ (n + 2) (k + 1 + 1) h2 (by omega) (by
        rwa [show n + 2 + b = n + (b + 2) by omega])
      refine ⟨r', n', k', ?_, g2, by omega, by omega⟩
      rw [powiLoop, h1, pure_bind, g1, Nat.add_mod_right]

theorem powi_abs_c {s : Bool} {m e : Nat} (hm : Nrm m) : ∀ b : Nat, PRange e b →
    ∃ r k, powi_abs (mk' s m e) b = pure r ∧ IsPow s m e r b k ∧ (b < 8 → k ≤ b) ∧ (8 ≤ b → 4 * k + 4 ≤ 5 * b) := by
  intro b
  induction b using Nat.strong_induction_on with
  | _ b ih =>
    intro hR
    rw [powi_abs]
    by_cases h8 : b < 8
    · rw [if_pos h8]
      by_cases h2 : b < 2
      · rw [if_pos h2]
        by_cases h0 : b = 0
        · subst h0
          exact ⟨_, 0, rfl, isPow_one s m e, fun _ => le_refl _, by omega⟩
        · rw [if_neg h0]
          obtain rfl : b = 1 := by omega
          exact ⟨_, 0, rfl, isPow_self hm, fun _ => by omega, by omega⟩
      · rw [if_neg h2]
        obtain ⟨aa, h1, h3⟩ := (isPow_self (s := s) (e := e) hm).mul hm (isPow_self hm) (by omega) (hR.le (by omega))
        obtain ⟨r', n', k', g1, g2, g3, g4⟩ := powiLoop_c hm h3 b ONE 0 0 (isPow_one s m e) (le_refl _) (by rwa [Nat.zero_add])
        rw [h1, pure_bind, g1, pure_bind]
        by_cases hb : b % 2 = 1
        · rw [if_pos hb]
          obtain ⟨r, f1, f2⟩ := g2.mul hm (isPow_self hm) (by omega) (hR.le (by omega))
          refine ⟨r, k' + 0 + 1, f1, ?_, fun _ => ?_, by omega⟩
          · rwa [show n' + 1 = b by omega] at f2
          · omega
        · rw [if_neg hb]
          refine ⟨r', k', rfl, ?_, fun _ => by omega, by omega⟩
          rwa [show n' = b by omega] at g2
    · rw [if_neg h8]
      obtain ⟨r, k, h1, h2, h3, h4⟩ := ih (b / 2) (by omega) (hR.le (by omega))
      obtain ⟨q, g1, g2⟩ := h2.mul hm h2 (by omega) (hR.le (by omega))
      rw [h1, pure_bind, g1, pure_bind]
      by_cases hb : b % 2 = 1
      · rw [if_pos hb]
        obtain ⟨p, f1, f2⟩ := g2.mul hm (isPow_self hm) (by omega) (hR.le (by omega))
        refine ⟨p, k + k + 1 + 0 + 1, f1, ?_, by omega, fun _ => ?_⟩
        · rwa [show b / 2 + b / 2 + 1 = b by omega] at f2
        · omega
      · rw [if_neg hb]
        refine ⟨q, k + k + 1, rfl, ?_, by omega, fun _ => ?_⟩
        · rwa [show b / 2 + b / 2 = b by omega] at g2
        · omega

theorem IsPow.err {s : Bool} {m e : Nat} (hm : Nrm m) {r : F192} {n k : Nat} (h : IsPow s m e r n k) (hk : 4 * k ≤ 5 * n) :
    ∃ m' e' : Nat, r = mk' (psign s n) m' e' ∧ Nrm m' ∧
    (n : Int) * ((e : Int) - 281474976710529) ≤ (e' : Int) - 281474976710529 ∧
    (e' : Int) - 281474976710529 ≤ (n : Int) * ((e : Int) - 281474976710529) + 2 * n ∧
    mg m e ^ n * (1 - n / 2 ^ 124) ≤ mg m' e' ∧ mg m' e' ≤ mg m e ^ n := by
  obtain ⟨m', e', h1, h2, h3, h4, h5, h6⟩ := h
  refine ⟨m', e', h1, h2, h3, by omega, le_trans (mul_le_mul_of_nonneg_left ?_ (pow_nonneg (mg_pos hm).le _)) h5, h6⟩
  have := one_add_mul_le_pow (a := -ue) (by linarith [ue_lt]) k
  rw [← sub_eq_add_neg] at this
  refine le_trans ?_ this
  have hk' : (4 : ℚ) * k ≤ 5 * n := by exact_mod_cast hk
  have hn : (0 : ℚ) ≤ n := by positivity
  unfold ue
  rw [div_eq_mul_inv, show ((2 : ℚ) ^ 124)⁻¹ = 4 * (1 / 2 ^ 126) by norm_num, show (3 : ℚ) / 2 ^ 126 = 3 * (1 / 2 ^ 126) by norm_num]
  have hp : (0 : ℚ) < 1 / 2 ^ 126 := by norm_num
  generalize (1 : ℚ) / 2 ^ 126 = t at hp
  nlinarith

theorem i64Abs_c {n : Int} (h : n ≠ -9223372036854775808) : i64Abs n = pure n.natAbs := by
  rw [i64Abs, if_neg h]

theorem powi_nonneg_c {s : Bool} {m e : Nat} (hm : Nrm m) {n : Nat} (hR : PRange e n) :
    ∃ m' e' : Nat, powi (mk' s m e) n = pure (mk' (psign s n) m' e') ∧ Nrm m' ∧
    (n : Int) * ((e : Int) - 281474976710529) ≤ (e' : Int) - 281474976710529 ∧
    (e' : Int) - 281474976710529 ≤ (n : Int) * ((e : Int) - 281474976710529) + 2 * n ∧
    mg m e ^ n * (1 - n / 2 ^ 124) ≤ mg m' e' ∧ mg m' e' ≤ mg m e ^ n := by
  obtain ⟨r, k, h1, h2, h3, h4⟩ := powi_abs_c (s := s) hm n hR
  obtain ⟨m', e', rfl, g⟩ := h2.err hm (by omega)
  refine ⟨m', e', ?_, g⟩
  rw [powi, i64Abs_c (by omega), pure_bind, Int.natAbs_natCast, h1, pure_bind, if_neg (by omega)]

theorem powi_neg_c {s : Bool} {m e : Nat} (hm : Nrm m) {n : Nat} (hn : 0 < n)
    (hR : (n : Int) * (|(e : Int) - 281474976710529| + 2) ≤ 549755813886) :
    ∃ m' e' : Nat, powi (mk' s m e) (-n) = pure (mk' (psign s n) m' e') ∧ Nrm m' ∧ Fe e' ∧
    (mg m e ^ n)⁻¹ ≤ mg m' e' ∧ mg m' e' ≤ (mg m e ^ n)⁻¹ * (1 + (n + 2) / 2 ^ 124) := by
  have hR' : PRange e n := by
    have hN : (0 : Int) ≤ n := by positivity
    have h1 := mul_le_mul_of_nonneg_left (neg_abs_le ((e : Int) - 281474976710529)) hN
    have h2 := mul_le_mul_of_nonneg_left (max_le (le_abs_self ((e : Int) - 281474976710529)) (abs_nonneg _)) hN
    rw [mul_add] at hR
    rw [PRange, mul_add]
    constructor <;> linarith
  obtain ⟨r, k, h1, h2, h3, h4⟩ := powi_abs_c (s := s) hm n hR'
  obtain ⟨m', e', rfl, g1, g2, g3, g4, g5⟩ := h2.err hm (by omega)
  have hb : -549755813886 ≤ (n : Int) * ((e : Int) - 281474976710529) ∧
      (n : Int) * ((e : Int) - 281474976710529) + 2 * n ≤ 549755813886 := by
    have h1 := neg_abs_le ((e : Int) - 281474976710529)
    have h2 := le_abs_self ((e : Int) - 281474976710529)
    have hN : (0 : Int) ≤ n := by positivity
    constructor <;> nlinarith
  have hn' : n ≤ 549755813886 := by
    have : (n : Int) * 1 ≤ n * (|(e : Int) - 281474976710529| + 2) :=
      mul_le_mul_of_nonneg_left (by linarith [abs_nonneg ((e : Int) - 281474976710529)]) (by positivity)
    omega
  generalize (n : Int) * ((e : Int) - 281474976710529) = P at *
  have dp : DPair 281474976710529 e' 281474976710529 e' := ⟨⟨one_pair.g₁, Ge.he ⟨by omega, by omega⟩, one_pair.x₁, ⟨by omega, by omega⟩,
    ⟨0, by omega⟩, ⟨0, by omega⟩⟩, by omega, by omega⟩
  obtain ⟨m'', e'', d1, d2, d3, d4, d5⟩ := div_err' (a := false) (b := psign s n) (m₁ := 2 ^ 127) (e₁ := 281474976710529)
    (m₂ := m') (e₂ := e') ⟨by norm_num, by norm_num⟩ g1 dp.toDMod (by omega) (dp.np ⟨by norm_num, by norm_num⟩ g1) rfl
  have hone : mg (2 ^ 127) 281474976710529 = 1 := by simp [mg]; norm_num
  rw [hone] at d4 d5
  have hp := mg_pos (e := e') g1
  have hq := pow_pos (mg_pos (e := e) hm) n
  generalize mg m e ^ n = q at *
  generalize mg m' e' = p at *
  refine ⟨m'', e'', ?_, d1, d2, ?_, ?_⟩
  · rw [powi, i64Abs_c (by omega), pure_bind, Int.natAbs_neg, Int.natAbs_natCast, h1, pure_bind, if_pos (by omega),
      show ONE = mk' false (2 ^ 127) 281474976710529 by decide +kernel, d3]
    congr 2
    simp
  · refine le_trans ?_ d4
    rw [one_div]
    exact inv_anti₀ hp g5
  · refine le_trans d5 ?_
    have hnq : (n : ℚ) ≤ 549755813886 := by exact_mod_cast hn'
    have hn0 : (0 : ℚ) ≤ n := by positivity
    have hw : (0 : ℚ) < 1 / 2 ^ 124 := by norm_num
    have hw2 : (549755813886 * 549755813888 : ℚ) * (1 / 2 ^ 124) ≤ 1 := by norm_num
    rw [div_eq_mul_one_div (n : ℚ)] at g4
    rw [div_eq_mul_one_div ((n : ℚ) + 2)]
    generalize (1 : ℚ) / 2 ^ 124 = w at *
    rw [one_div, inv_mul_le_iff₀ hp, ← mul_assoc, mul_comm p, mul_assoc, ← div_eq_inv_mul, le_div_iff₀ hq]
    have hnn : (n : ℚ) * (n + 2) * w ≤ 1 := by
      refine le_trans (mul_le_mul_of_nonneg_right (mul_le_mul hnq (by linarith : (n : ℚ) + 2 ≤ 549755813888) (by linarith) (by norm_num)) hw.le) hw2
    have h5 : (1 + w) ≤ (1 - n * w) * (1 + (n + 2) * w) := by nlinarith
    calc (1 + w) * q ≤ (1 - n * w) * (1 + (n + 2) * w) * q := mul_le_mul_of_nonneg_right h5 hq.le
      _ = (q * (1 - n * w)) * (1 + (n + 2) * w) := by ring
      _ ≤ p * (1 + (n + 2) * w) := mul_le_mul_of_nonneg_right g4 (by positivity)

/-! ### outside of the range -/

theorem panics_bind {α β : Type} {m : M α} (h : Panics m) (f : α → M β) : Panics (m >>= f) := by
  obtain ⟨p, h⟩ := h
  exact ⟨p, by rw [h]; rfl⟩

/-- products keep the property `Q` (of a number, the exponent and the number of roundings), or, if `c` holds, may panic -/
def MulOr (c : Prop) (Q : F192 → Nat → Nat → Prop) : Prop := ∀ a b n₁ k₁ n₂ k₂, Q a n₁ k₁ → Q b n₂ k₂ →
  c ∧ Panics (F192.mul a b) ∨ ∃ z, F192.mul a b = pure z ∧ Q z (n₁ + n₂) (k₁ + k₂ + 1)

theorem powiLoop_or {c : Prop} {Q : F192 → Nat → Nat → Prop} (hQ : MulOr c Q) {aa : F192} (ha : Q aa 2 1) : ∀ (b : Nat) (r : F192) (n k : Nat), Q r n k →
    c ∧ Panics (powiLoop aa b r) ∨ ∃ r' n' k', powiLoop aa b r = pure (r', b % 2) ∧ Q r' n' k' ∧ n' + b % 2 = n + b ∧ k' + n = k + n' := by
  intro b
  induction b using Nat.strong_induction_on with
  | _ b ih =>
    intro r n k hr
    match b, ih with
    | 0, _ => exact Or.inr ⟨r, n, k, rfl, hr, rfl, rfl⟩
    | 1, _ => exact Or.inr ⟨r, n, k, rfl, hr, rfl, rfl⟩
    | b + 2, ih =>
      rw [powiLoop]
      rcases hQ _ _ _ _ _ _ hr ha with h | ⟨r₁, h1, h2⟩
      · exact Or.inl ⟨h.1, panics_bind h.2 _⟩
      rw [h1, pure_bind]
      rcases ih b (by omega) r₁ (n + 2) (k + 1 + 1) h2 with h | ⟨r', n', k', g1, g2, g3, g4⟩
      · exact Or.inl h
      exact Or.inr ⟨r', n', k', by rw [g1, Nat.add_mod_right], g2, by omega, by omega⟩

theorem powi_abs_or {c : Prop} {Q : F192 → Nat → Nat → Prop} (hQ : MulOr c Q) {x : F192} (h0 : Q ONE 0 0) (h1 : Q x 1 0) : ∀ b : Nat,
    c ∧ Panics (powi_abs x b) ∨ ∃ r k, powi_abs x b = pure r ∧ Q r b k ∧ (b < 8 → k ≤ b) ∧ (8 ≤ b → 4 * k + 4 ≤ 5 * b) := by
  intro b
  induction b using Nat.strong_induction_on with
  | _ b ih =>
    rw [powi_abs]
    by_cases h8 : b < 8
    · rw [if_pos h8]
      by_cases h2 : b < 2
      · rw [if_pos h2]
        right
        by_cases hb : b = 0
        · subst hb
          exact ⟨_, 0, rfl, h0, fun _ => le_refl _, by omega⟩
        · rw [if_neg hb]
          obtain rfl : b = 1 := by omega
          exact ⟨_, 0, rfl, h1, fun _ => by omega, by omega⟩
      · rw [if_neg h2]
        rcases hQ _ _ _ _ _ _ h1 h1 with h | ⟨aa, a1, a2⟩
        · exact Or.inl ⟨h.1, panics_bind h.2 _⟩
        rw [a1, pure_bind]
        rcases powiLoop_or hQ a2 b ONE 0 0 h0 with h | ⟨r', n', k', g1, g2, g3, g4⟩
        · exact Or.inl ⟨h.1, panics_bind h.2 _⟩
        rw [g1, pure_bind]
        by_cases hb : b % 2 = 1
        · rw [if_pos hb]
          rcases hQ _ _ _ _ _ _ g2 h1 with h | ⟨r, f1, f2⟩
          · exact Or.inl h
          right
          refine ⟨r, k' + 0 + 1, f1, ?_, fun _ => by omega, by omega⟩
          rwa [show n' + 1 = b by omega] at f2
        · rw [if_neg hb]
          right
          refine ⟨r', k', rfl, ?_, fun _ => by omega, by omega⟩
          rwa [show n' = b by omega] at g2
    · rw [if_neg h8]
      rcases ih (b / 2) (by omega) with h | ⟨r, k, a1, a2, a3, a4⟩
      · exact Or.inl ⟨h.1, panics_bind h.2 _⟩
      rw [a1, pure_bind]
      rcases hQ _ _ _ _ _ _ a2 a2 with h | ⟨q, g1, g2⟩
      · exact Or.inl ⟨h.1, panics_bind h.2 _⟩
      rw [g1, pure_bind]
      by_cases hb : b % 2 = 1
      · rw [if_pos hb]
        rcases hQ _ _ _ _ _ _ g2 h1 with h | ⟨p, f1, f2⟩
        · exact Or.inl h
        right
        refine ⟨p, k + k + 1 + 0 + 1, f1, ?_, by omega, fun _ => by omega⟩
        rwa [show b / 2 + b / 2 + 1 = b by omega] at f2
      · rw [if_neg hb]
        right
        refine ⟨q, k + k + 1, rfl, ?_, by omega, fun _ => by omega⟩
        rwa [show b / 2 + b / 2 = b by omega] at g2

/-- the exponent is at least `n * L` -/
def Big (L : Int) (x : F192) (n _ : Nat) : Prop := ∃ s m e, x = mk' s m e ∧ Nrm m ∧ 281474976710529 ≤ e ∧ e < B64 ∧
  (n : Int) * L ≤ (e : Int) - 281474976710529

theorem big_mul (L : Int) : MulOr True (Big L) := by
  rintro _ _ n₁ _ n₂ _ ⟨s, m, e, rfl, hm, e1, e2, e3⟩ ⟨s', m', e', rfl, hm', e1', e2', e3'⟩
  have hz : ¬Z s m e := nz_exp (by omega)
  have hz' : ¬Z s' m' e' := nz_exp (by omega)
  by_cases h : e + e' < B64
  · right
    obtain ⟨n, f, g1, g2, g3, g4, g5, g6, -⟩ := mul_c hm hm' hz hz' (by omega) h
    refine ⟨_, g6, _, n, f, rfl, g1, by omega, g2, ?_⟩
    push_cast
    rw [add_mul]
    omega
  · left
    refine ⟨trivial, .overflow, ?_⟩
    rw [mul, is_zero_mk hm, is_zero_mk hm', decide_eq_false (by omega), decide_eq_false (by omega), if_neg (by simp), u64Add, uAdd, mk_exp, mk_exp,
      if_neg h]
    rfl

/-- zero, or the exponent is at most `n * L + k` -/
def Small (L : Int) (x : F192) (n k : Nat) : Prop := x = ZERO ∨ ∃ s m e, x = mk' s m e ∧ Nrm m ∧ ¬Z s m e ∧ mg m e ≤ 1 ∧
  (e : Int) - 281474976710529 ≤ (n : Int) * L + k

theorem mg_base : mg 170141183460469231731687303715884105728 281474976710529 = 1 := by
  unfold mg; norm_num

theorem exp_of_le_one {m e : Nat} (h : Nrm m) (h1 : mg m e ≤ 1) : e ≤ 281474976710529 := by
  by_contra hc
  have := (mg_lt_iff (e₁ := 281474976710529) (e₂ := e) ⟨le_refl S127, by norm_num⟩ h).2 (Or.inl (by omega))
  have h2 := mg_base
  linarith

theorem small_mul (L : Int) : MulOr False (Small L) := by
  rintro a b n₁ k₁ n₂ k₂ ha hb
  right
  by_cases hab : a = ZERO ∨ b = ZERO
  · refine ⟨ZERO, ?_, Or.inl rfl⟩
    rw [mul, is_zero_eq, is_zero_eq, if_pos (by simpa using hab)]
  obtain ⟨s, m, e, rfl, hm, hz, e2, e3⟩ := ha.resolve_left fun h => hab (Or.inl h)
  obtain ⟨s', m', e', rfl, hm', hz', e2', e3'⟩ := hb.resolve_left fun h => hab (Or.inr h)
  have l1 := exp_of_le_one hm e2
  have l2 := exp_of_le_one hm' e2'
  by_cases h : e + e' < 281474976710656
  · refine ⟨ZERO, ?_, Or.inl rfl⟩
    unfold Z at hz hz'
    rw [mul, is_zero_mk hm, is_zero_mk hm', decide_eq_false hz, decide_eq_false hz', if_neg (by simp), u64Add, uAdd, mk_exp, mk_exp,
      if_pos (by omega), pure_bind, show EXP_COEFF = 281474976710656 from rfl, if_pos h]
  · obtain ⟨n, f, g1, g2, g3, g4, g5, g6, g7, -⟩ := mul_c hm hm' hz hz' (by omega) (by omega)
    refine ⟨_, g6, Or.inr ⟨_, n, f, rfl, g1, nz_exp g3, ?_, ?_⟩⟩
    · exact g7.trans (mul_le_one₀ e2 (mg_pos hm').le e2')
    push_cast
    rw [add_mul]
    omega

theorem powi_overflow {s : Bool} {m e n : Nat} (hm : Nrm m) (h1 : 281474976710529 ≤ e) (h2 : e < B64)
    (hn : B64 ≤ (n : Int) * ((e : Int) - 281474976710529) + 281474976710529) : Panics (powi (mk' s m e) n) := by
  rw [powi, i64Abs_c (by omega), pure_bind, Int.natAbs_natCast]
  rcases powi_abs_or (big_mul ((e : Int) - 281474976710529)) (x := mk' s m e)
    ⟨false, S127, 281474976710529, by decide +kernel, ⟨le_refl _, by norm_num⟩, by norm_num, by norm_num, by norm_num⟩
    ⟨s, m, e, rfl, hm, h1, h2, by push_cast; omega⟩ n with h | ⟨r, k, -, ⟨s', m', e', rfl, -, -, g1, g2⟩, -⟩
  · exact panics_bind h.2 _
  · omega

theorem powi_underflow {s : Bool} {m e n : Nat} (hm : Nrm m) (h1 : mg m e ≤ 1) (h2 : ¬Z s m e)
    (hn : (n : Int) * (4 * ((e : Int) - 281474976710529) + 5) < -1125899906842116) : powi (mk' s m e) n = pure ZERO := by
  rw [powi, i64Abs_c (by omega), pure_bind, Int.natAbs_natCast]
  rcases powi_abs_or (small_mul ((e : Int) - 281474976710529)) (x := mk' s m e)
    (Or.inr ⟨false, S127, 281474976710529, by decide +kernel, ⟨le_refl _, by norm_num⟩, nz_exp (by norm_num), mg_base.le, by norm_num⟩)
    (Or.inr ⟨s, m, e, rfl, hm, h2, h1, by push_cast; omega⟩) n with h | ⟨r, k, h1, rfl | ⟨s', m', e', rfl, -, g1, -, g2⟩, h3, h4⟩
  · exact h.1.elim
  · rw [h1, pure_bind, if_neg (by omega)]
  · rw [mul_add, mul_left_comm] at hn
    omega

end F192
end Hmath
