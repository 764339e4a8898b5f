import Verif.Props.Fp192Log
import Verif.Props.Fp192Div
import Verif.Proofs.Fp192Print
import Verif.Model.Fp192Trigo

/-!
# 192-bit floating point numbers: tools for error bounds
-/

namespace Hmath
namespace F192

open Props

/-- zero, or of a magnitude between `2^-K` and `2^K` -/
def Rng (K : ℤ) (x : F192) : Prop := FValid x ∧ (fval x = 0 ∨ (2 ^ (-K) ≤ |fval x| ∧ |fval x| ≤ 2 ^ K))

theorem Rng.mono {K L : ℤ} {x : F192} (h : Rng K x) (hL : K ≤ L) : Rng L x := by
  obtain ⟨h1, h2⟩ := h
  refine ⟨h1, h2.imp_right fun ⟨a, b⟩ => ⟨le_trans ?_ a, le_trans b ?_⟩⟩
  · exact zpow_le_zpow_right₀ (by norm_num) (by omega)
  · exact zpow_le_zpow_right₀ (by norm_num) hL

/-- the exponent field -/
theorem Rng.exp {K : ℤ} {x : F192} (h : Rng K x) : fval x = 0 ∨ (281474976710656 - 128 - K < x.exp ∧ (x.exp : ℤ) ≤ 281474976710656 + K - 127) := by
  obtain ⟨h1, h2⟩ := h
  by_cases h0 : fval x = 0
  · exact Or.inl h0
  right
  obtain ⟨s, m, e, hm, he, hz, rfl, hv⟩ := mk_of_not_zero h1 h0
  obtain ⟨a, b⟩ := h2.resolve_left h0
  rw [hv, abs_mul, abs_sgn, one_mul, abs_of_pos (mg_pos hm)] at a b
  have := exp_le hm b
  have := exp_ge hm a
  rw [mk_exp]
  omega

theorem Rng.inRange {K : ℤ} {x : F192} (h : Rng K x) (hK : K ≤ 4294967000) : InRange x := by
  rcases h.exp with h0 | ⟨a, b⟩
  · exact Or.inl ((fval_eq_zero h.1).1 h0)
  · right
    constructor <;> omega

theorem rng_of_exp {x : F192} (hx : FValid x) {K : ℕ} (h : x = ZERO ∨ (2 ^ 48 - K < x.exp ∧ x.exp < 2 ^ 48 + K)) (hK : K ≤ 2 ^ 40) : Rng (K + 128) x := by
  refine ⟨hx, ?_⟩
  by_cases h0 : fval x = 0
  · exact Or.inl h0
  right
  have h' := h.resolve_left fun hc => h0 (by rw [hc]; rfl)
  obtain ⟨s, m, e, hm, he, hz, rfl, hv⟩ := mk_of_not_zero hx h0
  rw [mk_exp] at h'
  rw [hv, abs_mul, abs_sgn, one_mul, abs_of_pos (mg_pos hm), mg_eq, ulp]
  have m1 : (2 : ℚ) ^ (127 : ℤ) ≤ m := by exact_mod_cast hm.1
  have m2 : (m : ℚ) ≤ (2 : ℚ) ^ (128 : ℤ) := by exact_mod_cast hm.2.le
  constructor
  · refine le_trans ?_ (mul_le_mul_of_nonneg_right m1 (zpow_nonneg (by norm_num) _))
    rw [← zpow_add₀ (by norm_num)]
    exact zpow_le_zpow_right₀ (by norm_num) (by omega)
  · refine (mul_le_mul_of_nonneg_right m2 (zpow_nonneg (by norm_num) _)).trans ?_
    rw [← zpow_add₀ (by norm_num)]
    exact zpow_le_zpow_right₀ (by norm_num) (by omega)

/-- between powers of two -/
theorem noCarry_between {v : ℚ} (j : ℤ) (h1 : 2 ^ j ≤ |v|) (h2 : |v| ≤ 2 ^ j * (2 - 1 / 2 ^ 100)) : NoCarry v := by
  intro k
  rcases le_or_gt (128 + k) j with h | h
  · right
    refine le_trans ?_ h1
    rw [show (2 : ℚ) ^ 128 = 2 ^ (128 : ℤ) by norm_num, ← zpow_add₀ (by norm_num)]
    exact zpow_le_zpow_right₀ (by norm_num) h
  · left
    refine lt_of_le_of_lt h2 ?_
    have hp : (2 : ℚ) ^ j ≤ 2 ^ 127 * 2 ^ k := by
      rw [show (2 : ℚ) ^ 127 = 2 ^ (127 : ℤ) by norm_num, ← zpow_add₀ (by norm_num)]
      exact zpow_le_zpow_right₀ (by norm_num) (by omega)
    have hk : (0 : ℚ) < 2 ^ k := zpow_pos (by norm_num) k
    refine lt_of_le_of_lt (mul_le_mul_of_nonneg_right hp (by norm_num)) ?_
    generalize (2 : ℚ) ^ k = u at *
    rw [mul_comm (2 ^ 127) u, mul_assoc, mul_comm u]
    refine mul_lt_mul_of_pos_right ?_ hk
    norm_num

/-- products -/
theorem mulR {K : ℤ} {x y : F192} (hx : Rng K x) (hy : Rng K y) (hK : K ≤ 4294967000) :
    ∃ z, F192.mul x y = pure z ∧ Rng (2 * K + 1) z ∧ |fval z - fval x * fval y| ≤ 1 / 2 ^ 124 * |fval x * fval y| ∧ |fval z| ≤ |fval x * fval y| ∧
      (0 ≤ fval x * fval y → 0 ≤ fval z) := by
  have hr : fval x * fval y = 0 ∨ (2 ^ 48 ≤ x.exp + y.exp ∧ x.exp + y.exp < 2 ^ 64) := by
    rcases hx.exp with h | ⟨a, b⟩
    · left; rw [h, zero_mul]
    rcases hy.exp with h | ⟨c, d⟩
    · left; rw [h, mul_zero]
    right
    constructor <;> omega
  obtain ⟨z, z1, ⟨z2, z3, z4⟩, z5⟩ := C41_mul hx.1 hy.1 hr
  refine ⟨z, z1, ⟨z2, ?_⟩, z4, z5, ?_⟩
  · by_cases h0 : fval x * fval y = 0
    · left
      rw [h0, _root_.abs_zero] at z5
      exact abs_eq_zero.1 (le_antisymm z5 (abs_nonneg _))
    right
    obtain ⟨a, b⟩ := hx.2.resolve_left (left_ne_zero_of_mul h0)
    obtain ⟨c, d⟩ := hy.2.resolve_left (right_ne_zero_of_mul h0)
    have hp : (0 : ℚ) < 2 ^ (-K) := zpow_pos (by norm_num) _
    have hp' : (0 : ℚ) < 2 ^ K := zpow_pos (by norm_num) _
    have e1 : (2 : ℚ) ^ (-(2 * K + 1)) = 1 / 2 * (2 ^ (-K) * 2 ^ (-K)) := by
      rw [← zpow_add₀ (by norm_num), show (1 / 2 : ℚ) = 2 ^ (-1 : ℤ) by norm_num, ← zpow_add₀ (by norm_num)]
      congr 1; ring
    have e2 : (2 : ℚ) ^ (2 * K + 1) = 2 * (2 ^ K * 2 ^ K) := by
      rw [← zpow_add₀ (by norm_num), ← zpow_one_add₀ (by norm_num)]
      congr 1; ring
    have lo := mul_le_mul a c hp.le (abs_nonneg _)
    have hi := mul_le_mul b d (abs_nonneg _) hp'.le
    rw [← abs_mul] at lo hi
    rw [e1, e2]
    have hpp := mul_pos hp hp
    constructor
    · have t := abs_sub_abs_le_abs_sub (fval x * fval y) (fval z)
      rw [abs_sub_comm] at t
      have : (1 : ℚ) / 2 ^ 124 * |fval x * fval y| ≤ 1 / 2 * |fval x * fval y| := mul_le_mul_of_nonneg_right (by norm_num) (abs_nonneg _)
      linarith
    · have := abs_nonneg (fval x * fval y)
      linarith
  · intro h
    rcases h.eq_or_lt with h | h
    · rw [← h, _root_.abs_zero] at z5
      exact (abs_eq_zero.1 (le_antisymm z5 (abs_nonneg _))).ge
    · rw [sign_pos h] at z3
      exact (sign_eq_one_iff.1 z3).le

theorem mulR2 {K L : ℤ} {x y : F192} (hx : Rng K x) (hy : Rng L y) (hK : K + L ≤ 2 ^ 40) (_ : K ≤ 2 ^ 40) (_ : L ≤ 2 ^ 40) :
    ∃ z, F192.mul x y = pure z ∧ Rng (K + L + 1) z ∧ |fval z - fval x * fval y| ≤ 1 / 2 ^ 124 * |fval x * fval y| ∧
      (0 ≤ fval x * fval y → 0 ≤ fval z) := by
  have hr : fval x * fval y = 0 ∨ (2 ^ 48 ≤ x.exp + y.exp ∧ x.exp + y.exp < 2 ^ 64) := by
    rcases hx.exp with h | ⟨a, b⟩
    · left; rw [h, zero_mul]
    rcases hy.exp with h | ⟨c, d⟩
    · left; rw [h, mul_zero]
    right
    constructor <;> omega
  obtain ⟨z, z1, ⟨z2, z3, z4⟩, z5⟩ := C41_mul hx.1 hy.1 hr
  refine ⟨z, z1, ⟨z2, ?_⟩, z4, ?_⟩
  · by_cases h0 : fval x * fval y = 0
    · left
      rw [h0, _root_.abs_zero] at z5
      exact abs_eq_zero.1 (le_antisymm z5 (abs_nonneg _))
    right
    obtain ⟨a, b⟩ := hx.2.resolve_left (left_ne_zero_of_mul h0)
    obtain ⟨c, d⟩ := hy.2.resolve_left (right_ne_zero_of_mul h0)
    have hp : (0 : ℚ) < 2 ^ (-L) := zpow_pos (by norm_num) _
    have hp0 : (0 : ℚ) < 2 ^ (-K) := zpow_pos (by norm_num) _
    have hp' : (0 : ℚ) < 2 ^ K := zpow_pos (by norm_num) _
    have e1 : (2 : ℚ) ^ (-(K + L + 1)) = 1 / 2 * (2 ^ (-K) * 2 ^ (-L)) := by
      rw [← zpow_add₀ (by norm_num), show (1 / 2 : ℚ) = 2 ^ (-1 : ℤ) by norm_num, ← zpow_add₀ (by norm_num)]
      congr 1; ring
    have e2 : (2 : ℚ) ^ (K + L + 1) = 2 * (2 ^ K * 2 ^ L) := by
      rw [← zpow_add₀ (by norm_num), ← zpow_one_add₀ (by norm_num)]
      congr 1; ring
    have lo := mul_le_mul a c hp.le (abs_nonneg _)
    have hi := mul_le_mul b d (abs_nonneg _) hp'.le
    rw [← abs_mul] at lo hi
    rw [e1, e2]
    have hpp := mul_pos hp0 hp
    constructor
    · have t := abs_sub_abs_le_abs_sub (fval x * fval y) (fval z)
      rw [abs_sub_comm] at t
      have : (1 : ℚ) / 2 ^ 124 * |fval x * fval y| ≤ 1 / 2 * |fval x * fval y| := mul_le_mul_of_nonneg_right (by norm_num) (abs_nonneg _)
      linarith
    · have := abs_nonneg (fval x * fval y)
      linarith
  · intro h
    rcases h.eq_or_lt with h | h
    · rw [← h, _root_.abs_zero] at z5
      exact (abs_eq_zero.1 (le_antisymm z5 (abs_nonneg _))).ge
    · rw [sign_pos h] at z3
      exact (sign_eq_one_iff.1 z3).le

theorem addR {K : ℤ} {x y : F192} (hx : Rng K x) (hy : Rng K y) (hK : K ≤ 4294967000) (h : NoCarry (fval x + fval y)) :
    ∃ z, F192.add x y = pure z ∧ FValid z ∧ |fval z - (fval x + fval y)| ≤ 1 / 2 ^ 127 * |fval x + fval y| := by
  obtain ⟨z, z1, z2, -, z3⟩ := C41_add_partial hx.1 hy.1 (hx.inRange hK) (hy.inRange hK) (Or.inr h)
  exact ⟨z, z1, z2, z3⟩

theorem subR {K : ℤ} {x y : F192} (hx : Rng K x) (hy : Rng K y) (hK : K ≤ 4294967000) (h : NoCarry (fval x - fval y)) :
    ∃ z, F192.sub x y = pure z ∧ FValid z ∧ |fval z - (fval x - fval y)| ≤ 1 / 2 ^ 127 * |fval x - fval y| := by
  obtain ⟨z, z1, z2, -, z3⟩ := C41_sub_partial hx.1 hy.1 (hx.inRange hK) (hy.inRange hK) (Or.inr h)
  exact ⟨z, z1, z2, z3⟩

theorem shrR {K : ℤ} {x : F192} (hx : Rng K x) {k : ℕ} (hk : k ≤ 1000) (hK : K ≤ 2 ^ 40) : Rng (K + k) (F192.shr x k) ∧ fval (F192.shr x k) = fval x / 2 ^ k := by
  obtain ⟨y1, y2⟩ := C59_shr_partial (k := k) hx.1 (by
    rcases hx.exp with h | h
    · right; exact (fval_eq_zero hx.1).1 h
    · left; omega)
  refine ⟨⟨y1, ?_⟩, y2⟩
  rw [y2]
  rcases hx.2 with h | ⟨a, b⟩
  · left; rw [h, zero_div]
  right
  rw [abs_div, abs_of_pos (show (0 : ℚ) < 2 ^ k by positivity)]
  have hk1 : (1 : ℚ) ≤ 2 ^ k := one_le_pow₀ (by norm_num)
  constructor
  · rw [le_div_iff₀ (by positivity), ← zpow_natCast, ← zpow_add₀ (by norm_num), neg_add, neg_add_cancel_right]
    exact a
  · refine (div_le_self (abs_nonneg _) hk1).trans (b.trans ?_)
    exact zpow_le_zpow_right₀ (by norm_num) (by omega)

theorem divR {K : ℤ} {x : F192} (hx : Rng K x) {a : ℤ} (h0 : 0 < a) (h1 : a < 2 ^ 31) (hK : K ≤ 2 ^ 40) : ∃ z, F192.div_i32 x a = pure z ∧ Rng (K + 32) z ∧
    |fval z - fval x / a| ≤ 1 / 2 ^ 127 * |fval x / a| ∧ |fval z| ≤ |fval x / a| ∧ (0 ≤ fval x → 0 ≤ fval z) := by
  obtain ⟨z, z1, ⟨z2, z3, z4, -⟩, ⟨-, -, z5⟩⟩ := C41_div_i32_partial (a := a) hx.1 ⟨by omega, by omega⟩ (by omega) (by omega) (by
    rcases hx.exp with h | h
    · right; exact (fval_eq_zero hx.1).1 h
    · left; omega)
  have ha : (1 : ℚ) ≤ a := by exact_mod_cast h0
  have ha' : (a : ℚ) ≤ 2 ^ 31 := by exact_mod_cast h1.le
  refine ⟨z, z1, ⟨z2, ?_⟩, z5, z4, ?_⟩
  · rcases hx.2 with h | ⟨b, c⟩
    · left
      rw [h, zero_div, _root_.abs_zero] at z4
      exact abs_eq_zero.1 (le_antisymm z4 (abs_nonneg _))
    right
    rw [abs_div, abs_of_pos (show (0 : ℚ) < a by linarith)] at z4
    constructor
    · have t := abs_sub_abs_le_abs_sub (fval x / a) (fval z)
      rw [abs_sub_comm] at t
      have h2 : 1 / 2 ^ 127 * |fval x / a| ≤ 1 / 2 * |fval x / a| := mul_le_mul_of_nonneg_right (by norm_num) (abs_nonneg _)
      have h3 : 1 / 2 * |fval x / a| ≤ |fval z| := by linarith
      refine le_trans ?_ h3
      rw [abs_div, abs_of_pos (show (0 : ℚ) < a by linarith), ← mul_div_assoc, le_div_iff₀ (by linarith)]
      have e1 : (2 : ℚ) ^ (-(K + 32)) = 2 ^ (-K) * (1 / 2 ^ 32) := by
        rw [neg_add, zpow_add₀ (by norm_num)]
        norm_num
      have hp : (0 : ℚ) < 2 ^ (-K) := zpow_pos (by norm_num) _
      rw [e1]
      generalize (2 : ℚ) ^ (-K) = u at *
      have := mul_le_mul_of_nonneg_left ha' (mul_pos hp (show (0 : ℚ) < 1 / 2 ^ 32 by norm_num)).le
      norm_num at this ⊢
      linarith
    · refine z4.trans ((div_le_self (abs_nonneg _) ha).trans (c.trans ?_))
      exact zpow_le_zpow_right₀ (by norm_num) (by omega)
  · intro h
    rcases h.eq_or_lt with h | h
    · rw [← h, zero_div, _root_.abs_zero] at z4
      exact (abs_eq_zero.1 (le_antisymm z4 (abs_nonneg _))).ge
    · rw [sign_pos (div_pos h (by linarith))] at z3
      exact (sign_eq_one_iff.1 z3).le

/-- numbers are multiples of their unit -/
theorem multiple {x : F192} (hx : FValid x) {k : ℤ} (h : 2 ^ (127 - k) ≤ |fval x|) : ∃ N : ℤ, fval x = N * 2 ^ (-k) := by
  have h0 : fval x ≠ 0 := by
    intro hc
    rw [hc, _root_.abs_zero] at h
    exact absurd h (not_le.2 (zpow_pos (by norm_num) _))
  obtain ⟨s, m, e, hm, he, hz, rfl, hv⟩ := mk_of_not_zero hx h0
  rw [hv, abs_mul, abs_sgn, one_mul, abs_of_pos (mg_pos hm)] at h
  have := exp_ge hm h
  obtain ⟨n, hn⟩ : ∃ n : ℕ, (e : ℤ) - 2 ^ 48 = n + -k := ⟨((e : ℤ) - 281474976710656 + k).toNat, by omega⟩
  rw [hv, mg_eq, ulp, hn, zpow_add₀ (by norm_num), zpow_natCast]
  cases s
  · refine ⟨m * 2 ^ n, ?_⟩
    rw [sgn_false]
    push_cast
    ring
  · refine ⟨-(m * 2 ^ n), ?_⟩
    rw [sgn_true]
    push_cast
    ring

/-- a number of the format with a given value -/
theorem exists_dyadic {N : ℤ} (hN : |N| < 2 ^ 128) {k : ℕ} (hk : k ≤ 2 ^ 40) : ∃ w, FValid w ∧ fval w = N * 2 ^ (-k : ℤ) := by
  have key : ∀ n : ℕ, n < 2 ^ 128 → ∃ w, FValid w ∧ fval w = n * 2 ^ (-k : ℤ) ∧ w ≠ negTiny := by
    intro n hn
    obtain ⟨x, -, x2, x3⟩ := C40_from_uint hn
    have hx : Rng 128 x := by
      refine ⟨x2, ?_⟩
      rw [x3]
      rcases Nat.eq_zero_or_pos n with h | h
      · left; rw [h]; rfl
      · right
        rw [abs_of_nonneg (by positivity)]
        constructor
        · have : (1 : ℚ) ≤ n := by exact_mod_cast h
          refine le_trans ?_ this
          norm_num
        · have : (n : ℚ) ≤ 2 ^ 128 := by exact_mod_cast hn.le
          exact_mod_cast this
    obtain ⟨y1, y2⟩ := C59_shr_partial (k := k) x2 (by
      rcases hx.exp with h | h
      · right; exact (fval_eq_zero x2).1 h
      · left; omega)
    have y2' : fval (F192.shr x k) = n * 2 ^ (-k : ℤ) := by rw [y2, x3, zpow_neg, zpow_natCast, div_eq_mul_inv]
    refine ⟨_, y1, y2', ?_⟩
    intro hc
    rw [hc] at y2'
    have : fval negTiny < 0 := by
      have hn : negTiny = mk' true 170141183460469231731687303715884105728 0 := by decide
      rw [hn, fval_mk ⟨by norm_num, by norm_num⟩ nz_true, sgn_true]
      have := mg_pos (m := 170141183460469231731687303715884105728) (e := 0) ⟨by norm_num, by norm_num⟩
      linarith
    rw [y2'] at this
    have h2 : (0 : ℚ) < 2 ^ (-k : ℤ) := zpow_pos (by norm_num) _
    have : (0 : ℚ) ≤ n * 2 ^ (-k : ℤ) := by positivity
    linarith
  obtain ⟨n, rfl | rfl⟩ := N.eq_nat_or_neg
  · obtain ⟨w, w1, w2, -⟩ := key n (by rw [Nat.abs_cast] at hN; exact_mod_cast hN)
    exact ⟨w, w1, by exact_mod_cast w2⟩
  · obtain ⟨w, w1, w2, w3⟩ := key n (by rw [abs_neg, Nat.abs_cast] at hN; exact_mod_cast hN)
    obtain ⟨-, -, v1, v2, -⟩ := C59_sign_partial w1 w3
    exact ⟨_, v1, by rw [v2, w2]; push_cast; ring⟩

/-- a difference that needs no rounding is exact -/
theorem sub_dyadic {x y : F192} (hx : Rng 1000000 x) (hy : Rng 1000000 y) (h0 : 0 < fval x) (h1 : 0 < fval y) {N : ℤ} (hN : |N| < 2 ^ 128) {k : ℕ} (hk : k ≤ 1000)
    (h : fval x - fval y = N * 2 ^ (-k : ℤ)) : ∃ z, F192.sub x y = pure z ∧ FValid z ∧ fval z = fval x - fval y := by
  by_cases hd : fval x - fval y = 0
  · obtain ⟨z, z1, z2, z3⟩ := subR hx hy (by norm_num) (by rw [h]; exact noCarry_dyadic hN)
    rw [hd, _root_.abs_zero, mul_zero, sub_zero] at z3
    exact ⟨z, z1, z2, by rw [hd]; exact abs_eq_zero.1 (le_antisymm z3 (abs_nonneg _))⟩
  obtain ⟨w, w1, w2⟩ := exists_dyadic hN (k := k) (by omega)
  have ex := hx.exp.resolve_left h0.ne'
  have ey := hy.exp.resolve_left h1.ne'
  obtain ⟨s, m, e, hm, he, hz, rfl, hv⟩ := mk_of_not_zero hx.1 h0.ne'
  obtain ⟨s', m', e', hm', he', hz', rfl, hv'⟩ := mk_of_not_zero hy.1 h1.ne'
  have hs : s = false := by
    cases s
    · rfl
    · rw [hv, sgn_true] at h0
      have := mg_pos (e := e) hm
      linarith
  have hs' : s' = false := by
    cases s'
    · rfl
    · rw [hv', sgn_true] at h1
      have := mg_pos (e := e') hm'
      linarith
  subst hs hs'
  rw [mk_exp] at ex ey
  have hsub := sub_same (s := false) hm hm' (e₁ := e) (e₂ := e') ⟨by omega, by omega⟩ ⟨by omega, by omega⟩
  rw [← hv, ← hv', h, ← w2] at hsub
  rw [hsub]
  have hne : fval w ≠ 0 := by rw [w2, ← h]; exact hd
  have hcond : 2 ^ (128 - 2 ^ 48 : ℤ) ≤ |fval w| ∧ |fval w| < 2 ^ (127 + 2 ^ 64 - 2 ^ 48 : ℤ) := by
    rw [w2, abs_mul, abs_of_pos (zpow_pos (by norm_num : (0 : ℚ) < 2) _), ← Int.cast_abs]
    have n1 : (1 : ℚ) ≤ ((|N| : ℤ) : ℚ) := by
      have : N ≠ 0 := by
        rintro rfl
        rw [w2] at hne
        exact hne (by norm_num)
      exact_mod_cast Int.one_le_abs this
    have n2 : ((|N| : ℤ) : ℚ) ≤ 2 ^ (128 : ℤ) := by exact_mod_cast hN.le
    have hp : (0 : ℚ) < 2 ^ (-k : ℤ) := zpow_pos (by norm_num) _
    constructor
    · refine le_trans (le_trans ?_ (one_mul _).ge) (mul_le_mul_of_nonneg_right n1 hp.le)
      exact zpow_le_zpow_right₀ (by norm_num) (by omega)
    · refine lt_of_le_of_lt (mul_le_mul_of_nonneg_right n2 hp.le) ?_
      rw [← zpow_add₀ (by norm_num)]
      exact zpow_lt_zpow_right₀ (by norm_num) (by omega)
  have hr := rval_ofRat (fval w)
  obtain ⟨z, z1, ⟨z2, -, z3⟩, -⟩ := C42_from_ratio_partial (r := ofRat (fval w)) (rvalid_ofRat _) (by rw [hr]; exact hcond.1) (by rw [hr]; exact hcond.2)
    (by rw [hr, w2]; exact noCarry_dyadic hN)
  have := z3 w w1
  rw [hr, sub_self, _root_.abs_zero] at this
  refine ⟨z, z1, z2, ?_⟩
  have := abs_eq_zero.1 (le_antisymm this (abs_nonneg _))
  rw [h, ← w2]
  linarith

/-! ### Horner's scheme -/

def Lit.val : Lit → ℕ
  | .i32 n => n
  | .u64 n => n

theorem Lit.into_c {c : Lit} (h : c.val < 2 ^ 64) : ∃ x, c.into = pure x ∧ Rng 64 x ∧ fval x = c.val := by
  have hr : ∀ x, FValid x → fval x = c.val → Rng 64 x := by
    intro x hx hv
    refine ⟨hx, ?_⟩
    rw [hv]
    rcases Nat.eq_zero_or_pos c.val with h0 | h0
    · left; rw [h0]; rfl
    · right
      rw [abs_of_nonneg (by positivity)]
      constructor
      · have : (1 : ℚ) ≤ c.val := by exact_mod_cast h0
        refine le_trans ?_ this
        norm_num
      · have : (c.val : ℚ) ≤ 2 ^ 64 := by exact_mod_cast h.le
        exact_mod_cast this
  cases c with
  | i32 n =>
    obtain ⟨x, x1, x2, x3⟩ := C40_from_int_partial (n := n) (by simp only [Lit.val] at h; omega) (by simp only [Lit.val] at h; omega)
    have x3' : fval x = (Lit.i32 n).val := by rw [x3, Lit.val]; norm_num
    exact ⟨x, x1, hr x x2 x3', x3'⟩
  | u64 n =>
    obtain ⟨x, x1, x2, x3⟩ := C40_from_uint (n := n) (by simp only [Lit.val] at h; omega)
    exact ⟨x, x1, hr x x2 x3, x3⟩

/-- one step with exact arithmetic -/
def hval (q : ℚ) (T : ℚ) (p : Bool × Lit) : ℚ := T * q + (if p.1 then 1 else -1) * p.2.val

theorem rng_mid {x : F192} (hx : FValid x) (h1 : 1 ≤ |fval x|) (h2 : |fval x| ≤ 2 ^ 64) : Rng 64 x := by
  refine ⟨hx, Or.inr ⟨le_trans ?_ h1, le_trans h2 ?_⟩⟩
  · norm_num
  · norm_num

theorem hstep {K : ℤ} {x r : F192} (hx : Rng K x) (hr : FValid r) {q Q T B : ℚ} (hK : 64 ≤ K) (hK' : K ≤ 4294966500) (hq : |fval x - q| ≤ |q| / 2 ^ 124) (hQ : |q| ≤ Q)
    (h1 : 1 ≤ |fval r|) (h2 : |fval r - T| ≤ B / 2 ^ 123) (h3 : |T| ≤ B) (h4 : B ≤ 2 ^ 63) (p : Bool × Lit) (hp : p.2.val < 2 ^ 63) (hB : 2 * (Q * B) ≤ p.2.val)
    (hN : ∀ v : ℚ, |v - hval q T p| ≤ 2 * (Q * B + p.2.val) / 2 ^ 123 → NoCarry v ∧ 2 ≤ |v|) (l : List (Bool × Lit)) :
    ∃ z, horner x (p :: l) r = horner x l z ∧ FValid z ∧ 1 ≤ |fval z| ∧ |fval z - hval q T p| ≤ (Q * B + p.2.val) / 2 ^ 123 ∧ |hval q T p| ≤ Q * B + p.2.val := by
  have hB0 : 0 ≤ B := (abs_nonneg _).trans h3
  have hQ0 : 0 ≤ Q := (abs_nonneg _).trans hQ
  have hQB := mul_nonneg hQ0 hB0
  have hrB : |fval r| ≤ B * (1 + 1 / 2 ^ 123) := by
    have := abs_sub_abs_le_abs_sub (fval r) T
    have e : B * (1 + 1 / 2 ^ 123) = B + B / 2 ^ 123 := by ring
    linarith
  have hr' : Rng 64 r := by
    refine rng_mid hr h1 (hrB.trans ?_)
    refine (mul_le_mul_of_nonneg_right h4 (by norm_num)).trans ?_
    norm_num
  obtain ⟨m, m1, m2, m3, -⟩ := mulR2 hr' hx (by omega) (by omega) (by omega)
  obtain ⟨c, c1, c2, c3⟩ := Lit.into_c (c := p.2) (by omega)
  -- the product
  have hx' : |fval x| ≤ Q * (1 + 1 / 2 ^ 124) := by
    have := abs_sub_abs_le_abs_sub (fval x) q
    have e : Q * (1 + 1 / 2 ^ 124) = Q + Q / 2 ^ 124 := by ring
    have : |q| / 2 ^ 124 ≤ Q / 2 ^ 124 := by gcongr
    linarith
  have hpr : |fval m - T * q| ≤ Q * B * (22 / 10) / 2 ^ 123 := by
    have e : fval m - T * q = (fval m - fval r * fval x) + fval r * (fval x - q) + (fval r - T) * q := by ring
    have a1 : |fval m - fval r * fval x| ≤ 1 / 2 ^ 124 * (B * (1 + 1 / 2 ^ 123) * (Q * (1 + 1 / 2 ^ 124))) := by
      refine m3.trans (mul_le_mul_of_nonneg_left ?_ (by norm_num))
      rw [abs_mul]
      exact mul_le_mul hrB hx' (abs_nonneg _) (by positivity)
    have a2 : |fval r * (fval x - q)| ≤ B * (1 + 1 / 2 ^ 123) * (Q / 2 ^ 124) := by
      rw [abs_mul]
      refine mul_le_mul hrB (hq.trans ?_) (abs_nonneg _) (by positivity)
      gcongr
    have a3 : |(fval r - T) * q| ≤ B / 2 ^ 123 * Q := by
      rw [abs_mul]
      exact mul_le_mul h2 hQ (abs_nonneg _) (by positivity)
    rw [e]
    refine (abs_add_three _ _ _).trans ((add_le_add (add_le_add a1 a2) a3).trans ?_)
    have e2 : 1 / 2 ^ 124 * (B * (1 + 1 / 2 ^ 123) * (Q * (1 + 1 / 2 ^ 124))) + B * (1 + 1 / 2 ^ 123) * (Q / 2 ^ 124) + B / 2 ^ 123 * Q =
        Q * B * ((1 / 2 ^ 124 * ((1 + 1 / 2 ^ 123) * (1 + 1 / 2 ^ 124)) + (1 + 1 / 2 ^ 123) / 2 ^ 124) + 1 / 2 ^ 123) := by ring
    rw [e2, mul_div_assoc]
    exact mul_le_mul_of_nonneg_left (by norm_num) hQB
  have hc0 : (0 : ℚ) ≤ p.2.val := by positivity
  have hbound : |hval q T p| ≤ Q * B + p.2.val := by
    rw [hval]
    refine (abs_add_le _ _).trans (add_le_add ?_ ?_)
    · rw [abs_mul, mul_comm]
      exact mul_le_mul hQ h3 (abs_nonneg _) hQ0
    · rw [abs_mul, abs_of_nonneg hc0]
      split_ifs <;> norm_num
  -- the sum
  have hsum : ∀ (v : ℚ) (z : F192), v = fval m + (if p.1 then 1 else -1) * p.2.val → |fval z - v| ≤ 1 / 2 ^ 127 * |v| →
      1 ≤ |fval z| ∧ |fval z - hval q T p| ≤ (Q * B + p.2.val) / 2 ^ 123 := by
    intro v z hv hz
    have d : |v - hval q T p| ≤ Q * B * (22 / 10) / 2 ^ 123 := by
      rw [hv, hval, show fval m + (if p.1 = true then 1 else -1) * (p.2.val : ℚ) - (T * q + (if p.1 = true then 1 else -1) * (p.2.val : ℚ)) = fval m - T * q by ring]
      exact hpr
    have hv2 := (hN v (d.trans (by
      refine div_le_div_of_nonneg_right ?_ (by norm_num)
      linarith))).2
    have e1 := abs_sub_abs_le_abs_sub v (fval z)
    rw [abs_sub_comm] at e1
    constructor
    · have : 1 / 2 ^ 127 * |v| ≤ 1 / 2 * |v| := mul_le_mul_of_nonneg_right (by norm_num) (abs_nonneg _)
      linarith
    · have e3 := abs_sub_le (fval z) v (hval q T p)
      have e4 := abs_sub_abs_le_abs_sub v (hval q T p)
      have e5 : 1 / 2 ^ 127 * |v| ≤ 1 / 2 ^ 127 * (Q * B + p.2.val + Q * B * (22 / 10) / 2 ^ 123) := mul_le_mul_of_nonneg_left (by linarith) (by norm_num)
      have e6 : 1 / 2 ^ 127 * (Q * B + p.2.val + Q * B * (22 / 10) / 2 ^ 123) + Q * B * (22 / 10) / 2 ^ 123 ≤ (Q * B + p.2.val) / 2 ^ 123 := by
        generalize Q * B = b at *
        generalize (p.2.val : ℚ) = c at *
        rw [le_div_iff₀ (by norm_num)]
        have : (1 / 2 ^ 127 * (b + c + b * (22 / 10) / 2 ^ 123) + b * (22 / 10) / 2 ^ 123) * 2 ^ 123 = (b + c) / 16 + b * (22 / 10) / 2 ^ 127 + b * (22 / 10) := by ring
        rw [this]
        have : b * (22 / 10) / 2 ^ 127 ≤ b / 16 := by
          rw [mul_div_assoc, div_eq_mul_inv b]
          exact mul_le_mul_of_nonneg_left (by norm_num) hQB
        linarith
      linarith
  have hd : ∀ v : ℚ, v = fval m + (if p.1 then 1 else -1) * p.2.val → NoCarry v := by
    intro v hv
    refine (hN v ?_).1
    rw [hv, hval, show fval m + (if p.1 = true then 1 else -1) * (p.2.val : ℚ) - (T * q + (if p.1 = true then 1 else -1) * (p.2.val : ℚ)) = fval m - T * q by ring]
    refine hpr.trans (div_le_div_of_nonneg_right ?_ (by norm_num))
    linarith
  obtain ⟨b, c⟩ := p
  rw [horner, m1, pure_bind, c1, pure_bind]
  have c2' := c2.mono (show 64 ≤ 64 + K + 1 by omega)
  cases b
  · have e : fval m - fval ‹F192› = fval m + (if (false, c).1 then 1 else -1) * (false, c).2.val := by
      rw [c3, if_neg (by simp)]; ring
    obtain ⟨z, z1, z2, z3⟩ := subR m2 c2' (by omega) (hd _ e)
    obtain ⟨g1, g2⟩ := hsum _ z e z3
    refine ⟨z, ?_, z2, g1, g2, hbound⟩
    rw [if_neg (by simp), z1, pure_bind]
  · have e : fval m + fval ‹F192› = fval m + (if (true, c).1 then 1 else -1) * (true, c).2.val := by
      rw [c3, if_pos rfl]; ring
    obtain ⟨z, z1, z2, z3⟩ := addR m2 c2' (by omega) (hd _ e)
    obtain ⟨g1, g2⟩ := hsum _ z e z3
    refine ⟨z, ?_, z2, g1, g2, hbound⟩
    rw [if_pos rfl, z1, pure_bind]

/-- the bound of the values along the scheme -/
def hbd (Q B : ℚ) (l : List (Bool × Lit)) : ℚ := l.foldl (fun B p => Q * B + p.2.val) B

/-- no step comes near a power of two -/
def Good (Q : ℚ) : ℚ → List (Bool × Lit) → Prop
  | _, [] => True
  | B, p :: l => p.2.val < 2 ^ 63 ∧ 2 * (Q * B) ≤ p.2.val ∧ B ≤ 2 ^ 63 ∧ 2 ^ Nat.log 2 p.2.val ≤ p.2.val - 1001 / 1000 * (Q * B) - 1 ∧
      p.2.val + 1001 / 1000 * (Q * B) + 1 ≤ 2 ^ Nat.log 2 p.2.val * (2 - 1 / 2 ^ 100) ∧ 1 ≤ Nat.log 2 p.2.val ∧ Good Q (Q * B + p.2.val) l

instance decGood (Q : ℚ) : ∀ (B : ℚ) (l : List (Bool × Lit)), Decidable (Good Q B l)
  | _, [] => inferInstanceAs (Decidable True)
  | B, p :: l => by
    have := decGood Q (Q * B + p.2.val) l
    unfold Good
    infer_instance

theorem horner_c {K : ℤ} {x : F192} (hx : Rng K x) {q Q : ℚ} (hK : 64 ≤ K) (hK' : K ≤ 4294966500) (hq : |fval x - q| ≤ |q| / 2 ^ 124) (hQ : |q| ≤ Q) :
    ∀ (l : List (Bool × Lit)) (r : F192) (T B : ℚ), Good Q B l → FValid r → 1 ≤ |fval r| → |fval r - T| ≤ B / 2 ^ 123 → |T| ≤ B → ∀ l',
      ∃ z, horner x (l ++ l') r = horner x l' z ∧ FValid z ∧ 1 ≤ |fval z| ∧ |fval z - l.foldl (hval q) T| ≤ hbd Q B l / 2 ^ 123 ∧ |l.foldl (hval q) T| ≤ hbd Q B l
  | [], r, T, B, _, hr, h1, h2, h3, l' => ⟨r, rfl, hr, h1, h2, h3⟩
  | p :: l, r, T, B, ⟨g1, g2, g3, g4, g5, g6, g7⟩, hr, h1, h2, h3, l' => by
    have hB0 : 0 ≤ B := (abs_nonneg _).trans h3
    have hQ0 : 0 ≤ Q := (abs_nonneg _).trans hQ
    have hQB := mul_nonneg hQ0 hB0
    obtain ⟨z, z1, z2, z3, z4, z5⟩ := hstep hx hr hK hK' hq hQ h1 h2 h3 g3 p g1 g2 (by
      intro v hv
      have hc0 : (0 : ℚ) ≤ p.2.val := by positivity
      have hc1 : (p.2.val : ℚ) ≤ 2 ^ 63 := by exact_mod_cast g1.le
      have hT : |hval q T p - (if p.1 then 1 else -1) * p.2.val| ≤ Q * B := by
        rw [hval, add_sub_cancel_right, abs_mul, mul_comm]
        exact mul_le_mul hQ h3 (abs_nonneg _) hQ0
      have hs : |(if p.1 then 1 else -1) * (p.2.val : ℚ)| = p.2.val := by
        rw [abs_mul, abs_of_nonneg hc0]
        split_ifs <;> norm_num
      generalize (if p.1 then 1 else -1) * (p.2.val : ℚ) = C at *
      have hd : |v - C| ≤ 1001 / 1000 * (Q * B) + 1 := by
        refine (abs_sub_le v (hval q T p) C).trans ?_
        have : 2 * (Q * B + p.2.val) / 2 ^ 123 ≤ 1 := by
          rw [div_le_iff₀ (by norm_num)]
          have : Q * B ≤ 2 ^ 63 := by linarith
          generalize (p.2.val : ℚ) = c at *
          generalize Q * B = b at *
          norm_num at this hc1 ⊢
          linarith
        linarith
      have u1 := abs_sub_abs_le_abs_sub v C
      have u2 := abs_sub_abs_le_abs_sub C v
      rw [abs_sub_comm] at u2
      rw [hs] at u1 u2
      have l1 : (2 : ℚ) ^ Nat.log 2 p.2.val ≤ |v| := by linarith
      refine ⟨noCarry_between (Nat.log 2 p.2.val) ?_ ?_, ?_⟩
      · rw [zpow_natCast]; exact l1
      · rw [zpow_natCast]; linarith
      · have : (2 : ℚ) ^ 1 ≤ 2 ^ Nat.log 2 p.2.val := pow_le_pow_right₀ (by norm_num) g6
        linarith) (l ++ l')
    obtain ⟨w, w1, w2⟩ := horner_c hx hK hK' hq hQ l z _ _ g7 z2 z3 z4 z5 l'
    exact ⟨w, by rw [List.cons_append, z1, w1], w2⟩

end F192
end Hmath
