import Verif.Props.Fp192Div
import Verif.Proofs.Fp192Fast

/-!
# C83: the approximate logarithm and power of 192-bit floating point numbers

Division, square root and printing start from `fast_log2` and `fast_pow2`.
-/

namespace Hmath
namespace Props
open F192 Real

/-- `LOG_TABLE[i] = truncate((log2(64 + i) - 6) * 16777216)`, as the comment says. -/
theorem C83_log_table {i : Nat} (h : i < 65) : LOG_TABLE[i]? = some ⌊(logb 2 (64 + i) - 6) * 16777216⌋₊ := by
  obtain ⟨h1, h2⟩ := log_table_fine i h
  have f1 := leLog_c h1
  have f2 := logLt_c (by omega) h2
  have hl : LOG_TABLE.length = 65 := by decide
  have e : LOG_TABLE[i]? = some (LOG_TABLE.getD i 0) := by
    rw [List.getD_eq_getElem?_getD, List.getElem?_eq_getElem (by omega)]; rfl
  rw [e]
  generalize LOG_TABLE.getD i 0 = t at *
  push_cast at f1 f2
  refine congrArg some (Eq.symm ?_)
  rw [Nat.floor_eq_iff (by have : (0 : ℝ) ≤ t := Nat.cast_nonneg t; linarith)]
  constructor <;> linarith

/-- `log2(96) - 6` is 0.58496 -/
example : LOG_TABLE[32]? = some 9814042 := by decide

/-- The entries of the table of powers are `2^(24 + i / 64)`, cut after the point. -/
theorem C83_pow_table {i : Nat} (h : i < 65) : POW_TABLE[i]? = some ⌊(2 : ℝ) ^ ((24 : ℝ) + (i : ℝ) / 64)⌋₊ := by
  obtain ⟨h1, h2⟩ := pow_table_fine i h
  simp only [Nat.pow_eq] at h1 h2
  have hl : POW_TABLE.length = 65 := by decide
  have e : POW_TABLE[i]? = some (POW_TABLE.getD i 0) := by
    rw [List.getD_eq_getElem?_getD, List.getElem?_eq_getElem (by omega)]; rfl
  rw [e]
  generalize POW_TABLE.getD i 0 = P at *
  have hf := floor_root (N := 64) (P := P) (j := i) (by norm_num) (by rw [show 24 * 64 + i = 1536 + i by omega]; exact h1)
    (by rw [show 24 * 64 + i = 1536 + i by omega]; exact h2)
  rw [Nat.cast_ofNat] at hf
  rw [hf]

/-- `2^24.5` is 23726566.4 -/
example : POW_TABLE[32]? = some 23726566 := by decide

/-- The approximate logarithm is documented as `truncate(log2(self) * 16777216)`. It is the logarithm of the magnitude, never too large
and at most 12456 of these units too small, for numbers from `2^(-2^39)` to `2^(2^39)`; other exponents are taken modulo `2^40`.
The full claim has no error and no bound on the exponent; see the counterexamples below. -/
theorem C83_fast_log2_partial {x : F192} (hx : FValid x) (rx : LogArg x) : ∃ L : Int, fast_log2 x = pure L ∧
    (L : ℝ) ≤ (logb 2 |((fval x : ℚ) : ℝ)| - (lead x - wrapLead x : ℤ)) * 16777216 ∧
    (logb 2 |((fval x : ℚ) : ℝ)| - (lead x - wrapLead x : ℤ)) * 16777216 < L + 12456 := by
  obtain ⟨s, m, e, hm, he, rfl⟩ := exists_mk hx
  have hz : 0 < e := rx.1
  have hE : LogE e := by
    obtain ⟨-, h⟩ := rx
    rw [mk_exp] at h
    norm_num at h
    exact ⟨hz, by omega, he⟩
  have hv := fval_mk (s := s) (e := e) hm (nz_exp hz)
  have hp := mg_pos (e := e) hm
  have habs : |((fval (mk' s m e) : ℚ) : ℝ)| = ((mg m e : ℚ) : ℝ) := by
    rw [hv]
    have : (0 : ℝ) < ((mg m e : ℚ) : ℝ) := by exact_mod_cast hp
    cases s
    · rw [sgn_false, one_mul, abs_of_pos this]
    · rw [show sgn true = -1 from rfl]
      push_cast
      rw [neg_one_mul, abs_neg, abs_of_pos this]
  rw [habs]
  obtain ⟨k, hk⟩ : ∃ k : Int, k = (lead (mk' s m e) - wrapLead (mk' s m e)) / 1099511627776 := ⟨_, rfl⟩
  have hk' : lead (mk' s m e) - wrapLead (mk' s m e) = 1099511627776 * k := by
    rw [hk]; simp only [lead, wrapLead, mk_exp]; norm_num; omega
  rw [hk']
  obtain ⟨e', he'⟩ : ∃ e' : Nat, (e : Int) = e' + 1099511627776 * k ∧ Ex e' := by
    simp only [lead, wrapLead, mk_exp] at hk'
    norm_num at hk'
    refine ⟨((e : Int) - 1099511627776 * k).toNat, by omega, by omega, by omega⟩
  obtain ⟨L, h1, h2, h3⟩ := fast_log2_fine (s := s) hm he'.2
  refine ⟨L, by rw [fast_log2_mod hm hE he'.2.logE he'.1, h1], ?_⟩
  have hl : logb 2 ((mg m e : ℚ) : ℝ) = logb 2 ((mg m e' : ℚ) : ℝ) + ((1099511627776 * k : ℤ) : ℝ) := by
    have p : ((mg m e' : ℚ) : ℝ) ≠ 0 := by exact_mod_cast (mg_pos (e := e') hm).ne'
    rw [mg_zadd m he'.1, Rat.cast_mul, Real.logb_mul p (by positivity), Rat.cast_zpow, Rat.cast_ofNat, ← Real.rpow_intCast,
      Real.logb_rpow (by norm_num) (by norm_num)]
  rw [hl, add_sub_cancel_right]
  exact ⟨h2, h3⟩

/-- 3: the result is 26591258, the scaled logarithm is 26591258.1 -/
example : FValid ⟨85070591730234615865843651857942052864, 281474976710530⟩ ∧ LogArg ⟨85070591730234615865843651857942052864, 281474976710530⟩ ∧
    lead ⟨85070591730234615865843651857942052864, 281474976710530⟩ = wrapLead ⟨85070591730234615865843651857942052864, 281474976710530⟩ ∧
    fast_log2 ⟨85070591730234615865843651857942052864, 281474976710530⟩ = pure 26591258 := ⟨by decide, by decide, by decide, by rfl⟩

/-- Only twelve bits of the number are used: the logarithm of `1 + 2^-12` comes out as zero. -/
theorem C83_fast_log2_counterexample : ∃ x, FValid x ∧ fval x = 1 + 1 / 2 ^ 12 ∧ fast_log2 x = pure 0 ∧
    4096 ≤ logb 2 ((fval x : ℚ) : ℝ) * 16777216 := by
  have hv : fval ⟨41538374868278621028243970633760768, 281474976710529⟩ = 1 + 1 / 2 ^ 12 := by
    have := fval_mk (s := false) (m := 170141183460469231731687303715884105728 + 41538374868278621028243970633760768)
      (e := 281474976710656 - 127) ⟨by norm_num, by norm_num⟩ (nz_exp (by norm_num))
    rw [F192.mg_coeff_sub (by norm_num)] at this
    exact this.trans (by norm_num [sgn])
  refine ⟨⟨41538374868278621028243970633760768, 281474976710529⟩, by decide, hv, by rfl, ?_⟩
  rw [hv]
  have h := one_le_logb (N := 4096) (by norm_num)
  have e : ((1 + 1 / 2 ^ 12 : ℚ) : ℝ) = 1 + 1 / ((4096 : Nat) : ℝ) := by norm_num
  rw [e]
  generalize logb 2 (1 + 1 / ((4096 : Nat) : ℝ)) = l at *
  rw [Nat.cast_ofNat] at h
  linarith

/-- The logarithm of `2^(2^40)` comes out as zero too, and exponent fields from `2^63` to `2^63 + 2^48 - 1` panic. -/
theorem C83_fast_log2_range_counterexample {n : ℤ} (hn : n = 2 ^ 40) : (∃ x, FValid x ∧ fval x = 2 ^ n ∧ fast_log2 x = pure 0) ∧
    ∀ x, FValid x → 2 ^ 63 ≤ x.exp → x.exp < 2 ^ 63 + 2 ^ 48 → Panics (fast_log2 x) := by
  constructor
  · refine ⟨⟨0, 282574488338305⟩, by decide, ?_, by rfl⟩
    have := fval_mk (s := false) (m := 170141183460469231731687303715884105728) (e := 282574488338305) ⟨by norm_num, by norm_num⟩ (nz_exp (by norm_num))
    refine this.trans ?_
    rw [sgn_false, one_mul, mg_eq, ulp, show ((282574488338305 : ℕ) : ℤ) - 2 ^ 48 = n - (127 : Nat) by rw [hn]; norm_num, zpow_sub₀ (by norm_num), zpow_natCast]
    generalize (2 : ℚ) ^ n = N
    norm_num
    ring
  · intro x hx h1 h2
    obtain ⟨s, m, e, hm, he, rfl⟩ := exists_mk hx
    rw [mk_exp] at h1 h2
    exact fast_log2_panics (by norm_num at h1; omega) (by norm_num at h2; omega)

/-- The approximate power of two is within `1 - 1/2954` and `1 + 1/68208` times the power, for every argument. -/
theorem C83_fast_pow2 {n : Int} (h1 : -2 ^ 63 ≤ n) (h2 : n < 2 ^ 63) : ∃ z, fast_pow2 n = pure z ∧ FValid z ∧
    (2 : ℝ) ^ ((n : ℝ) / 16777216) * (1 - 1 / 2954) ≤ ((fval z : ℚ) : ℝ) ∧
    ((fval z : ℚ) : ℝ) ≤ (2 : ℝ) ^ ((n : ℝ) / 16777216) * (1 + 1 / 68208) := by
  norm_num at h1 h2
  obtain ⟨m, e, hm, he, hp, b⟩ := fast_pow2_fine h1 h2
  refine ⟨_, hp, valid_mk hm (by omega), ?_⟩
  rw [fval_mk hm (nz_exp (by omega)), sgn_false, one_mul]
  exact b

/-- the root of 2 is 1.4142135 -/
example : (-2 ^ 63 : Int) ≤ 8388608 ∧ (8388608 : Int) < 2 ^ 63 ∧ fast_pow2 8388608 = pure ⟨70474781589568367930328915362237644800, 281474976710529⟩ :=
  ⟨by norm_num, by norm_num, by rfl⟩

/-- "inverse of `fast_log2`": taking a number there and back changes it by a factor between `1 - 1/1211` and `1 + 1/75000` and loses the sign. -/
theorem C83_inverse {x : F192} (hx : FValid x) (h1 : -2 ^ 39 ≤ lead x) (h2 : lead x < 2 ^ 39) : ∃ L z, fast_log2 x = pure L ∧ fast_pow2 L = pure z ∧
    FValid z ∧ |fval x| * (1 - 1 / 1211) ≤ fval z ∧ fval z ≤ |fval x| * (1 + 1 / 75000) := by
  obtain ⟨s, m, e, hm, he, rfl⟩ := exists_mk hx
  simp only [lead, mk_exp] at h1 h2
  norm_num at h1 h2
  obtain ⟨L, m', e', l, p, hm', rfl, b⟩ := fast_inv_fine (s := s) hm (e := e) ⟨by omega, by omega⟩
  refine ⟨L, _, l, p, valid_mk hm' he, ?_⟩
  rw [fval_mk hm' (nz_exp (by omega)), fval_mk hm (nz_exp (by omega)), sgn_false, one_mul, abs_mul, abs_of_pos (mg_pos hm)]
  have : |sgn s| = 1 := by cases s <;> simp [sgn]
  rw [this, one_mul]
  exact b

/-- -3 -/
example : FValid ⟨255211775190703847597530955573826158592, 281474976710530⟩ ∧ -2 ^ 39 ≤ lead ⟨255211775190703847597530955573826158592, 281474976710530⟩ ∧
    lead ⟨255211775190703847597530955573826158592, 281474976710530⟩ < 2 ^ 39 := by decide

end Props
end Hmath
