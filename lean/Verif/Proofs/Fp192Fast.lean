import Verif.Proofs.Fp192Div
import Mathlib.Analysis.SpecialFunctions.Log.Base

/-!
# 192-bit floating point numbers: how exact the approximate logarithm and power are
-/

namespace Hmath
namespace F192
open Real

/-! ### logarithms by taking powers -/

/-- application to a number that the kernel evaluates first -/
def force {α : Type} (n : Nat) (f : Nat → α) : α :=
  match n with
  | 0 => f 0
  | k + 1 => f (k + 1)

theorem force_eq {α : Type} (n : Nat) (f : Nat → α) : force n f = f n := by cases n <;> rfl

/-- the 256th power without the last `k` bits -/
def powLo (m k : Nat) : Nat := Nat.pow m 256 / Nat.pow 2 k

/-- the 256th power without the last `k` bits, rounded up -/
def powUp (m k : Nat) : Nat := (Nat.pow m 256 + (Nat.pow 2 k - 1)) / Nat.pow 2 k

theorem powLo_le {m e k : Nat} {y : ℝ} (h : (m : ℝ) * 2 ^ e ≤ y) : (powLo m k : ℝ) * 2 ^ (256 * e + k) ≤ y ^ 256 := by
  rw [powLo]
  simp only [Nat.pow_eq]
  have h2 : ((m : ℝ) * 2 ^ e) ^ 256 ≤ y ^ 256 := pow_le_pow_left₀ (by positivity) h 256
  rw [mul_pow, ← pow_mul, mul_comm e 256] at h2
  have h1 : ((m ^ 256 / 2 ^ k : Nat) : ℝ) * 2 ^ k ≤ (m : ℝ) ^ 256 := by exact_mod_cast Nat.div_mul_le_self (m ^ 256) (2 ^ k)
  generalize (m : ℝ) ^ 256 = M at *
  generalize ((m ^ 256 / 2 ^ k : Nat) : ℝ) = q at *
  calc q * 2 ^ (256 * e + k) = q * 2 ^ k * 2 ^ (256 * e) := by rw [pow_add]; ring
    _ ≤ M * 2 ^ (256 * e) := mul_le_mul_of_nonneg_right h1 (by positivity)
    _ ≤ _ := h2

theorem powUp_ge {m e k : Nat} {y : ℝ} (h0 : 0 ≤ y) (h : y ≤ (m : ℝ) * 2 ^ e) : y ^ 256 ≤ (powUp m k : ℝ) * 2 ^ (256 * e + k) := by
  rw [powUp]
  simp only [Nat.pow_eq]
  have h2 : y ^ 256 ≤ ((m : ℝ) * 2 ^ e) ^ 256 := pow_le_pow_left₀ h0 h 256
  rw [mul_pow, ← pow_mul, mul_comm e 256] at h2
  obtain ⟨q, hq⟩ : ∃ q, q = (m ^ 256 + (2 ^ k - 1)) / 2 ^ k := ⟨_, rfl⟩
  rw [← hq]
  have h1 : (m : ℝ) ^ 256 ≤ (q : ℝ) * 2 ^ k := by
    have p : 0 < 2 ^ k := by positivity
    have := Nat.lt_mul_div_succ (m ^ 256 + (2 ^ k - 1)) p
    rw [← hq, mul_add, mul_one, mul_comm (2 ^ k) q] at this
    have : m ^ 256 ≤ q * 2 ^ k := by
      generalize m ^ 256 = M at *
      omega
    exact_mod_cast this
  generalize (m : ℝ) ^ 256 = M at *
  calc y ^ 256 ≤ M * 2 ^ (256 * e) := h2
    _ ≤ (q : ℝ) * 2 ^ k * 2 ^ (256 * e) := mul_le_mul_of_nonneg_right h1 (by positivity)
    _ = _ := by rw [pow_add]; ring

/-- a checked lower bound `T` of `2^24` times the logarithm; the numbers of bits to remove are guessed from `T` -/
def leLog (T x : Nat) : Bool :=
  force (T / 65536 - 63) fun k => force (T / 256 - 63 - 256 * k) fun l => force (T - 63 - 256 * (256 * k + l)) fun n =>
    force (powLo x k) fun a => force (powLo a l) fun b => force (powLo b n) fun c =>
      Nat.ble T (256 * (256 * k + l) + n + 63) && Nat.ble 9223372036854775808 c

/-- a checked upper bound `T` of `2^24` times the logarithm -/
def logLt (x T : Nat) : Bool :=
  force (T / 65536 - 63) fun k => force (T / 256 - 63 - 256 * k) fun l => force (T - 63 - 256 * (256 * k + l)) fun n =>
    force (powUp x k) fun a => force (powUp a l) fun b => force (powUp b n) fun c =>
      Nat.ble (256 * (256 * k + l) + n + 63) T && Nat.ble (c + 1) 9223372036854775808

theorem logb_pow' (x : ℝ) (n : Nat) : logb 2 (x ^ n) = n * logb 2 x := by
  rw [logb, logb, Real.log_pow, mul_div_assoc]

theorem leLog_c {T x : Nat} (h : leLog T x = true) : (T : ℝ) ≤ logb 2 x * 16777216 := by
  simp only [leLog, force_eq, Bool.and_eq_true, Nat.ble_eq] at h
  obtain ⟨k, hk⟩ : ∃ k, k = T / 65536 - 63 := ⟨_, rfl⟩
  rw [← hk] at h
  obtain ⟨l, hl⟩ : ∃ l, l = T / 256 - 63 - 256 * k := ⟨_, rfl⟩
  rw [← hl] at h
  obtain ⟨n, hn⟩ : ∃ n, n = T - 63 - 256 * (256 * k + l) := ⟨_, rfl⟩
  rw [← hn] at h
  obtain ⟨h1, h2⟩ := h
  have g1 := powLo_le (m := x) (e := 0) (k := k) (y := x) (by simp)
  have g2 := powLo_le (k := l) g1
  have g3 := powLo_le (k := n) g2
  rw [← pow_mul, ← pow_mul, mul_zero, zero_add] at g3
  have h4 : (2 : ℝ) ^ T ≤ (x : ℝ) ^ (256 * 256 * 256) := by
    refine le_trans ?_ g3
    calc (2 : ℝ) ^ T ≤ 2 ^ (63 + (256 * (256 * k + l) + n)) := pow_le_pow_right₀ (by norm_num) (by omega)
      _ = 2 ^ 63 * 2 ^ (256 * (256 * k + l) + n) := pow_add _ _ _
      _ ≤ _ := mul_le_mul_of_nonneg_right (by
        have : ((9223372036854775808 : Nat) : ℝ) ≤ (powLo (powLo (powLo x k) l) n : ℝ) := by exact_mod_cast h2
        refine le_trans (by norm_num) this) (by positivity)
  have h5 := Real.logb_le_logb_of_le (b := 2) (by norm_num) (by positivity) h4
  rw [logb_pow', logb_pow', Real.logb_self_eq_one (by norm_num), mul_one] at h5
  have e : ((256 * 256 * 256 : Nat) : ℝ) = 16777216 := by norm_num
  rw [e] at h5
  linarith

theorem logLt_c {T x : Nat} (hx : 0 < x) (h : logLt x T = true) : logb 2 x * 16777216 < (T : ℝ) := by
  simp only [logLt, force_eq, Bool.and_eq_true, Nat.ble_eq] at h
  obtain ⟨k, hk⟩ : ∃ k, k = T / 65536 - 63 := ⟨_, rfl⟩
  rw [← hk] at h
  obtain ⟨l, hl⟩ : ∃ l, l = T / 256 - 63 - 256 * k := ⟨_, rfl⟩
  rw [← hl] at h
  obtain ⟨n, hn⟩ : ∃ n, n = T - 63 - 256 * (256 * k + l) := ⟨_, rfl⟩
  rw [← hn] at h
  obtain ⟨h1, h2⟩ := h
  have g1 := powUp_ge (m := x) (e := 0) (k := k) (y := x) (by positivity) (by simp)
  have g2 := powUp_ge (k := l) (by positivity) g1
  have g3 := powUp_ge (k := n) (by positivity) g2
  rw [← pow_mul, ← pow_mul, mul_zero, zero_add] at g3
  have hx' : (0 : ℝ) < x := by exact_mod_cast hx
  have h4 : (x : ℝ) ^ (256 * 256 * 256) < (2 : ℝ) ^ T := by
    refine lt_of_le_of_lt g3 ?_
    calc (powUp (powUp (powUp x k) l) n : ℝ) * 2 ^ (256 * (256 * k + l) + n) < 2 ^ 63 * 2 ^ (256 * (256 * k + l) + n) :=
          mul_lt_mul_of_pos_right (by
            have : (powUp (powUp (powUp x k) l) n : ℝ) < ((9223372036854775808 : Nat) : ℝ) := by exact_mod_cast h2
            refine lt_of_lt_of_le this (by norm_num)) (by positivity)
      _ = 2 ^ (63 + (256 * (256 * k + l) + n)) := (pow_add _ _ _).symm
      _ ≤ _ := pow_le_pow_right₀ (by norm_num) (by omega)
  have h5 := Real.logb_lt_logb (b := 2) (by norm_num) (by positivity) h4
  rw [logb_pow', logb_pow', Real.logb_self_eq_one (by norm_num), mul_one] at h5
  have e : ((256 * 256 * 256 : Nat) : ℝ) = 16777216 := by norm_num
  rw [e] at h5
  linarith

/-! ### what is checked for each index -/

/-- the logarithm in units of `2^-24` is between the interpolated value and 12456 more -/
def logFine (i : Nat) : Bool :=
  leLog (tab LOG_TABLE i + 184549376) (2048 + i) && logLt (2048 + i + 1) (tab LOG_TABLE i + 184549376 + 12456)

/-- the interpolated power is between `1 - 1/2954` and `1 + 1/68209` times the power -/
def powFine (i : Nat) : Bool :=
  decide (Nat.pow 2 (49152 + i + 1) * Nat.pow 2953 2048 ≤ Nat.pow (tab POW_TABLE i * 2954) 2048) &&
    decide (Nat.pow (tab POW_TABLE i * 68208) 2048 ≤ Nat.pow 2 (49152 + i) * Nat.pow 68209 2048)

/-- logarithm, then power -/
def invFine (i : Nat) : Bool :=
  (2048 + i + 1) * 8192 * 1210 ≤ tab POW_TABLE (tab LOG_TABLE i / 8192) * 1211 &&
    tab POW_TABLE (tab LOG_TABLE i / 8192) * 75000 ≤ (2048 + i) * 8192 * 75001

theorem log_fine : ∀ a < 64, ∀ b < 32, logFine (32 * a + b) = true := by decide +kernel
theorem pow_fine : ∀ a < 64, ∀ b < 32, powFine (32 * a + b) = true := by decide +kernel
theorem inv_fine : ∀ a < 64, ∀ b < 32, invFine (32 * a + b) = true := by decide +kernel

theorem log_table_fine : ∀ i < 65, leLog (LOG_TABLE.getD i 0 + 100663296) (64 + i) = true ∧
    logLt (64 + i) (LOG_TABLE.getD i 0 + 100663296 + 1) = true := by decide +kernel
theorem pow_table_fine : ∀ i < 65, Nat.pow (POW_TABLE.getD i 0) 64 ≤ Nat.pow 2 (1536 + i) ∧ Nat.pow 2 (1536 + i) < Nat.pow (POW_TABLE.getD i 0 + 1) 64 := by decide +kernel

theorem split32 {P : Nat → Prop} (h : ∀ a < 64, ∀ b < 32, P (32 * a + b)) {i : Nat} (hi : i < 2048) : P i := by
  have := h (i / 32) (by omega) (i % 32) (by omega)
  rwa [Nat.div_add_mod] at this

/-! ### the functions -/

/-- the approximate logarithm in closed form -/
theorem fast_log2_eq {s : Bool} {m e : Nat} (h : Nrm m) (he : Ex e) : (m - S127) / 2 ^ 116 < 2048 ∧
    fast_log2 (mk' s m e) = pure (((e : Int) - 281474976710529) * 16777216 + tab LOG_TABLE ((m - S127) / 2 ^ 116)) := by
  obtain ⟨h1, h2⟩ := h
  obtain ⟨e1, e2⟩ := he
  obtain ⟨i, hi⟩ : ∃ i, i = (m - S127) / 2 ^ 116 := ⟨_, rfl⟩
  have hi' : i < 2048 := by omega
  have hk := log_ok' hi'
  rw [logOk, Bool.and_eq_true, Bool.and_eq_true, decide_eq_true_eq] at hk
  have k0 := hk.1.1
  rw [← hi]
  refine ⟨hi', ?_⟩
  obtain ⟨E, hE⟩ : ∃ E : Int, E = e - 281474976710529 := ⟨_, rfl⟩
  rw [← hE, fast_log2, expI64_c (by omega), pure_bind, i64_eq (by omega) (by omega), pure_bind, low_mk ⟨h1, h2⟩, ← hi, log_interp hi',
    pure_bind, show (e : Int) - 281474976710656 + 127 = E by omega, asI64_of (by omega) (by omega), i64_eq (by omega) (by omega)]

/-- the approximate power in closed form -/
theorem fast_pow2_eq {n : Int} (h1 : -9223372036854775808 ≤ n) (h2 : n < 9223372036854775808) {i : Nat} (hi : i = (n % 16777216).toNat / 2 ^ 13) :
    i < 2048 ∧ Nrm (tab POW_TABLE i * 2 ^ 103) ∧ ∃ e : Nat, (e : Int) = n / 16777216 + 281474976710529 ∧
      fast_pow2 n = pure (mk' false (tab POW_TABLE i * 2 ^ 103) e) ∧
      mg (tab POW_TABLE i * 2 ^ 103) e = (tab POW_TABLE i : ℚ) * 2 ^ (n / 16777216 - (24 : Nat) : ℤ) := by
  have hi' : i < 2048 := by omega
  have hk := pow_ok' hi'
  rw [powOk, Bool.and_eq_true, Bool.and_eq_true, Bool.and_eq_true, decide_eq_true_eq, decide_eq_true_eq, decide_eq_true_eq,
    decide_eq_true_eq] at hk
  obtain ⟨⟨⟨k0, k0'⟩, k1⟩, k2⟩ := hk
  obtain ⟨e, he⟩ : ∃ e : Nat, (e : Int) = n / 16777216 + 281474976710529 :=
    ⟨(n / 16777216 + 281474976710529).toNat, by omega⟩
  have hP' := pow_interp hi'
  generalize tab POW_TABLE i = P at *
  have hN : Nrm (P * 2 ^ 103) := ⟨by omega, by omega⟩
  refine ⟨hi', hN, e, he, ?_, ?_⟩
  · rw [fast_pow2, fast_pow2_worker, ← hi, hP', pure_bind, uShl_eq (by norm_num), pure_bind,
      Nat.mod_eq_of_lt (by have := hN.2; omega), i64_eq (by unfold EXP_COEFF; omega) (by unfold EXP_COEFF; omega), pure_bind,
      i64_eq (by unfold EXP_COEFF; omega) (by unfold EXP_COEFF; omega), pure_bind, low_eq hN]
    refine congrArg pure ?_
    rw [mk', F192.mk.injEq]
    refine ⟨rfl, ?_⟩
    rw [show n / 16777216 + (EXP_COEFF : Int) - 127 = e by unfold EXP_COEFF; omega]
    unfold asU64
    omega
  · rw [mg_eq, ulp, show (e : ℤ) - 2 ^ 48 = n / 16777216 - (24 : Nat) - (103 : Nat) by omega,
      zpow_sub₀ (by norm_num) _ ((103 : Nat) : ℤ), zpow_natCast]
    push_cast
    field_simp
    norm_num

/-- a number between the numbers that have the same leading twelve bits -/
theorem mg_index {m e : Nat} (h : Nrm m) {E : Int} (hE : E = e - 281474976710529) :
    ((2048 + (m - S127) / 2 ^ 116 : Nat) : ℚ) * 2 ^ (E - (11 : Nat) : ℤ) ≤ mg m e ∧
      mg m e < ((2048 + (m - S127) / 2 ^ 116 + 1 : Nat) : ℚ) * 2 ^ (E - (11 : Nat) : ℤ) := by
  obtain ⟨h1, h2⟩ := h
  have hu : mg m e = (m : ℚ) / 2 ^ 116 * 2 ^ (E - (11 : Nat) : ℤ) := by
    rw [mg_eq, ulp, show (e : ℤ) - 2 ^ 48 = E - (11 : Nat) - (116 : Nat) by omega, zpow_sub₀ (by norm_num) _ ((116 : Nat) : ℤ),
      zpow_natCast]
    ring
  rw [hu]
  constructor
  · refine mul_le_mul_of_nonneg_right ?_ (by positivity)
    rw [le_div_iff₀ (by positivity)]
    have : (2048 + (m - S127) / 2 ^ 116) * 2 ^ 116 ≤ m := by omega
    exact_mod_cast this
  · refine mul_lt_mul_of_pos_right ?_ (by positivity)
    rw [div_lt_iff₀ (by positivity)]
    have : m < (2048 + (m - S127) / 2 ^ 116 + 1) * 2 ^ 116 := by omega
    exact_mod_cast this

/-- the logarithm of a number between two others -/
theorem logb_between {v : ℚ} {lo hi : Nat} {E : Int} (hlo : 0 < lo) (h1 : (lo : ℚ) * 2 ^ (E - (11 : Nat) : ℤ) ≤ v)
    (h2 : v < (hi : ℚ) * 2 ^ (E - (11 : Nat) : ℤ)) :
    logb 2 lo + (E - 11) ≤ logb 2 (v : ℝ) ∧ logb 2 (v : ℝ) < logb 2 hi + (E - 11) := by
  have key : ∀ n : Nat, 0 < n → logb 2 (((n : ℚ) * 2 ^ (E - (11 : Nat) : ℤ) : ℚ) : ℝ) = logb 2 n + (E - 11) := by
    intro n hn
    have : (n : ℝ) ≠ 0 := by exact_mod_cast hn.ne'
    push_cast
    rw [Real.logb_mul this (by positivity), ← Real.rpow_intCast, Real.logb_rpow (by norm_num) (by norm_num)]
    push_cast
    ring
  have p : (0 : ℚ) < lo * 2 ^ (E - (11 : Nat) : ℤ) := by
    have : (0 : ℚ) < lo := by exact_mod_cast hlo
    positivity
  have hv : 0 < v := lt_of_lt_of_le p h1
  have hhi : 0 < hi := by
    rcases Nat.eq_zero_or_pos hi with h | h
    · subst h
      rw [Nat.cast_zero, zero_mul] at h2
      exact absurd hv (not_lt.2 h2.le)
    · exact h
  rw [← key lo hlo, ← key hi hhi]
  constructor
  · exact Real.logb_le_logb_of_le (by norm_num) (by exact_mod_cast p) (by exact_mod_cast h1)
  · exact Real.logb_lt_logb (by norm_num) (by exact_mod_cast hv) (by exact_mod_cast h2)

/-- the error of the approximate logarithm -/
theorem fast_log2_fine {s : Bool} {m e : Nat} (h : Nrm m) (he : Ex e) : ∃ L : Int, fast_log2 (mk' s m e) = pure L ∧
    (L : ℝ) ≤ logb 2 ((mg m e : ℚ) : ℝ) * 16777216 ∧ logb 2 ((mg m e : ℚ) : ℝ) * 16777216 < L + 12456 := by
  obtain ⟨hi, hL⟩ := fast_log2_eq (s := s) h he
  refine ⟨_, hL, ?_⟩
  obtain ⟨E, hE⟩ : ∃ E : Int, E = e - 281474976710529 := ⟨_, rfl⟩
  rw [← hE]
  obtain ⟨m1, m2⟩ := mg_index h hE
  generalize (m - S127) / 2 ^ 116 = i at *
  have hf := split32 (P := fun i => logFine i = true) log_fine hi
  rw [logFine, Bool.and_eq_true] at hf
  have f1 := leLog_c hf.1
  have f2 := logLt_c (by omega) hf.2
  obtain ⟨b1, b2⟩ := logb_between (by omega) m1 m2
  generalize tab LOG_TABLE i = t at *
  push_cast at f1 f2 b1 b2 ⊢
  constructor <;> linarith

theorem rpow_pow {N : Nat} (hN : N ≠ 0) (j : Nat) : ((2 : ℝ) ^ ((24 : ℝ) + (j : ℝ) / N)) ^ N = ((2 ^ (24 * N + j) : Nat) : ℝ) := by
  have : (N : ℝ) ≠ 0 := by exact_mod_cast hN
  rw [← Real.rpow_natCast, ← Real.rpow_mul (by norm_num), Nat.cast_pow, ← Real.rpow_natCast, Nat.cast_ofNat]
  congr 1
  push_cast
  field_simp

theorem root_le {N P a b j : Nat} (hN : N ≠ 0) (h : 2 ^ (24 * N + j) * a ^ N ≤ (P * b) ^ N) : (2 : ℝ) ^ ((24 : ℝ) + (j : ℝ) / N) * a ≤ P * b := by
  refine le_of_pow_le_pow_left₀ hN (by positivity) ?_
  rw [mul_pow, rpow_pow hN]
  exact_mod_cast h

theorem le_root {N P a b j : Nat} (hN : N ≠ 0) (h : (P * b) ^ N ≤ 2 ^ (24 * N + j) * a ^ N) : (P : ℝ) * b ≤ (2 : ℝ) ^ ((24 : ℝ) + (j : ℝ) / N) * a := by
  refine le_of_pow_le_pow_left₀ hN (by positivity) ?_
  rw [mul_pow ((2 : ℝ) ^ _), rpow_pow hN]
  exact_mod_cast h

theorem floor_root {N P j : Nat} (hN : N ≠ 0) (h1 : P ^ N ≤ 2 ^ (24 * N + j)) (h2 : 2 ^ (24 * N + j) < (P + 1) ^ N) :
    ⌊(2 : ℝ) ^ ((24 : ℝ) + (j : ℝ) / N)⌋₊ = P := by
  rw [Nat.floor_eq_iff (by positivity)]
  constructor
  · refine le_of_pow_le_pow_left₀ hN (by positivity) ?_
    rw [rpow_pow hN]
    exact_mod_cast h1
  · refine lt_of_pow_lt_pow_left₀ N (by positivity) ?_
    rw [rpow_pow hN]
    exact_mod_cast h2

theorem one_le_logb {N : Nat} (hN : 0 < N) : 1 ≤ N * logb 2 (1 + 1 / (N : ℝ)) := by
  have p : (0 : ℝ) < N := by exact_mod_cast hN
  have q : (0 : ℝ) < 1 / N := by positivity
  have h := one_add_mul_le_pow (a := 1 / (N : ℝ)) (by linarith) N
  rw [mul_one_div_cancel p.ne'] at h
  have := Real.logb_le_logb_of_le (b := 2) (by norm_num) (by norm_num) h
  rwa [logb_pow', show (1 : ℝ) + 1 = 2 by norm_num, Real.logb_self_eq_one (by norm_num)] at this

/-- the error of the approximate power -/
theorem fast_pow2_fine {n : Int} (h1 : -9223372036854775808 ≤ n) (h2 : n < 9223372036854775808) :
    ∃ m e : Nat, Nrm m ∧ (e : Int) = n / 16777216 + 281474976710529 ∧ fast_pow2 n = pure (mk' false m e) ∧
      (2 : ℝ) ^ ((n : ℝ) / 16777216) * (1 - 1 / 2954) ≤ ((mg m e : ℚ) : ℝ) ∧
      ((mg m e : ℚ) : ℝ) ≤ (2 : ℝ) ^ ((n : ℝ) / 16777216) * (1 + 1 / 68208) := by
  obtain ⟨hi, hN, e, he, hp, hm⟩ := fast_pow2_eq h1 h2 rfl
  refine ⟨_, e, hN, he, hp, ?_⟩
  rw [hm]
  have hf := split32 (P := fun i => powFine i = true) pow_fine hi
  obtain ⟨q, hq⟩ : ∃ q : Int, q = n / 16777216 := ⟨_, rfl⟩
  obtain ⟨r, hr⟩ : ∃ r : Nat, r = (n % 16777216).toNat := ⟨_, rfl⟩
  rw [← hr] at hf hi ⊢
  have hn : n = 16777216 * q + r := by omega
  rw [← hq]
  obtain ⟨i, hi'⟩ : ∃ i, i = r / 2 ^ 13 := ⟨_, rfl⟩
  rw [← hi'] at hf ⊢
  rw [powFine, Bool.and_eq_true, decide_eq_true_eq, decide_eq_true_eq] at hf
  simp only [Nat.pow_eq] at hf
  generalize tab POW_TABLE i = P at *
  obtain ⟨f1, f2⟩ := hf
  have k1 : (2 : ℝ) ^ ((24 : ℝ) + ((i + 1 : Nat) : ℝ) / (2048 : Nat)) * (2953 : Nat) ≤ P * (2954 : Nat) :=
    root_le (by norm_num) (by rw [show 24 * 2048 + (i + 1) = 49152 + i + 1 by omega]; exact f1)
  have k2 : (P : ℝ) * (68208 : Nat) ≤ (2 : ℝ) ^ ((24 : ℝ) + (i : ℝ) / (2048 : Nat)) * (68209 : Nat) :=
    le_root (by norm_num) (by rw [show 24 * 2048 + i = 49152 + i by omega]; exact f2)
  clear f1 f2
  rw [Nat.cast_ofNat] at k1 k2
  have e1 : (2 : ℝ) ^ ((n : ℝ) / 16777216) = 2 ^ (q - 24 : ℤ) * 2 ^ ((24 : ℝ) + (r : ℝ) / 16777216) := by
    rw [← Real.rpow_intCast, ← Real.rpow_add (by norm_num), hn]
    congr 1
    push_cast
    ring
  have u1 : (2 : ℝ) ^ ((24 : ℝ) + (r : ℝ) / 16777216) ≤ 2 ^ ((24 : ℝ) + ((i + 1 : Nat) : ℝ) / 2048) := by
    refine Real.rpow_le_rpow_of_exponent_le (by norm_num) ?_
    have : r ≤ 8192 * (i + 1) := by omega
    have : (r : ℝ) ≤ 8192 * ((i + 1 : Nat) : ℝ) := by exact_mod_cast this
    linarith
  have u2 : (2 : ℝ) ^ ((24 : ℝ) + (i : ℝ) / 2048) ≤ 2 ^ ((24 : ℝ) + (r : ℝ) / 16777216) := by
    refine Real.rpow_le_rpow_of_exponent_le (by norm_num) ?_
    have : 8192 * i ≤ r := by omega
    have : 8192 * (i : ℝ) ≤ (r : ℝ) := by exact_mod_cast this
    linarith
  rw [e1]
  have c : (((P : ℚ) * 2 ^ (q - (24 : Nat) : ℤ) : ℚ) : ℝ) = 2 ^ (q - 24 : ℤ) * P := by push_cast; ring
  rw [c, mul_assoc, mul_assoc]
  have w : (0 : ℝ) ≤ 2 ^ (q - 24 : ℤ) := by positivity
  generalize (2 : ℝ) ^ ((24 : ℝ) + (r : ℝ) / 16777216) = R at *
  constructor
  · refine mul_le_mul_of_nonneg_left ?_ w
    linarith
  · refine mul_le_mul_of_nonneg_left ?_ w
    linarith

/-- the logarithm, then the power -/
theorem fast_inv_fine {s : Bool} {m e : Nat} (h : Nrm m) (he : Ex e) : ∃ (L : Int) (m' e' : Nat), fast_log2 (mk' s m e) = pure L ∧
    fast_pow2 L = pure (mk' false m' e') ∧ Nrm m' ∧ e' = e ∧
    mg m e * (1 - 1 / 1211) ≤ mg m' e' ∧ mg m' e' ≤ mg m e * (1 + 1 / 75000) := by
  obtain ⟨hi, hL⟩ := fast_log2_eq (s := s) h he
  obtain ⟨E, hE⟩ : ∃ E : Int, E = e - 281474976710529 := ⟨_, rfl⟩
  rw [← hE] at hL
  obtain ⟨m1, m2⟩ := mg_index h hE
  generalize (m - S127) / 2 ^ 116 = i at *
  have hf := split32 (P := fun i => invFine i = true) inv_fine hi
  rw [invFine, Bool.and_eq_true, decide_eq_true_eq, decide_eq_true_eq] at hf
  have hk := log_ok' hi
  rw [logOk, Bool.and_eq_true, Bool.and_eq_true, decide_eq_true_eq] at hk
  have k0 := hk.1.1
  generalize tab LOG_TABLE i = t at *
  obtain ⟨e1, e2⟩ := he
  obtain ⟨-, hN, e', he', hp, hm⟩ := fast_pow2_eq (n := E * 16777216 + t) (i := t / 8192) (by omega) (by omega) (by omega)
  refine ⟨_, _, e', hL, hp, hN, by omega, ?_⟩
  rw [hm, show (E * 16777216 + (t : Int)) / 16777216 = E by omega]
  obtain ⟨f1, f2⟩ := hf
  generalize tab POW_TABLE (t / 8192) = P at *
  have g1 : ((2048 + i + 1 : Nat) : ℚ) * 8192 * 1210 ≤ P * 1211 := by exact_mod_cast f1
  have g2 : (P : ℚ) * 75000 ≤ ((2048 + i : Nat) : ℚ) * 8192 * 75001 := by exact_mod_cast f2
  have w : (2 : ℚ) ^ (E - (11 : Nat) : ℤ) = 2 ^ (E - (24 : Nat) : ℤ) * 8192 := by
    rw [show E - ((11 : Nat) : ℤ) = E - ((24 : Nat) : ℤ) + ((13 : Nat) : ℤ) by push_cast; ring, zpow_add₀ (by norm_num), zpow_natCast]
    norm_num
  rw [w] at m1 m2
  have p : (0 : ℚ) < 2 ^ (E - (24 : Nat) : ℤ) := by positivity
  generalize (2 : ℚ) ^ (E - (24 : Nat) : ℤ) = W at *
  generalize ((2048 + i + 1 : Nat) : ℚ) = A at *
  generalize ((2048 + i : Nat) : ℚ) = B at *
  have q1 := mul_le_mul_of_nonneg_right g1 p.le
  have q2 := mul_le_mul_of_nonneg_right g2 p.le
  constructor <;> linarith

end F192
end Hmath
