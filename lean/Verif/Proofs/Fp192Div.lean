import Verif.Proofs.Fp192Trunc

/-!
# 192-bit floating point numbers: approximate logarithm and power, division
-/

namespace Hmath
namespace F192

/-! ### the tables -/

/-- a value between two entries of a table -/
def tab (t : List Nat) (i : Nat) : Nat := (t.getD (i / 32) 0 * (32 - i % 32) + t.getD (i / 32 + 1) 0 * (i % 32)) / 32

theorem tab_bounds {t : List Nat} (hl : t.length = 65) (ht : ∀ k < 65, t.getD k 0 ≤ 33554432) {i : Nat} (hi : i < 2048) :
    interpolate t i = pure (tab t i) := by
  have h1 : i / 32 + 1 < 65 := by omega
  have h2 := ht (i / 32) (by omega)
  have h3 := ht (i / 32 + 1) h1
  have h4 : i % 32 < 32 := Nat.mod_lt _ (by norm_num)
  have g1 : t[i / 32]? = some (t.getD (i / 32) 0) := by
    rw [List.getD_eq_getElem?_getD, List.getElem?_eq_getElem (by omega)]; rfl
  have g2 : t[i / 32 + 1]? = some (t.getD (i / 32 + 1) 0) := by
    rw [List.getD_eq_getElem?_getD, List.getElem?_eq_getElem (by omega)]; rfl
  rw [interpolate, show i &&& 31 = i % 32 from Nat.and_two_pow_sub_one_eq_mod i 5]
  unfold tab
  generalize t.getD (i / 32) 0 = a at *
  generalize t.getD (i / 32 + 1) 0 = b at *
  generalize i % 32 = f at *
  have m1 : a * (32 - f) ≤ 33554432 * (32 - f) := Nat.mul_le_mul_right _ h2
  have m2 : b * f ≤ 33554432 * f := Nat.mul_le_mul_right _ h3
  rw [idx, g1, pure_bind, idx, g2, pure_bind, u32Mul, uMul_eq (by omega), pure_bind, uMul_eq (by omega), pure_bind, u32Add,
    uAdd_eq (by omega), pure_bind]

theorem log_interp {i : Nat} (hi : i < 2048) : interpolate LOG_TABLE i = pure (tab LOG_TABLE i) :=
  tab_bounds (by decide) (by decide +kernel) hi

theorem pow_interp {i : Nat} (hi : i < 2048) : interpolate POW_TABLE i = pure (tab POW_TABLE i) :=
  tab_bounds (by decide) (by decide +kernel) hi

/-- the checked property of the table of logarithms -/
def logOk (i : Nat) : Bool :=
  tab LOG_TABLE i < 16777216 &&
  2 ^ (tab LOG_TABLE i / 65536) * 2 ^ 2816 ≤ (2048 + i) ^ 256 * 2 && (2048 + i + 1) ^ 256 ≤ 2 ^ (tab LOG_TABLE i / 65536 + 2) * 2 ^ 2816

/-- the checked property of the table of powers -/
def powOk (i : Nat) : Bool :=
  16777216 ≤ tab POW_TABLE i && tab POW_TABLE i < 33554432 &&
  2 ^ (i / 8) * 2 ^ 6144 ≤ tab POW_TABLE i ^ 256 * 2 && tab POW_TABLE i ^ 256 ≤ 2 ^ (i / 8 + 2) * 2 ^ 6144

theorem log_ok : ∀ a < 64, ∀ b < 32, logOk (32 * a + b) = true := by decide +kernel
theorem pow_ok : ∀ a < 64, ∀ b < 32, powOk (32 * a + b) = true := by decide +kernel

theorem log_ok' {i : Nat} (h : i < 2048) : logOk i = true := by
  have := log_ok (i / 32) (by omega) (i % 32) (by omega)
  rwa [Nat.div_add_mod] at this

theorem pow_ok' {i : Nat} (h : i < 2048) : powOk i = true := by
  have := pow_ok (i / 32) (by omega) (i % 32) (by omega)
  rwa [Nat.div_add_mod] at this

/-- `v` is `2^(n / 2^24)`, roughly -/
def Near (v : ℚ) (n : Int) : Prop := (2 : ℚ) ^ (n / 65536 - 1 : ℤ) ≤ v ^ 256 ∧ v ^ 256 ≤ 2 ^ (n / 65536 + 2 : ℤ)

/-- from integers to rationals -/
theorem near_of {v : ℚ} {lo hi k t K : Nat} {E n : Int} (hn : n / 65536 = 256 * E + t) (hK : K = 256 * k)
    (h1 : 2 ^ t * 2 ^ K ≤ lo ^ 256 * 2) (h2 : hi ^ 256 ≤ 2 ^ (t + 2) * 2 ^ K)
    (h3 : lo * (2 : ℚ) ^ (E - k : ℤ) ≤ v) (h4 : v ≤ hi * 2 ^ (E - k : ℤ)) : Near v n := by
  subst hK
  have p : (0 : ℚ) < 2 ^ (E - k : ℤ) := by positivity
  have h5 : ((2 : ℚ) ^ (E - k : ℤ)) ^ 256 = 2 ^ (256 * E : ℤ) / 2 ^ (256 * k) := by
    rw [← zpow_natCast, ← zpow_mul, ← zpow_natCast (2 : ℚ) (256 * k), ← zpow_sub₀ (by norm_num)]
    exact congrArg _ (by push_cast; ring)
  have g1 : (2 : ℚ) ^ t * 2 ^ (256 * k) ≤ lo ^ 256 * 2 := by exact_mod_cast h1
  have g2 : (hi : ℚ) ^ 256 ≤ 2 ^ (t + 2) * 2 ^ (256 * k) := by exact_mod_cast h2
  have p' : (0 : ℚ) < 2 ^ (256 * E : ℤ) / 2 ^ (256 * k) := by positivity
  have hv : 0 ≤ v := le_trans (by positivity) h3
  have a1 := pow_le_pow_left₀ (by positivity) h3 256
  have a2 := pow_le_pow_left₀ hv h4 256
  rw [mul_pow, h5] at a1 a2
  have b1 := mul_le_mul_of_nonneg_right g1 p'.le
  have b2 := mul_le_mul_of_nonneg_right g2 p'.le
  have c : (2 : ℚ) ^ (256 * k) ≠ 0 := by positivity
  have c1 : (2 : ℚ) ^ t * 2 ^ (256 * k) * (2 ^ (256 * E : ℤ) / 2 ^ (256 * k)) = 2 * 2 ^ (n / 65536 - 1 : ℤ) := by
    rw [hn, zpow_sub₀ (by norm_num), zpow_add₀ (by norm_num), zpow_natCast]
    field_simp
  have c2 : (2 : ℚ) ^ (t + 2) * 2 ^ (256 * k) * (2 ^ (256 * E : ℤ) / 2 ^ (256 * k)) = 2 ^ (n / 65536 + 2 : ℤ) := by
    rw [hn, zpow_add₀ (by norm_num), zpow_add₀ (by norm_num), zpow_natCast, pow_add]
    field_simp
  rw [c1] at b1
  rw [c2] at b2
  constructor <;> linarith

theorem i64_eq {z : Int} (h1 : -9223372036854775808 ≤ z) (h2 : z ≤ 9223372036854775807) : i64Chk z = pure z := by
  rw [i64Chk, if_pos ⟨h1, h2⟩]

theorem asI64_of {z : Int} (h1 : -9223372036854775808 ≤ z) (h2 : z ≤ 9223372036854775807) : asI64 z = z := by
  unfold asI64; omega

/-- exponents the approximate logarithm can handle -/
def Ex (e : Nat) : Prop := 281474976710529 ≤ e + 549755813888 ∧ e < 281474976710529 + 549755813888

theorem fast_log2_c {s : Bool} {m e : Nat} (h : Nrm m) (he : Ex e) : ∃ L : Int, fast_log2 (mk' s m e) = pure L ∧
    ((e : Int) - 281474976710529) * 16777216 ≤ L ∧ L < ((e : Int) - 281474976710528) * 16777216 ∧ Near (mg m e) L := by
  obtain ⟨h1, h2⟩ := h
  obtain ⟨e1, e2⟩ := he
  obtain ⟨i, hi⟩ : ∃ i, i = (m - S127) / 2 ^ 116 := ⟨_, rfl⟩
  have hi' : i < 2048 := by omega
  have hk := log_ok' hi'
  rw [logOk, Bool.and_eq_true, Bool.and_eq_true, decide_eq_true_eq, decide_eq_true_eq, decide_eq_true_eq] at hk
  obtain ⟨⟨k0, k1⟩, k2⟩ := hk
  obtain ⟨E, hE⟩ : ∃ E : Int, E = e - 281474976710529 := ⟨_, rfl⟩
  refine ⟨E * 16777216 + tab LOG_TABLE i, ?_, by omega, by omega, ?_⟩
  · rw [fast_log2, expI64_c (by omega), pure_bind, i64_eq (by omega) (by omega), pure_bind, low_mk ⟨h1, h2⟩, ← hi, log_interp hi',
      pure_bind, show (e : Int) - 281474976710656 + 127 = E by omega, asI64_of (by omega) (by omega), i64_eq (by omega) (by omega)]
  · have hu : mg m e = (m : ℚ) / 2 ^ 116 * 2 ^ (E - (11 : Nat) : ℤ) := by
      rw [mg_eq, ulp, show (e : ℤ) - 2 ^ 48 = E - (11 : Nat) - (116 : Nat) by omega, zpow_sub₀ (by norm_num) _ ((116 : Nat) : ℤ),
        zpow_natCast]
      ring
    have m1 : ((2048 + i : Nat) : ℚ) ≤ (m : ℚ) / 2 ^ 116 := by
      rw [le_div_iff₀ (by positivity)]
      have : (2048 + i) * 2 ^ 116 ≤ m := by omega
      exact_mod_cast this
    have m2 : (m : ℚ) / 2 ^ 116 ≤ ((2048 + i + 1 : Nat) : ℚ) := by
      rw [div_le_iff₀ (by positivity)]
      have : m ≤ (2048 + i + 1) * 2 ^ 116 := by omega
      exact_mod_cast this
    refine near_of (E := E) (k := 11) (t := tab LOG_TABLE i / 65536) ?_ rfl k1 k2 ?_ ?_
    · omega
    · rw [hu]; exact mul_le_mul_of_nonneg_right m1 (by positivity)
    · rw [hu]; exact mul_le_mul_of_nonneg_right m2 (by positivity)

theorem fast_pow2_c {n : Int} (h1 : -9223372036854775808 ≤ n) (h2 : n < 9223372036854775808) :
    ∃ m e : Nat, Nrm m ∧ (e : Int) = n / 16777216 + 281474976710529 ∧ fast_pow2 n = pure (mk' false m e) ∧ Near (mg m e) n := by
  obtain ⟨i, hi⟩ : ∃ i, i = (n % 16777216).toNat / 2 ^ 13 := ⟨_, rfl⟩
  have hi' : i < 2048 := by omega
  have hk := pow_ok' hi'
  rw [powOk, Bool.and_eq_true, Bool.and_eq_true, Bool.and_eq_true, decide_eq_true_eq, decide_eq_true_eq, decide_eq_true_eq,
    decide_eq_true_eq] at hk
  obtain ⟨⟨⟨k0, k0'⟩, k1⟩, k2⟩ := hk
  obtain ⟨e, he⟩ : ∃ e : Nat, (e : Int) = n / 16777216 + 281474976710529 :=
    ⟨(n / 16777216 + 281474976710529).toNat, by omega⟩
  obtain ⟨P, hP⟩ : ∃ P, P = tab POW_TABLE i := ⟨_, rfl⟩
  rw [← hP] at k0 k0' k1 k2
  have hN : Nrm (P * 2 ^ 103) := ⟨by omega, by omega⟩
  refine ⟨P * 2 ^ 103, e, hN, he, ?_, ?_⟩
  · rw [fast_pow2, fast_pow2_worker, ← hi, pow_interp hi', pure_bind, ← hP, uShl_eq (by norm_num), pure_bind,
      Nat.mod_eq_of_lt (by have := hN.2; omega), i64_eq (by unfold EXP_COEFF; omega) (by unfold EXP_COEFF; omega), pure_bind,
      i64_eq (by unfold EXP_COEFF; omega) (by unfold EXP_COEFF; omega), pure_bind, low_eq hN]
    refine congrArg pure ?_
    rw [mk', F192.mk.injEq]
    refine ⟨rfl, ?_⟩
    rw [show n / 16777216 + (EXP_COEFF : Int) - 127 = e by unfold EXP_COEFF; omega]
    unfold asU64
    omega
  · have hu : mg (P * 2 ^ 103) e = (P : ℚ) * 2 ^ (n / 16777216 - (24 : Nat) : ℤ) := by
      rw [mg_eq, ulp, show (e : ℤ) - 2 ^ 48 = n / 16777216 - (24 : Nat) - (103 : Nat) by omega,
        zpow_sub₀ (by norm_num) _ ((103 : Nat) : ℤ), zpow_natCast]
      push_cast
      field_simp
      norm_num
    refine near_of (E := n / 16777216) (k := 24) (t := i / 8) (lo := P) (hi := P) ?_ rfl k1 k2 hu.ge hu.le
    omega

/-- division at the level of approximations -/
theorem near_lo {x y z : ℚ} (hx : 0 < x) (hy : 0 < y) {a b : Int} (h1 : Near x a) (h2 : Near y b)
    (h3 : Near z (a - b - 1048576)) : z * y < x := by
  refine lt_of_pow_lt_pow_left₀ 256 hx.le ?_
  rw [mul_pow]
  have hw : (a - b - 1048576) / 65536 ≤ a / 65536 - b / 65536 - 16 := by omega
  calc z ^ 256 * y ^ 256 ≤ 2 ^ ((a - b - 1048576) / 65536 + 2 : ℤ) * 2 ^ (b / 65536 + 2 : ℤ) :=
        mul_le_mul h3.2 h2.2 (by positivity) (by positivity)
    _ = 2 ^ ((a - b - 1048576) / 65536 + 2 + (b / 65536 + 2) : ℤ) := (zpow_add₀ (by norm_num) _ _).symm
    _ < 2 ^ (a / 65536 - 1 : ℤ) := zpow_lt_zpow_right₀ (by norm_num) (by omega)
    _ ≤ _ := h1.1

theorem near_hi {x y z : ℚ} (hy : 0 < y) (hz : 0 < z) {a b : Int} (h1 : Near x a) (h2 : Near y b)
    (h3 : Near z (a - b + 1048576)) : x * (1 + 1 / 64) ≤ z * y := by
  refine le_of_pow_le_pow_left₀ (n := 256) (by norm_num) (by positivity) ?_
  rw [mul_pow, mul_pow]
  have hw : a / 65536 - b / 65536 + 15 ≤ (a - b + 1048576) / 65536 := by omega
  have hc : (1 + 1 / 64 : ℚ) ^ 256 ≤ 2 ^ (11 : ℤ) := by norm_num
  calc x ^ 256 * (1 + 1 / 64) ^ 256 ≤ 2 ^ (a / 65536 + 2 : ℤ) * 2 ^ (11 : ℤ) :=
        mul_le_mul h1.2 hc (by positivity) (by positivity)
    _ = 2 ^ (a / 65536 + 2 + 11 : ℤ) := (zpow_add₀ (by norm_num) _ _).symm
    _ ≤ 2 ^ ((a - b + 1048576) / 65536 - 1 + (b / 65536 - 1) : ℤ) := zpow_le_zpow_right₀ (by norm_num) (by omega)
    _ = 2 ^ ((a - b + 1048576) / 65536 - 1 : ℤ) * 2 ^ (b / 65536 - 1 : ℤ) := zpow_add₀ (by norm_num) _ _
    _ ≤ z ^ 256 * y ^ 256 := mul_le_mul h3.1 h2.1 (by positivity) (by positivity)

/-- the bounds are not far away from the quotient -/
theorem near_lo' {x y z : ℚ} (hy : 0 < y) (hz : 0 < z) {a b : Int} (h1 : Near x a) (h2 : Near y b)
    (h3 : Near z (a - b - 1048576)) : x ≤ z * y * 2 := by
  refine le_of_pow_le_pow_left₀ (n := 256) (by norm_num) (by positivity) ?_
  rw [mul_pow, mul_pow]
  have hc : (2 : ℚ) ^ 256 = 2 ^ (256 : ℤ) := by norm_num
  calc x ^ 256 ≤ 2 ^ (a / 65536 + 2 : ℤ) := h1.2
    _ ≤ 2 ^ ((a - b - 1048576) / 65536 - 1 + (b / 65536 - 1) + 256 : ℤ) := zpow_le_zpow_right₀ (by norm_num) (by omega)
    _ = 2 ^ ((a - b - 1048576) / 65536 - 1 : ℤ) * 2 ^ (b / 65536 - 1 : ℤ) * 2 ^ 256 := by
        rw [zpow_add₀ (by norm_num), zpow_add₀ (by norm_num), hc]
    _ ≤ z ^ 256 * y ^ 256 * 2 ^ 256 :=
        mul_le_mul_of_nonneg_right (mul_le_mul h3.1 h2.1 (by positivity) (by positivity)) (by positivity)

theorem near_hi' {x y z : ℚ} (hx : 0 < x) (hy : 0 < y) {a b : Int} (h1 : Near x a) (h2 : Near y b)
    (h3 : Near z (a - b + 1048576)) : z * y ≤ x * 2 := by
  refine le_of_pow_le_pow_left₀ (n := 256) (by norm_num) (by positivity) ?_
  rw [mul_pow, mul_pow]
  have hc : (2 : ℚ) ^ 256 = 2 ^ (256 : ℤ) := by norm_num
  calc z ^ 256 * y ^ 256 ≤ 2 ^ ((a - b + 1048576) / 65536 + 2 : ℤ) * 2 ^ (b / 65536 + 2 : ℤ) :=
        mul_le_mul h3.2 h2.2 (by positivity) (by positivity)
    _ = 2 ^ ((a - b + 1048576) / 65536 + 2 + (b / 65536 + 2) : ℤ) := (zpow_add₀ (by norm_num) _ _).symm
    _ ≤ 2 ^ (a / 65536 - 1 + 256 : ℤ) := zpow_le_zpow_right₀ (by norm_num) (by omega)
    _ = 2 ^ (a / 65536 - 1 : ℤ) * 2 ^ 256 := by rw [zpow_add₀ (by norm_num), hc]
    _ ≤ x ^ 256 * 2 ^ 256 := mul_le_mul_of_nonneg_right h1.1 (by positivity)

/-! ### bisection -/

/-- position in the list of all positive numbers -/
def rank (m e : Nat) : Nat := e * 170141183460469231731687303715884105728 + m

theorem rank_lt {m e m' e' : Nat} (h : Nrm m) (h' : Nrm m') (hl : mg m e < mg m' e') : rank m e < rank m' e' := by
  unfold rank
  obtain ⟨h1, h2⟩ := h
  obtain ⟨h3, h4⟩ := h'
  rcases (mg_lt_iff ⟨h1, h2⟩ ⟨h3, h4⟩).1 hl with g | ⟨g1, g2⟩ <;> omega

/-- exponents for which products with `o` are in range -/
def Fe (e : Nat) : Prop := 280375465082880 ≤ e ∧ e < 282574488338432

/-- the middle of two numbers that are not neighbours -/
theorem mid_c {m₁ e₁ m₂ e₂ : Nat} (h1 : Nrm m₁) (h2 : Nrm m₂) (f1 : Fe e₁) (f2 : Fe e₂) (hl : mg m₁ e₁ + ulp e₁ < mg m₂ e₂) :
    ∃ m e t, Nrm m ∧ Fe e ∧ add (mk' false m₁ e₁) (mk' false m₂ e₂) = pure t ∧ shr t 1 = mk' false m e ∧
      mg m₁ e₁ < mg m e ∧ mg m e < mg m₂ e₂ := by
  have e1 := f1.1
  have e2 := f1.2
  have e3 := f2.1
  have e4 := f2.2
  have hp := ulp_pos e₁
  rcases add_same (s := false) (e₁ := e₁) (e₂ := e₂) h1 h2 (by omega) (by omega) (nz_exp (by omega)) (nz_exp (by omega)) with
    ⟨-, h⟩ | ⟨m, e, hm, he, g1, g2, g3, g4, g5, g6, g7⟩
  · omega
  have hhalf : mg m (e - 1) * 2 = mg m e := by
    have := mg_add m (e - 1) 1
    rw [Nat.sub_add_cancel (by omega), pow_one] at this
    exact this.symm
  obtain ⟨m', e', hm', s1, s2, s3, s4⟩ := step_c (s := false) h1 (e := e₁) (by omega)
  have h2u : mg m' e' + ulp e' ≤ mg m₂ e₂ := by
    by_contra hc
    have := mg_gap hm' h2 (not_le.1 hc) (le_refl _)
    linarith
  have hul : ulp e₁ ≤ ulp e' := by
    obtain ⟨k, rfl⟩ : ∃ k, e' = e₁ + k := ⟨e' - e₁, by omega⟩
    rw [ulp_add]
    exact le_mul_of_one_le_right hp.le (one_le_pow₀ (by norm_num))
  have hle : mg m' (e' + 1) ≤ mg m e := by
    apply mg_gap hm hm' g7
    rw [mg_add, pow_one]
    linarith
  rw [mg_add, pow_one] at hle
  -- the exponent of the middle
  have hlt : mg m (e - 1) < mg m₂ e₂ := by linarith
  have hgt : mg m₁ e₁ < mg m (e - 1) := by linarith
  refine ⟨m, e - 1, _, hm, ⟨?_, ?_⟩, g5, ?_, hgt, hlt⟩
  · rcases (mg_lt_iff h1 hm).1 hgt with g | ⟨g, -⟩ <;> omega
  · rcases (mg_lt_iff hm h2).1 hlt with g | ⟨g, -⟩ <;> omega
  · exact shr_mk hm g4 (by omega)

/-- the comparison of the bisection -/
def Cmp (s o : F192) (m e : Nat) (b : Bool) : Prop := ∃ p, mul o (mk' false m e) = pure p ∧ lt p s = b

theorem divLoop_c {s o : F192} (ng : Bool) (hmul : ∀ m e, Nrm m → Fe e → ∃ p, mul o (mk' false m e) = pure p) : ∀ (N : Nat) (m₁ e₁ m₂ e₂ : Nat),
    Nrm m₁ → Nrm m₂ → Fe e₁ → Fe e₂ → mg m₁ e₁ + ulp e₁ < mg m₂ e₂ → rank m₂ e₂ - rank m₁ e₁ ≤ N →
    ∃ m e m' e', Nrm m ∧ Fe e ∧ Nrm m' ∧ Fe e' ∧ mg m e = mg m' e' + ulp e' ∧
      (m' = m₁ ∧ e' = e₁ ∨ Cmp s o m' e' true) ∧ (m = m₂ ∧ e = e₂ ∨ Cmp s o m e false) ∧
      (mg m₁ e₁ ≤ mg m' e' ∧ mg m e ≤ mg m₂ e₂) ∧
      divLoop s o ng (mk' false m₁ e₁) (mk' false m₂ e₂) = pure (if ng then neg (mk' false m e) else mk' false m e) := by
  intro N
  induction N with
  | zero =>
    intro m₁ e₁ m₂ e₂ h1 h2 f1 f2 hl hN
    have := rank_lt h1 h2 (lt_trans (lt_add_of_pos_right _ (ulp_pos e₁)) hl)
    omega
  | succ N ih =>
    intro m₁ e₁ m₂ e₂ h1 h2 f1 f2 hl hN
    obtain ⟨m, e, t, hm, fe, ht, hs, g1, g2⟩ := mid_c h1 h2 f1 f2 hl
    obtain ⟨p, hp⟩ := hmul m e hm fe
    have r1 := rank_lt h1 hm g1
    have r2 := rank_lt hm h2 g2
    -- one step with the new bounds
    have key : ∀ (m₁ e₁ m₂ e₂ : Nat), Nrm m₁ → Nrm m₂ → Fe e₁ → Fe e₂ → mg m₁ e₁ < mg m₂ e₂ → rank m₂ e₂ - rank m₁ e₁ ≤ N →
      ∃ m e m' e', Nrm m ∧ Fe e ∧ Nrm m' ∧ Fe e' ∧ mg m e = mg m' e' + ulp e' ∧
        (m' = m₁ ∧ e' = e₁ ∨ Cmp s o m' e' true) ∧ (m = m₂ ∧ e = e₂ ∨ Cmp s o m e false) ∧ (mg m₁ e₁ ≤ mg m' e' ∧ mg m e ≤ mg m₂ e₂) ∧
        (do
          let n ← step_epsilon (mk' false m₁ e₁)
          if n = mk' false m₂ e₂ then pure (if ng then neg (mk' false m₂ e₂) else mk' false m₂ e₂)
          else divLoop s o ng (mk' false m₁ e₁) (mk' false m₂ e₂)) =
          (pure (if ng then neg (mk' false m e) else mk' false m e) : M F192) := by
      intro m₁ e₁ m₂ e₂ h1 h2 f1 f2 hl hN
      have e1 := f1.1
      have e2 := f1.2
      have e3 := f2.1
      obtain ⟨m', e', hm', s1, s2, s3, s4⟩ := step_c (s := false) h1 (e := e₁) (by omega)
      rw [s3, pure_bind]
      by_cases hc : mk' false m' e' = mk' false m₂ e₂
      · rw [if_pos hc]
        have hv : mg m' e' = mg m₂ e₂ := by
          have := congrArg fval hc
          rwa [fval_mk hm' (nz_exp (by omega)), fval_mk h2 (nz_exp (by omega)), sgn_false, one_mul, one_mul] at this
        exact ⟨m₂, e₂, m₁, e₁, h2, f2, h1, f1, by rw [← hv, s4], Or.inl ⟨rfl, rfl⟩, Or.inl ⟨rfl, rfl⟩, ⟨le_refl _, le_refl _⟩, rfl⟩
      · rw [if_neg hc]
        refine ih m₁ e₁ m₂ e₂ h1 h2 f1 f2 (lt_of_le_of_ne ?_ ?_) hN
        · by_contra hcc
          have := mg_gap h1 h2 (not_le.1 hcc) (le_refl _)
          linarith
        · intro heq
          apply hc
          rw [← s4] at heq
          apply fval_inj (valid_mk hm' (by omega)) (valid_mk h2 (by have := f2.2; omega))
          rw [fval_mk hm' (nz_exp (by omega)), fval_mk h2 (nz_exp (by omega)), heq]
    rw [divLoop, ht, pure_bind]
    dsimp only
    rw [hs, hp, pure_bind]
    cases hb : lt p s
    · rw [if_neg (by decide), if_neg (by decide)]
      obtain ⟨a, b, a', b', k1, k2, k3, k4, k5, k6, k7, k8, k9⟩ := key m₁ e₁ m e h1 hm f1 fe g1 (by omega)
      refine ⟨a, b, a', b', k1, k2, k3, k4, k5, k6, Or.inr ?_, ⟨k8.1, k8.2.trans g2.le⟩, k9⟩
      rcases k7 with ⟨rfl, rfl⟩ | k7
      · exact ⟨p, hp, hb⟩
      · exact k7
    · rw [if_pos rfl, if_pos rfl]
      obtain ⟨a, b, a', b', k1, k2, k3, k4, k5, k6, k7, k8, k9⟩ := key m e m₂ e₂ hm h2 fe f2 g2 (by omega)
      refine ⟨a, b, a', b', k1, k2, k3, k4, k5, Or.inr ?_, k7, ⟨g1.le.trans k8.1, k8.2⟩, k9⟩
      rcases k6 with ⟨rfl, rfl⟩ | k6
      · exact ⟨p, hp, hb⟩
      · exact k6

/-! ### division -/

/-- exponents of operands of multiplications -/
def Ge (e : Nat) : Prop := 140737488355328 + 1048576 ≤ e ∧ e < 422212465065984

/-- exponents of the arguments of the approximate logarithm -/
def LogE (e : Nat) : Prop := 0 < e ∧ (e < 9223372036854775808 ∨ 9223653511831486464 ≤ e) ∧ e < B64

/-- exponents of divisors -/
def He (e : Nat) : Prop := LogE e ∧ e < 18446461499221213184

theorem Ge.he {e : Nat} (h : Ge e) : He e := by
  obtain ⟨h1, h2⟩ := h
  exact ⟨⟨by omega, by omega, by omega⟩, by omega⟩

theorem mul_fe {a : Bool} {mo eo m e : Nat} (ho : Nrm mo) (he : He eo) (h1 : 1099511627776 ≤ eo) (hm : Nrm m) (hf : Fe e) : ∃ m' e', Nrm m' ∧ 0 < e' ∧ e' < B64 ∧
    mul (mk' a mo eo) (mk' false m e) = pure (mk' a m' e') ∧ mg m' e' ≤ mg mo eo * mg m e ∧
    mg mo eo * mg m e * (1 - 3 / 2 ^ 126) ≤ mg m' e' := by
  have h2 := he.2
  have h3 := hf.1
  have h4 := hf.2
  obtain ⟨m', e', g1, g2, g3, -, -, g4, g5, g6⟩ := mul_c (a := a) (b := false) ho hm (e₁ := eo) (e₂ := e)
    (nz_exp (by omega)) (nz_exp (by omega)) (by omega) (by omega)
  rw [Bool.bne_false] at g4
  exact ⟨m', e', g1, g3, g2, g4, g5, g6⟩

/-- products may underflow, but do not panic -/
theorem mul_he {mo eo m e : Nat} (ho : Nrm mo) (he : He eo) (hm : Nrm m) (hf : Fe e) : ∃ p, mul (mk' false mo eo) (mk' false m e) = pure p := by
  have h1 := he.1.1
  have h2 := he.2
  have h3 := hf.1
  have h4 := hf.2
  by_cases hs : 281474976710656 ≤ eo + e
  · obtain ⟨m', e', -, -, -, -, -, g, -⟩ := mul_c (a := false) (b := false) ho hm (e₁ := eo) (e₂ := e)
      (nz_exp (by omega)) (nz_exp (by omega)) hs (by omega)
    exact ⟨_, g⟩
  · rw [mul, is_zero_mk ho, is_zero_mk hm, if_neg (by simp; omega), mk_exp, mk_exp, u64Add, uAdd, if_pos (by omega), pure_bind,
      if_pos (by unfold EXP_COEFF; omega)]
    exact ⟨_, rfl⟩

theorem gap_c {n₁ f₁ n₂ f₂ : Nat} {x y : ℚ} (p1 : Nrm n₁) (pos2 : 0 < y) (lo : mg n₁ f₁ * y < x) (hi : x * (1 + 1 / 64) ≤ mg n₂ f₂ * y) :
    mg n₁ f₁ + ulp f₁ < mg n₂ f₂ := by
  have hu : ulp f₁ * S127 ≤ mg n₁ f₁ := by
    rw [mg_eq, mul_comm]
    exact mul_le_mul_of_nonneg_right (by exact_mod_cast p1.1) (ulp_pos f₁).le
  have hp := mg_pos (e := f₁) p1
  refine lt_of_mul_lt_mul_right (a := y) ?_ pos2.le
  have : ulp f₁ ≤ mg n₁ f₁ * (1 / 64) := by
    have := ulp_pos f₁
    push_cast at hu
    linarith
  have h3 : (mg n₁ f₁ + ulp f₁) * y ≤ mg n₁ f₁ * (1 + 1 / 64) * y :=
    mul_le_mul_of_nonneg_right (by linarith) pos2.le
  have h4 : mg n₁ f₁ * y * (1 + 1 / 64) < x * (1 + 1 / 64) := mul_lt_mul_of_pos_right lo (by norm_num)
  linarith

theorem expI64_any {s : Bool} {m e : Nat} (he : LogE e) : ∃ E k : Int, expI64 (mk' s m e) = pure E ∧ (e : Int) - 281474976710656 = E + 18446744073709551616 * k ∧
    -9223372036854775808 ≤ E ∧ E + 127 ≤ 9223372036854775807 := by
  obtain ⟨h0, h1 | h1, h2⟩ := he
  · exact ⟨_, 0, expI64_c h1, by omega, by omega, by omega⟩
  · refine ⟨(e : Int) - 18446744073709551616 - 281474976710656, 1, ?_, by omega, by omega, by omega⟩
    rw [expI64, mk_exp, show asI64 e = (e : Int) - 18446744073709551616 by unfold asI64; omega]
    unfold EXP_COEFF
    exact i64_eq (by omega) (by omega)

/-- The approximate logarithm sees the exponent modulo `2^40`. -/
theorem fast_log2_mod {s : Bool} {m e e' : Nat} (h : Nrm m) (he : LogE e) (he' : LogE e') {k : Int} (hk : (e : Int) = e' + 1099511627776 * k) :
    fast_log2 (mk' s m e) = fast_log2 (mk' s m e') := by
  obtain ⟨E, j, a1, a2, a3, a4⟩ := expI64_any (s := s) (m := m) he
  obtain ⟨E', j', b1, b2, b3, b4⟩ := expI64_any (s := s) (m := m) he'
  rw [fast_log2, fast_log2, a1, b1, pure_bind, pure_bind, i64_eq (by omega) (by omega), pure_bind,
    i64_eq (by omega) (by omega), pure_bind, low_mk h, low_mk h]
  have : asI64 ((E + 127) * 16777216) = asI64 ((E' + 127) * 16777216) := by
    unfold asI64; omega
  rw [this]

/-- exponents congruent modulo `2^40`, the second within the range of the approximate logarithm -/
theorem exists_mod {e : Nat} : ∃ e' : Nat, Ex e' ∧ ∃ k : Int, (e : Int) = e' + 1099511627776 * k := by
  refine ⟨(((e : Int) - 281474976710529 + 549755813888) % 1099511627776 + (281474976710529 - 549755813888)).toNat, ⟨by omega, by omega⟩,
    ((e : Int) - 281474976710529 + 549755813888) / 1099511627776, by omega⟩

theorem Ex.ge {e : Nat} (h : Ex e) : Ge e := ⟨by have := h.1; omega, by have := h.2; omega⟩

theorem Ex.logE {e : Nat} (h : Ex e) : LogE e := h.ge.he.1

theorem mg_zadd (m : Nat) {c e : Nat} {k : Int} (h : (c : Int) = e + k) : mg m c = mg m e * 2 ^ k := by
  rw [mg_eq, mg_eq, ulp, ulp, h, add_sub_right_comm, zpow_add₀ (by norm_num), mul_assoc]

/-- the bisection between two bounds -/
theorem div_raw {a b : Bool} {m₁ e₁ m₂ e₂ f₁ f₂ n₁ n₂ : Nat} {L₁ L₂ : Int} (h1 : Nrm m₁) (h2 : Nrm m₂) (g1 : LogE e₁) (g2 : He e₂)
    (l1 : fast_log2 (mk' a m₁ e₁) = pure L₁) (l2 : fast_log2 (mk' b m₂ e₂) = pure L₂)
    (b0 : -9223372036854775808 ≤ L₁ - L₂) (b1 : L₁ - L₂ ≤ 9223372036854775807)
    (b2 : -9223372036854775808 ≤ L₁ - L₂ - 1048576) (b3 : L₁ - L₂ + 1048576 ≤ 9223372036854775807)
    (p1 : Nrm n₁) (q1 : Nrm n₂) (p2 : Fe f₁) (q2 : Fe f₂)
    (p3 : fast_pow2 (L₁ - L₂ - 1048576) = pure (mk' false n₁ f₁)) (q3 : fast_pow2 (L₁ - L₂ + 1048576) = pure (mk' false n₂ f₂))
    (hgap : mg n₁ f₁ + ulp f₁ < mg n₂ f₂) :
    ∃ m e m' e', Nrm m ∧ Fe e ∧ Nrm m' ∧ Fe e' ∧ mg m e = mg m' e' + ulp e' ∧
      div (mk' a m₁ e₁) (mk' b m₂ e₂) = pure (mk' (a != b) m e) ∧
      (m' = n₁ ∧ e' = f₁ ∨ Cmp (mk' false m₁ e₁) (mk' false m₂ e₂) m' e' true) ∧
      (m = n₂ ∧ e = f₂ ∨ Cmp (mk' false m₁ e₁) (mk' false m₂ e₂) m e false) ∧ mg n₁ f₁ ≤ mg m' e' ∧ mg m e ≤ mg n₂ f₂ := by
  have x1 := g1.1
  have y1 := g2.1.1
  have hmul : ∀ m e, Nrm m → Fe e → ∃ p, mul (mk' false m₂ e₂) (mk' false m e) = pure p := fun m e hm hf => mul_he h2 g2 hm hf
  obtain ⟨m, e, m', e', r1, r2, r3, r4, r5, r6, r7, r8, r9⟩ := divLoop_c (s := mk' false m₁ e₁) (o := mk' false m₂ e₂) (a != b) hmul
    _ n₁ f₁ n₂ f₂ p1 q1 p2 q2 hgap (le_refl _)
  refine ⟨m, e, m', e', r1, r2, r3, r4, r5, ?_, r6, r7, r8⟩
  rw [div, is_zero_mk h1, is_zero_mk h2, if_neg (by rw [decide_eq_true_eq]; omega), if_neg (by rw [decide_eq_true_eq]; omega),
    l1, pure_bind, l2, pure_bind, i64_eq (by omega) (by omega), pure_bind, i64_eq (by omega) (by omega), pure_bind,
    i64_eq (by omega) (by omega), pure_bind, p3, pure_bind, q3, pure_bind, abs_mk h1, abs_mk h2, is_neg_mk h1, is_neg_mk h2, r9]
  cases a != b
  · rw [if_neg (by decide)]
  · rw [if_pos rfl, neg_mk r1 (nz_exp (by have := r2.1; omega))]; rfl

/-- The exponents of the operands, where the approximate logarithms are those of `e₁`, `e₂`. -/
structure DMod (f₁ f₂ e₁ e₂ : Nat) : Prop where
  g₁ : LogE f₁
  g₂ : He f₂
  x₁ : Ex e₁
  x₂ : Ex e₂
  mod₁ : ∃ k : Int, (f₁ : Int) = e₁ + 1099511627776 * k
  mod₂ : ∃ k : Int, (f₂ : Int) = e₂ + 1099511627776 * k

/-- exponents of which the difference of the approximate logarithms is always in range -/
structure DPair (f₁ f₂ e₁ e₂ : Nat) : Prop extends DMod f₁ f₂ e₁ e₂ where
  lo : e₁ ≤ e₂ + 549755813886
  hi : e₂ ≤ e₁ + 549755813886

/-- the bounds of the bisection -/
theorem div_all {a b : Bool} {m₁ e₁ m₂ e₂ c₁ c₂ : Nat} (h1 : Nrm m₁) (h2 : Nrm m₂) (d : DMod c₁ c₂ e₁ e₂) :
    Panics (div (mk' a m₁ c₁) (mk' b m₂ c₂)) ∧ (e₂ + 549755813887 ≤ e₁ ∨ e₁ + 549755813887 ≤ e₂) ∨
    (e₁ ≤ e₂ + 549755813889 ∧ e₂ ≤ e₁ + 549755813889) ∧
    ∃ n₁ f₁ n₂ f₂ m e m' e', Nrm n₁ ∧ Nrm n₂ ∧ mg n₁ f₁ * mg m₂ e₂ < mg m₁ e₁ ∧ mg m₁ e₁ * (1 + 1 / 64) ≤ mg n₂ f₂ * mg m₂ e₂ ∧
      mg m₁ e₁ ≤ mg n₁ f₁ * mg m₂ e₂ * 2 ∧ mg n₂ f₂ * mg m₂ e₂ ≤ mg m₁ e₁ * 2 ∧
      Nrm m ∧ Fe e ∧ Nrm m' ∧ Fe e' ∧ mg m e = mg m' e' + ulp e' ∧
      div (mk' a m₁ c₁) (mk' b m₂ c₂) = pure (mk' (a != b) m e) ∧
      (m' = n₁ ∧ e' = f₁ ∨ Cmp (mk' false m₁ c₁) (mk' false m₂ c₂) m' e' true) ∧
      (m = n₂ ∧ e = f₂ ∨ Cmp (mk' false m₁ c₁) (mk' false m₂ c₂) m e false) ∧ mg n₁ f₁ ≤ mg m' e' ∧ mg m e ≤ mg n₂ f₂ := by
  obtain ⟨g1, g2, x1, x2, ⟨k1, k1'⟩, ⟨k2, k2'⟩⟩ := d
  have x1' := x1.1
  have x1'' := x1.2
  have x2' := x2.1
  have x2'' := x2.2
  have z1 := g1.1
  have z2 := g2.1.1
  obtain ⟨L₁, l1, l2, l3, l4⟩ := fast_log2_c (s := a) h1 x1
  obtain ⟨L₂, j1, j2, j3, j4⟩ := fast_log2_c (s := b) h2 x2
  rw [← fast_log2_mod h1 g1 x1.logE k1'] at l1
  rw [← fast_log2_mod h2 g2.1 x2.logE k2'] at j1
  by_cases hL : -9223372036854775808 ≤ L₁ - L₂ - 1048576 ∧ L₁ - L₂ + 1048576 ≤ 9223372036854775807
  · right
    obtain ⟨hL1, hL2⟩ := hL
    obtain ⟨n₁, f₁, p1, p2, p3, p4⟩ := fast_pow2_c (n := L₁ - L₂ - 1048576) (by omega) (by omega)
    obtain ⟨n₂, f₂, q1, q2, q3, q4⟩ := fast_pow2_c (n := L₁ - L₂ + 1048576) (by omega) (by omega)
    have fe1 : Fe f₁ := ⟨by omega, by omega⟩
    have fe2 : Fe f₂ := ⟨by omega, by omega⟩
    have pos1 := mg_pos (e := e₁) h1
    have pos2 := mg_pos (e := e₂) h2
    have lo := near_lo pos1 pos2 l4 j4 p4
    have hi := near_hi pos2 (mg_pos (e := f₂) q1) l4 j4 q4
    obtain ⟨m, e, m', e', r⟩ := div_raw h1 h2 g1 g2 l1 j1 (by omega) (by omega) (by omega) (by omega) p1 q1 fe1 fe2 p3 q3 (gap_c p1 pos2 lo hi)
    exact ⟨by omega, n₁, f₁, n₂, f₂, m, e, m', e', p1, q1, lo, hi, near_lo' pos2 (mg_pos (e := f₁) p1) l4 j4 p4, near_hi' pos1 pos2 l4 j4 q4, r⟩
  · left
    refine ⟨⟨.overflow, ?_⟩, by omega⟩
    rw [div, is_zero_mk h1, is_zero_mk h2, if_neg (by rw [decide_eq_true_eq]; omega), if_neg (by rw [decide_eq_true_eq]; omega),
      l1, pure_bind, j1, pure_bind]
    by_cases c0 : -9223372036854775808 ≤ L₁ - L₂ ∧ L₁ - L₂ ≤ 9223372036854775807
    swap
    · rw [i64Chk, if_neg c0]; rfl
    rw [i64_eq c0.1 c0.2, pure_bind]
    by_cases c1 : -9223372036854775808 ≤ L₁ - L₂ - 1048576 ∧ L₁ - L₂ - 1048576 ≤ 9223372036854775807
    swap
    · rw [i64Chk, if_neg c1]; rfl
    rw [i64_eq c1.1 c1.2, pure_bind, i64Chk, if_neg (by omega)]
    rfl

theorem div_bounds {a b : Bool} {m₁ e₁ m₂ e₂ c₁ c₂ : Nat} (h1 : Nrm m₁) (h2 : Nrm m₂) (d : DMod c₁ c₂ e₁ e₂)
    (np : ¬Panics (div (mk' a m₁ c₁) (mk' b m₂ c₂))) :
    ∃ n₁ f₁ n₂ f₂ m e m' e', Nrm n₁ ∧ Nrm n₂ ∧ mg n₁ f₁ * mg m₂ e₂ < mg m₁ e₁ ∧ mg m₁ e₁ * (1 + 1 / 64) ≤ mg n₂ f₂ * mg m₂ e₂ ∧
      mg m₁ e₁ ≤ mg n₁ f₁ * mg m₂ e₂ * 2 ∧ mg n₂ f₂ * mg m₂ e₂ ≤ mg m₁ e₁ * 2 ∧
      Nrm m ∧ Fe e ∧ Nrm m' ∧ Fe e' ∧ mg m e = mg m' e' + ulp e' ∧
      div (mk' a m₁ c₁) (mk' b m₂ c₂) = pure (mk' (a != b) m e) ∧
      (m' = n₁ ∧ e' = f₁ ∨ Cmp (mk' false m₁ c₁) (mk' false m₂ c₂) m' e' true) ∧
      (m = n₂ ∧ e = f₂ ∨ Cmp (mk' false m₁ c₁) (mk' false m₂ c₂) m e false) ∧ mg n₁ f₁ ≤ mg m' e' ∧ mg m e ≤ mg n₂ f₂ := by
  rcases div_all (a := a) (b := b) h1 h2 d with ⟨h, -⟩ | ⟨-, h⟩
  · exact absurd h np
  · exact h

theorem DPair.np {a b : Bool} {m₁ e₁ m₂ e₂ c₁ c₂ : Nat} (h1 : Nrm m₁) (h2 : Nrm m₂) (d : DPair c₁ c₂ e₁ e₂) :
    ¬Panics (div (mk' a m₁ c₁) (mk' b m₂ c₂)) := by
  have l1 := d.lo
  have l2 := d.hi
  rcases div_all (a := a) (b := b) h1 h2 d.toDMod with ⟨-, h⟩ | ⟨-, n₁, f₁, n₂, f₂, m, e, m', e', -, -, -, -, -, -, -, -, -, -, -, h, -⟩
  · omega
  · rintro ⟨p, hp⟩
    rw [h] at hp
    cases hp

/-- exponents for which the approximate logarithm panics -/
theorem fast_log2_panics {s : Bool} {m e : Nat} (h1 : 9223372036854775808 ≤ e) (h2 : e < 9223653511831486464) : Panics (fast_log2 (mk' s m e)) := by
  refine ⟨.overflow, ?_⟩
  rw [fast_log2, expI64, mk_exp, show asI64 e = (e : Int) - 18446744073709551616 by unfold asI64; omega, i64Chk,
    if_neg (by unfold EXP_COEFF; omega)]
  rfl

theorem fast_log2_any {s : Bool} {m e : Nat} (h : Nrm m) (he : LogE e) : ∃ L, fast_log2 (mk' s m e) = pure L := by
  obtain ⟨e', x, k, hk⟩ := exists_mod (e := e)
  obtain ⟨L, l, -⟩ := fast_log2_c (s := s) h x
  exact ⟨L, by rw [fast_log2_mod h he x.logE hk, l]⟩

theorem div_log_panics {a b : Bool} {m₁ e₁ m₂ e₂ : Nat} (h1 : Nrm m₁) (h2 : Nrm m₂) (z1 : 0 < e₁) (z2 : 0 < e₂) (b1 : e₁ < B64)
    (h : 9223372036854775808 ≤ e₁ ∧ e₁ < 9223653511831486464 ∨ 9223372036854775808 ≤ e₂ ∧ e₂ < 9223653511831486464) :
    Panics (div (mk' a m₁ e₁) (mk' b m₂ e₂)) := by
  rw [div, is_zero_mk h1, is_zero_mk h2, if_neg (by rw [decide_eq_true_eq]; omega), if_neg (by rw [decide_eq_true_eq]; omega)]
  by_cases hc : 9223372036854775808 ≤ e₁ ∧ e₁ < 9223653511831486464
  · obtain ⟨p, hp⟩ := fast_log2_panics (s := a) (m := m₁) hc.1 hc.2
    rw [hp]
    exact ⟨p, rfl⟩
  · obtain ⟨L, l⟩ := fast_log2_any (s := a) h1 (e := e₁) ⟨z1, by omega, b1⟩
    obtain ⟨p, hp⟩ := fast_log2_panics (s := b) (m := m₂) (h.resolve_left hc).1 (h.resolve_left hc).2
    rw [l, pure_bind, hp]
    exact ⟨p, rfl⟩

/-- products with divisors near the end of the range overflow -/
theorem div_top_panics {a b : Bool} {m₁ e₁ m₂ e₂ : Nat} (h1 : Nrm m₁) (h2 : Nrm m₂) (g1 : LogE e₁) (g2 : LogE e₂) (h : 18446463698244468736 ≤ e₂) :
    Panics (div (mk' a m₁ e₁) (mk' b m₂ e₂)) := by
  obtain ⟨c₁, x1, k₁, hk₁⟩ := exists_mod (e := e₁)
  obtain ⟨c₂, x2, k₂, hk₂⟩ := exists_mod (e := e₂)
  have z1 := g1.1
  have x1' := x1.1
  have x1'' := x1.2
  have x2' := x2.1
  have x2'' := x2.2
  obtain ⟨L₁, l1, l2, l3, l4⟩ := fast_log2_c (s := a) h1 x1
  obtain ⟨L₂, j1, j2, j3, j4⟩ := fast_log2_c (s := b) h2 x2
  rw [← fast_log2_mod h1 g1 x1.logE hk₁] at l1
  rw [← fast_log2_mod h2 g2 x2.logE hk₂] at j1
  refine ⟨.overflow, ?_⟩
  rw [div, is_zero_mk h1, is_zero_mk h2, if_neg (by rw [decide_eq_true_eq]; omega), if_neg (by rw [decide_eq_true_eq]; omega),
    l1, pure_bind, j1, pure_bind]
  by_cases c0 : -9223372036854775808 ≤ L₁ - L₂ ∧ L₁ - L₂ ≤ 9223372036854775807
  swap
  · rw [i64Chk, if_neg c0]; rfl
  rw [i64_eq c0.1 c0.2, pure_bind]
  by_cases c1 : -9223372036854775808 ≤ L₁ - L₂ - 1048576 ∧ L₁ - L₂ - 1048576 ≤ 9223372036854775807
  swap
  · rw [i64Chk, if_neg c1]; rfl
  rw [i64_eq c1.1 c1.2, pure_bind]
  by_cases c2 : -9223372036854775808 ≤ L₁ - L₂ + 1048576 ∧ L₁ - L₂ + 1048576 ≤ 9223372036854775807
  swap
  · rw [i64Chk, if_neg c2]; rfl
  rw [i64_eq c2.1 c2.2, pure_bind]
  obtain ⟨n₁, f₁, p1, p2, p3, p4⟩ := fast_pow2_c (n := L₁ - L₂ - 1048576) (by omega) (by omega)
  obtain ⟨n₂, f₂, q1, q2, q3, q4⟩ := fast_pow2_c (n := L₁ - L₂ + 1048576) (by omega) (by omega)
  have pos1 := mg_pos (e := c₁) h1
  have pos2 := mg_pos (e := c₂) h2
  obtain ⟨m, e, t, hm, fe, ht, hs, -⟩ := mid_c p1 q1 (e₁ := f₁) (e₂ := f₂) ⟨by omega, by omega⟩ ⟨by omega, by omega⟩
    (gap_c p1 pos2 (near_lo pos1 pos2 l4 j4 p4) (near_hi pos2 (mg_pos (e := f₂) q1) l4 j4 q4))
  have f1 := fe.1
  rw [p3, pure_bind, q3, pure_bind, divLoop, ht, pure_bind]
  dsimp only
  rw [hs, abs_mk h2, mul, is_zero_mk h2, is_zero_mk hm, if_neg (by simp; omega), mk_exp, mk_exp, u64Add, uAdd, if_neg (by omega)]
  rfl

theorem one_pair : DPair 281474976710529 281474976710529 281474976710529 281474976710529 := by
  refine ⟨⟨⟨?_, ?_, ?_⟩, ⟨⟨?_, ?_, ?_⟩, ?_⟩, ⟨?_, ?_⟩, ⟨?_, ?_⟩, ⟨0, rfl⟩, ⟨0, rfl⟩⟩, ?_, ?_⟩ <;> norm_num

/-- When the differences of the exponents agree the bounds enclose the quotient. -/
theorem div_c {a b : Bool} {m₁ e₁ m₂ e₂ c₁ c₂ : Nat} (h1 : Nrm m₁) (h2 : Nrm m₂) (d : DMod c₁ c₂ e₁ e₂)
    (hy : 1099511627776 ≤ c₂) (np : ¬Panics (div (mk' a m₁ c₁) (mk' b m₂ c₂))) (hd : (c₁ : Int) - c₂ = e₁ - e₂) :
    ∃ m e m' e', Nrm m ∧ Fe e ∧ Nrm m' ∧ Fe e' ∧ mg m e = mg m' e' + ulp e' ∧
      div (mk' a m₁ c₁) (mk' b m₂ c₂) = pure (mk' (a != b) m e) ∧
      Cmp (mk' false m₁ c₁) (mk' false m₂ c₂) m' e' true ∧ Cmp (mk' false m₁ c₁) (mk' false m₂ c₂) m e false := by
  obtain ⟨n₁, f₁, n₂, f₂, m, e, m', e', -, -, lo, hi, -, -, r1, r2, r3, r4, r5, r0, r6, r7, -⟩ := div_bounds (a := a) (b := b) h1 h2 d np
  have x1 := d.g₁.1
  have x2 := d.g₁.2.2
  have pos1 := mg_pos (e := c₁) h1
  have v1 := valid_mk (s := false) h1 (e := c₁) (by omega)
  -- the scaled bounds
  have sc : ∀ x y : ℚ, x * mg m₂ e₂ < mg m₁ e₁ * y → x * mg m₂ c₂ < mg m₁ c₁ * y := by
    intro x y h
    rw [mg_zadd m₁ (show (c₁ : Int) = e₁ + ((c₁ : Int) - e₁) by omega), mg_zadd m₂ (show (c₂ : Int) = e₂ + ((c₁ : Int) - e₁) by omega)]
    have p : (0 : ℚ) < 2 ^ ((c₁ : Int) - e₁ : ℤ) := by positivity
    have := mul_lt_mul_of_pos_right h p
    linarith
  have lo' : mg n₁ f₁ * mg m₂ c₂ < mg m₁ c₁ := by
    have := sc (mg n₁ f₁) 1 (by rw [mul_one]; exact lo)
    rwa [mul_one] at this
  have hi' : mg m₁ c₁ * (1 + 1 / 64) ≤ mg n₂ f₂ * mg m₂ c₂ := by
    by_contra hc
    rw [mg_zadd m₁ (show (c₁ : Int) = e₁ + ((c₁ : Int) - e₁) by omega), mg_zadd m₂ (show (c₂ : Int) = e₂ + ((c₁ : Int) - e₁) by omega)] at hc
    have p : (0 : ℚ) < 2 ^ ((c₁ : Int) - e₁ : ℤ) := by positivity
    have := mul_le_mul_of_nonneg_right hi p.le
    linarith
  refine ⟨m, e, m', e', r1, r2, r3, r4, r5, r0, ?_, ?_⟩
  · rcases r6 with ⟨rfl, rfl⟩ | r6
    · obtain ⟨m'', e'', c1, c2, c3, c4, c5, c6⟩ := mul_fe (a := false) h2 d.g₂ hy r3 r4
      refine ⟨_, c4, ?_⟩
      rw [lt_c (valid_mk c1 c3) v1, decide_eq_true_eq, fval_mk c1 (nz_exp c2), fval_mk h1 (nz_exp (by omega)), sgn_false, one_mul, one_mul]
      linarith [mul_comm (mg m₂ c₂) (mg m' e')]
    · exact r6
  · rcases r7 with ⟨rfl, rfl⟩ | r7
    · obtain ⟨m'', e'', c1, c2, c3, c4, c5, c6⟩ := mul_fe (a := false) h2 d.g₂ hy r1 r2
      refine ⟨_, c4, ?_⟩
      rw [lt_c (valid_mk c1 c3) v1, decide_eq_false_iff_not, not_lt, fval_mk c1 (nz_exp c2), fval_mk h1 (nz_exp (by omega)), sgn_false,
        one_mul, one_mul]
      refine le_trans ?_ c6
      rw [mul_comm (mg m₂ c₂)]
      have : mg m₁ c₁ * (1 + 1 / 64) * (1 - 3 / 2 ^ 126) ≤ mg m e * mg m₂ c₂ * (1 - 3 / 2 ^ 126) :=
        mul_le_mul_of_nonneg_right hi' (by norm_num)
      refine le_trans ?_ this
      rw [mul_assoc]
      exact le_mul_of_one_le_right pos1.le (by norm_num)
    · exact r7

/-- the error of the quotient -/
theorem div_err' {a b : Bool} {m₁ e₁ m₂ e₂ c₁ c₂ : Nat} (h1 : Nrm m₁) (h2 : Nrm m₂) (d : DMod e₁ e₂ c₁ c₂)
    (hy : 1099511627776 ≤ e₂) (np : ¬Panics (div (mk' a m₁ e₁) (mk' b m₂ e₂))) (hd : (e₁ : Int) - e₂ = c₁ - c₂) :
    ∃ m e, Nrm m ∧ Fe e ∧ div (mk' a m₁ e₁) (mk' b m₂ e₂) = pure (mk' (a != b) m e) ∧
      mg m₁ e₁ / mg m₂ e₂ ≤ mg m e ∧ mg m e ≤ mg m₁ e₁ / mg m₂ e₂ * (1 + 1 / 2 ^ 124) := by
  have x1 := d.g₁.1
  have x2 := d.g₁.2.2
  obtain ⟨m, e, m', e', r1, r2, r3, r4, r5, r6, ⟨p, p1, p2⟩, ⟨q, q1, q2⟩⟩ := div_c (a := a) (b := b) h1 h2 d hy np hd
  have pos1 := mg_pos (e := e₁) h1
  have pos2 := mg_pos (e := e₂) h2
  have v1 := valid_mk (s := false) h1 (e := e₁) (by omega)
  refine ⟨m, e, r1, r2, r6, ?_, ?_⟩
  · obtain ⟨m'', e'', c1, c2, c3, c4, c5, c6⟩ := mul_fe (a := false) h2 d.g₂ hy r1 r2
    obtain rfl : mk' false m'' e'' = q := by
      rw [c4] at q1
      exact Except.ok.inj (Option.some.inj q1)
    rw [lt_c (valid_mk c1 c3) v1, decide_eq_false_iff_not, not_lt, fval_mk c1 (nz_exp c2), fval_mk h1 (nz_exp (by omega)), sgn_false,
        one_mul, one_mul] at q2
    rw [div_le_iff₀ pos2, mul_comm]
    exact q2.trans c5
  · obtain ⟨m'', e'', c1, c2, c3, c4, c5, c6⟩ := mul_fe (a := false) h2 d.g₂ hy r3 r4
    obtain rfl : mk' false m'' e'' = p := by
      rw [c4] at p1
      exact Except.ok.inj (Option.some.inj p1)
    rw [lt_c (valid_mk c1 c3) v1, decide_eq_true_eq, fval_mk c1 (nz_exp c2), fval_mk h1 (nz_exp (by omega)), sgn_false,
        one_mul, one_mul] at p2
    have hu : ulp e' * S127 ≤ mg m' e' := by
      rw [mg_eq, mul_comm]
      exact mul_le_mul_of_nonneg_right (by exact_mod_cast r3.1) (ulp_pos e').le
    push_cast at hu
    have hq : mg m' e' * (1 - 3 / 2 ^ 126) ≤ mg m₁ e₁ / mg m₂ e₂ := by
      rw [le_div_iff₀ pos2]
      linarith [mul_comm (mg m₂ e₂) (mg m' e')]
    have hp := mg_pos (e := e') r3
    have h3 : mg m e ≤ mg m' e' * (1 + 1 / 2 ^ 127) := by
      rw [r5]; linarith
    refine h3.trans ?_
    have h4 := mul_le_mul_of_nonneg_right hq (show (0 : ℚ) ≤ 1 + 1 / 2 ^ 124 by norm_num)
    refine le_trans ?_ h4
    rw [mul_assoc]
    exact mul_le_mul_of_nonneg_left (by norm_num) hp.le

/-- exponents of operands, small enough to have every quotient -/
def De (e : Nat) : Prop := 281474976710656 ≤ e + 274877906816 ∧ e < 281474976710656 + 274877906816

theorem De.ex {e : Nat} (h : De e) : Ex e := ⟨by have := h.1; omega, by have := h.2; omega⟩

theorem div_err {a b : Bool} {m₁ e₁ m₂ e₂ : Nat} (h1 : Nrm m₁) (h2 : Nrm m₂) (d1 : De e₁) (d2 : De e₂) :
    ∃ m e, Nrm m ∧ Fe e ∧ div (mk' a m₁ e₁) (mk' b m₂ e₂) = pure (mk' (a != b) m e) ∧
      mg m₁ e₁ / mg m₂ e₂ ≤ mg m e ∧ mg m e ≤ mg m₁ e₁ / mg m₂ e₂ * (1 + 1 / 2 ^ 124) := by
  have x1 := d1.1
  have x2 := d1.2
  have y1 := d2.1
  have y2 := d2.2
  have d : DPair e₁ e₂ e₁ e₂ := ⟨⟨d1.ex.logE, d2.ex.ge.he, d1.ex, d2.ex, ⟨0, by omega⟩, ⟨0, by omega⟩⟩, by omega, by omega⟩
  exact div_err' h1 h2 d.toDMod (by omega) (d.np h1 h2) rfl

end F192
end Hmath
