import Verif.Proofs.Fp192Ratio

/-!
# 192-bit floating point numbers: truncation, floor, ceiling, rounding, fraction
-/

namespace Hmath
namespace F192

scoped notation "C48" => (281474976710656 : Nat)

/-! ### truncation -/

theorem clear_dg {s : Bool} {m k : Nat} (h : Nrm m) (hk : k ≤ 127) :
    dg s m / 2 ^ k * 2 ^ k = dg s (m / 2 ^ k * 2 ^ k) ∧ Nrm (m / 2 ^ k * 2 ^ k) := by
  have hp : S127 = 2 ^ (127 - k) * 2 ^ k := by rw [← pow_add, show 127 - k + k = 127 by omega]; norm_num
  have hpos : 0 < 2 ^ k := by positivity
  obtain ⟨d, hd⟩ : ∃ d, m = S127 + d := ⟨m - S127, by have := h.1; omega⟩
  have h1 : m / 2 ^ k * 2 ^ k = S127 + d / 2 ^ k * 2 ^ k := by
    rw [hd, hp, add_comm (_ * _) d, Nat.add_mul_div_right _ _ hpos]; ring
  have h2 : (S127 + d) / 2 ^ k * 2 ^ k = S127 + d / 2 ^ k * 2 ^ k := by rw [← hd, h1]
  have h3 := Nat.div_mul_le_self d (2 ^ k)
  rw [h1]
  generalize hw : d / 2 ^ k * 2 ^ k = w at *
  refine ⟨?_, ?_, ?_⟩
  · cases s
    · rw [dg_false, dg_false, hd, show S127 + d - S127 = d by omega, show S127 + w - S127 = w by omega]
      exact hw
    · rw [dg_true, dg_true, hd, show S127 + d - S127 = d by omega, show S127 + w - S127 = w by omega]
      exact h2
  · omega
  · have := h.2; omega

theorem truncate_mk {s : Bool} {m e : Nat} (h : Nrm m) (h0 : ¬Z s m e) (he : e < 9223372036854775808) :
    truncate (mk' s m e) = if e + 128 ≤ C48 then pure ZERO else if C48 ≤ e then pure (mk' s m e)
      else pure (mk' s (m / 2 ^ (C48 - e) * 2 ^ (C48 - e)) e) := by
  rw [truncate, is_zero_mk h, if_neg (by simpa [Z] using h0), expI64_c he, pure_bind]
  by_cases h1 : e + 128 ≤ C48
  · rw [if_pos h1, if_pos (by omega)]
  · rw [if_neg h1, if_neg (by omega)]
    by_cases h2 : C48 ≤ e
    · rw [if_pos h2, if_pos (by omega)]
    · have hk : (-((e : Int) - 281474976710656)).toNat = C48 - e := by omega
      obtain ⟨g1, g2⟩ := clear_dg (s := s) (k := C48 - e) h (by omega)
      have hb : dg s (m / 2 ^ (C48 - e) * 2 ^ (C48 - e)) < 2 ^ 128 := by
        have := (valid_mk (s := s) (e := 0) g2 (by norm_num)).1
        rw [mk_digits] at this
        omega
      rw [if_neg h2, if_neg (by omega), hk, clearLow, uShr_eq (by omega), pure_bind, uShl_eq (by omega), mk_digits,
        g1, Nat.mod_eq_of_lt hb, pure_bind]
      rfl

/-! ### exact sums and differences -/

theorem trunc_exact {K m e : Nat} {v : ℚ} (hv : v = mg K e) (h : Trunc v m e) : mg m e = v := by
  obtain ⟨h1, h2⟩ := h
  rw [hv, mg_eq, mg_eq] at *
  have hu := ulp_pos e
  have a1 : (m : ℚ) ≤ K := le_of_mul_le_mul_right h1 hu
  have a2 : (K : ℚ) < m + 1 := lt_of_mul_lt_mul_right (by linarith) (le_of_lt hu)
  have a1' : m ≤ K := by exact_mod_cast a1
  have a2' : K < m + 1 := by exact_mod_cast a2
  rw [show m = K by omega]

theorem nat_mg {N e : Nat} (he : e ≤ C48) : (N : ℚ) = mg (N * 2 ^ (C48 - e)) e := by
  rw [mg_shift, show e + (C48 - e) = C48 by omega, mg_eq, ulp_coeff, mul_one]

/-- one more -/
theorem inc_c {s : Bool} {T N k : Nat} (h : Nrm T) (hT : T = N * 2 ^ k) (k1 : 1 ≤ k) (k2 : k ≤ 127) :
    (∃ m e, Nrm m ∧ e < B64 ∧ 0 < e ∧ mg m e = N + 1 ∧
      add (mk' s T (C48 - k)) (mk' s S127 281474976710529) = pure (mk' s m e)) ∧
    (∃ m e, Nrm m ∧ e < B64 ∧ 0 < e ∧ mg m e = N + 1 ∧
      add (mk' s S127 281474976710529) (mk' s T (C48 - k)) = pure (mk' s m e)) := by
  have hN : mg T (C48 - k) = N := by
    rw [hT, mg_coeff_sub (by omega)]; push_cast; field_simp
  have h1 : mg S127 281474976710529 = 1 := by
    have := mg_coeff_sub (m := S127) (k := 127) (by omega)
    rw [show C48 - 127 = 281474976710529 from rfl] at this
    rw [this]; norm_num
  have ex : ∀ {m e : Nat}, e ≤ C48 → Trunc (N + 1) m e → mg m e = N + 1 := fun {m e} he ht => by
    have := nat_mg (N := N + 1) he
    push_cast at this
    exact trunc_exact this ht
  constructor
  · rcases add_same (s := s) h nrm_S (e₁ := C48 - k) (e₂ := 281474976710529) (by omega) (by omega)
      (nz_exp (by omega)) (nz_exp (by omega)) with ⟨-, hc⟩ | ⟨m, e, a1, a2, a3, a4, a5, a6, a7, a8⟩
    · omega
    · rw [hN, h1] at a8
      exact ⟨m, e, a1, a2, by omega, ex (by omega) a8, a7⟩
  · rcases add_same (s := s) nrm_S h (e₂ := C48 - k) (e₁ := 281474976710529) (by omega) (by omega)
      (nz_exp (by omega)) (nz_exp (by omega)) with ⟨-, hc⟩ | ⟨m, e, a1, a2, a3, a4, a5, a6, a7, a8⟩
    · omega
    · rw [hN, h1, add_comm] at a8
      exact ⟨m, e, a1, a2, by omega, ex (by omega) a8, a7⟩

theorem ulp_mono {e f : Nat} (h : e ≤ f) : ulp e ≤ ulp f := by
  unfold ulp
  exact zpow_le_zpow_right₀ (by norm_num) (by omega)

theorem from_ratio_exact {q : ℚ} {r e : Nat} (hr : 0 < r) (hr' : r < B128) (he : 128 ≤ e) (he' : e < B64)
    (hq : |q| = mg r e) : ∃ m' e', Nrm m' ∧ e' ≤ e ∧ 0 < e' ∧ mg m' e' = |q| ∧
      from_ratio (ofRat q) = pure (mk' (decide (q < 0)) m' e') := by
  have hu := ulp_pos e
  have hu0 := ulp_pos 0
  have r1 : (1 : ℚ) ≤ r := by exact_mod_cast hr
  have r2 : (r : ℚ) < Q128 := by
    have : (r : ℚ) < (B128 : Nat) := Nat.cast_lt.2 hr'
    push_cast at this; exact this
  have hlow : Q128 * ulp 0 ≤ |q| := by
    have h1 := ulp_mono he
    have h2 := ulp_add 0 128
    rw [zero_add] at h2
    rw [hq, mg_eq]
    norm_num at h2
    nlinarith
  have h0 : q ≠ 0 := by
    intro hc
    rw [hc, _root_.abs_zero] at hlow
    nlinarith
  have hhi : |q| < Q128 * ulp 18446744073709551615 := by
    have h1 := ulp_mono (show e ≤ 18446744073709551615 by omega)
    rw [hq, mg_eq]
    nlinarith
  obtain ⟨n, e', n1, n2, n3, n4, n5⟩ := from_ratio_c h0 (by nlinarith) hhi
  have hu' := ulp_pos e'
  have hle : e' ≤ e := by
    by_contra hc
    have h1 := ulp_mono (show e + 1 ≤ e' by omega)
    rw [ulp_succ] at h1
    rw [hq, mg_eq] at n4
    nlinarith
  have hpos : 0 < e' := by
    by_contra hc
    rw [show e' = 0 by omega] at n4
    nlinarith
  have hn : n = ((r * 2 ^ (e - e') : Nat) : ℚ) := by
    have h1 := ulp_add e' (e - e')
    rw [show e' + (e - e') = e by omega] at h1
    rw [hq, mg_eq, h1] at n4
    have : n * ulp e' = (r * 2 ^ (e - e')) * ulp e' := by linarith
    have := mul_right_cancel₀ hu'.ne' this
    rw [this]; push_cast; rfl
  generalize r * 2 ^ (e - e') = K at *
  have hK : Nrm K := by
    rw [hn] at n1 n2
    constructor
    · have : ((S127 : Nat) : ℚ) ≤ K := by push_cast; exact n1
      exact_mod_cast this
    · have : (K : ℚ) < ((B128 : Nat) : ℚ) := by push_cast; exact n2
      exact_mod_cast this
  have hfl : ⌊n + 1 / 2⌋ = (K : Int) := by
    rw [hn, Int.floor_eq_iff]
    push_cast
    constructor <;> linarith
  refine ⟨K, e', hK, hle, hpos, by rw [mg_eq, n4, hn], ?_⟩
  rw [n5, roundMk, hfl, if_neg (by have := hK.2; omega)]
  rfl

/-! ### the three cases -/

theorem trunc_cases {s : Bool} {m e : Nat} (h : Nrm m) (h0 : ¬Z s m e) (he : e < 9223372036854775808) :
    (e + 128 ≤ C48 ∧ truncate (mk' s m e) = pure ZERO ∧ ⌊mg m e⌋ = 0 ∧ mg m e < 1) ∨
    (C48 ≤ e ∧ truncate (mk' s m e) = pure (mk' s m e) ∧ (⌊mg m e⌋ : ℚ) = mg m e) ∨
    (∃ k N, 1 ≤ k ∧ k ≤ 127 ∧ e = C48 - k ∧ Nrm (N * 2 ^ k) ∧ N * 2 ^ k ≤ m ∧ m < N * 2 ^ k + 2 ^ k ∧
      truncate (mk' s m e) = pure (mk' s (N * 2 ^ k) (C48 - k)) ∧ ⌊mg m e⌋ = (N : Int) ∧
      mg (N * 2 ^ k) (C48 - k) = N) := by
  rw [truncate_mk h h0 he]
  by_cases h1 : e + 128 ≤ C48
  · left
    rw [if_pos h1]
    have := mg_small h h1
    refine ⟨h1, rfl, ?_, this⟩
    rw [Int.floor_eq_zero_iff]
    exact ⟨le_of_lt (mg_pos h), this⟩
  · right
    rw [if_neg h1]
    by_cases h2 : C48 ≤ e
    · left
      rw [if_pos h2]
      refine ⟨h2, rfl, ?_⟩
      obtain ⟨k, rfl⟩ : ∃ k, e = C48 + k := ⟨e - C48, by omega⟩
      have : mg m (C48 + k) = ((m * 2 ^ k : Nat) : ℚ) := by rw [mg_coeff_add]; push_cast; rfl
      rw [this, Int.floor_natCast]
      push_cast; rfl
    · right
      rw [if_neg h2]
      have hk : e = C48 - (C48 - e) := by omega
      have g := (clear_dg (s := s) (k := C48 - e) h (by omega)).2
      refine ⟨C48 - e, m / 2 ^ (C48 - e), by omega, by omega, hk, g, Nat.div_mul_le_self _ _, ?_, ?_,
        floor_mg (by omega), ?_⟩
      · have a1 := Nat.div_add_mod m (2 ^ (C48 - e))
        have a2 := Nat.mod_lt m (show 0 < 2 ^ (C48 - e) by positivity)
        rw [mul_comm] at a1
        omega
      · rw [← hk]
      · rw [← hk, ← nat_mg (by omega)]

theorem one_c : from_int 1 = pure (mk' false S127 281474976710529) := rfl
theorem mone_c : from_int (-1) = pure (mk' true S127 281474976710529) := rfl

theorem mg_one : mg S127 281474976710529 = 1 := by
  have := mg_coeff_sub (m := S127) (k := 127) (by omega)
  rw [show C48 - 127 = 281474976710529 from rfl] at this
  rw [this]; norm_num

theorem fval_one (s : Bool) : fval (mk' s S127 281474976710529) = sgn s := by
  rw [fval_mk nrm_S (nz_exp (by omega)), mg_one, mul_one]

theorem zero_mk : ZERO = mk' false S127 0 := rfl

theorem sub_zero_left (y : F192) (hy : is_neg y = false) : sub ZERO y = pure (neg y) := by
  rw [sub, hy]; rfl

theorem add_zero_left (y : F192) (hy : is_neg y = false) : add ZERO y = pure y := by
  rw [add, hy]; rfl

theorem add_zero_neg {y : F192} (hy : is_neg y = true) (hy' : is_neg (neg y) = false) : add ZERO y = pure (neg (neg y)) := by
  rw [add, hy]
  exact sub_zero_left _ hy'

theorem eq_mk_iff {s : Bool} {m m' e e' : Nat} (h : Nrm m) (h' : Nrm m') (h0 : ¬Z s m e) (h0' : ¬Z s m' e') :
    mk' s m e = mk' s m' e' ↔ mg m e = mg m' e' := by
  constructor
  · intro hc
    have := congrArg fval hc
    rw [fval_mk h h0, fval_mk h' h0'] at this
    exact mul_left_cancel₀ (sgn_ne s) this
  · intro hc
    rcases lt_trichotomy e e' with hl | rfl | hl
    · exact absurd hc (mg_lt_of_exp h h' hl).ne
    · have : m = m' := by
        rw [mg_eq, mg_eq] at hc
        have := mul_right_cancel₀ (ulp_pos e).ne' hc
        exact_mod_cast this
      rw [this]
    · exact absurd hc (mg_lt_of_exp h' h hl).ne'

theorem zero_ne_mk {s : Bool} {m e : Nat} (h : Nrm m) (h0 : ¬Z s m e) : ZERO ≠ mk' s m e := by
  intro hc
  have := congrArg fval hc
  rw [fval_zero, fval_mk h h0] at this
  exact mul_ne_zero (sgn_ne s) (mg_pos h).ne' this.symm

section
variable {s : Bool} {m e : Nat} (h : Nrm m) (h0 : ¬Z s m e) (he : e < 9223372036854775808) (hb : e < B64)
include h h0 he

theorem truncate_c : ∃ t, truncate (mk' s m e) = pure t ∧ FValid t ∧ fval t = sgn s * ⌊mg m e⌋ := by
  rcases trunc_cases h h0 he with ⟨-, h1, h2, -⟩ | ⟨-, h1, h2⟩ | ⟨k, N, k1, k2, rfl, g1, -, -, g2, g3, g4⟩
  · exact ⟨_, h1, by decide, by rw [h2, fval_zero]; simp⟩
  · exact ⟨_, h1, valid_mk h (by omega), by rw [h2, fval_mk h h0]⟩
  · exact ⟨_, g2, valid_mk g1 (by omega), by rw [g3, fval_mk g1 (nz_exp (by omega)), g4]; norm_cast⟩

/-- away from zero by one, when the number is not an integer -/
theorem floor_c : ∃ t, floor (mk' s m e) = pure t ∧ FValid t ∧
    fval t = if s = true ∧ (⌊mg m e⌋ : ℚ) ≠ mg m e then -((⌊mg m e⌋ : ℚ) + 1) else sgn s * ⌊mg m e⌋ := by
  rw [floor]
  rcases trunc_cases h h0 he with ⟨h3, h1, h2, h4⟩ | ⟨-, h1, h2⟩ | ⟨k, N, k1, k2, rfl, g1, -, -, g2, g3, g4⟩
  · have hp := mg_pos (e := e) h
    rw [h1, pure_bind, if_neg (zero_ne_mk h h0), is_neg_mk h, h2]
    cases s
    · exact ⟨_, rfl, by decide, by rw [fval_zero, if_neg (by simp)]; simp⟩
    · rw [if_pos rfl, one_c, pure_bind, sub_zero_left _ (by rw [is_neg_mk nrm_S]),
        neg_mk nrm_S (nz_exp (by omega))]
      refine ⟨_, rfl, valid_mk nrm_S (by omega), ?_⟩
      rw [if_pos ⟨rfl, by push_cast; exact hp.ne⟩, fval_one]
      norm_num [sgn]
  · rw [h1, pure_bind, if_pos rfl, if_neg (by simp [h2])]
    exact ⟨_, rfl, valid_mk h (by omega), by rw [h2, fval_mk h h0]⟩
  · have hiff := eq_mk_iff (e := C48 - k) g1 h (nz_exp (by omega)) h0
    rw [g4] at hiff
    rw [g2, pure_bind, is_neg_mk h, g3]
    push_cast
    by_cases hc : (N : ℚ) = mg m (C48 - k)
    · rw [if_pos (hiff.2 hc), if_neg (by simp [hc])]
      exact ⟨_, rfl, valid_mk g1 (by omega), by rw [fval_mk g1 (nz_exp (by omega)), g4]⟩
    · rw [if_neg (fun hcc => hc (hiff.1 hcc))]
      cases s
      · exact ⟨_, rfl, valid_mk g1 (by omega), by rw [if_neg (by simp), fval_mk g1 (nz_exp (by omega)), g4]⟩
      · obtain ⟨-, m', e', a1, a2, a3, a4, a5⟩ := inc_c (s := false) g1 rfl k1 k2
        rw [if_pos rfl, one_c, pure_bind, sub, is_neg_mk g1, is_neg_mk nrm_S, if_pos (by decide), if_pos rfl,
          neg_mk g1 (nz_exp (by omega)), Bool.not_true, a5, pure_bind, neg_mk a1 (nz_exp a3)]
        refine ⟨_, rfl, valid_mk a1 a2, ?_⟩
        rw [if_pos ⟨rfl, hc⟩, fval_mk a1 (nz_exp a3), a4, Bool.not_false, sgn_true, neg_one_mul]

theorem ceil_c : ∃ t, ceil (mk' s m e) = pure t ∧ FValid t ∧
    fval t = if s = false ∧ (⌊mg m e⌋ : ℚ) ≠ mg m e then (⌊mg m e⌋ : ℚ) + 1 else sgn s * ⌊mg m e⌋ := by
  rw [ceil]
  rcases trunc_cases h h0 he with ⟨h3, h1, h2, h4⟩ | ⟨-, h1, h2⟩ | ⟨k, N, k1, k2, rfl, g1, -, -, g2, g3, g4⟩
  · have hp := mg_pos (e := e) h
    rw [h1, pure_bind, if_neg (zero_ne_mk h h0), is_neg_mk h, h2]
    cases s
    · rw [if_neg (by simp), one_c, pure_bind, add_zero_left _ (by rw [is_neg_mk nrm_S])]
      refine ⟨_, rfl, valid_mk nrm_S (by omega), ?_⟩
      rw [if_pos ⟨rfl, by push_cast; exact hp.ne⟩, fval_one]
      norm_num [sgn]
    · exact ⟨_, rfl, by decide, by rw [fval_zero, if_neg (by simp)]; simp⟩
  · rw [h1, pure_bind, if_pos rfl, if_neg (by simp [h2])]
    exact ⟨_, rfl, valid_mk h (by omega), by rw [h2, fval_mk h h0]⟩
  · have hiff := eq_mk_iff (e := C48 - k) g1 h (nz_exp (by omega)) h0
    rw [g4] at hiff
    rw [g2, pure_bind, is_neg_mk h, g3]
    push_cast
    by_cases hc : (N : ℚ) = mg m (C48 - k)
    · rw [if_pos (hiff.2 hc), if_neg (by simp [hc])]
      exact ⟨_, rfl, valid_mk g1 (by omega), by rw [fval_mk g1 (nz_exp (by omega)), g4]⟩
    · rw [if_neg (fun hcc => hc (hiff.1 hcc))]
      cases s
      · obtain ⟨⟨m', e', a1, a2, a3, a4, a5⟩, -⟩ := inc_c (s := false) g1 rfl k1 k2
        rw [if_neg (by simp), one_c, pure_bind, a5]
        refine ⟨_, rfl, valid_mk a1 a2, ?_⟩
        rw [if_pos ⟨rfl, hc⟩, fval_mk a1 (nz_exp a3), a4, sgn_false, one_mul]
      · exact ⟨_, rfl, valid_mk g1 (by omega), by rw [if_neg (by simp), fval_mk g1 (nz_exp (by omega)), g4]⟩

end

theorem sub_zero_right {s : Bool} {m e : Nat} (h : Nrm m) (h0 : ¬Z s m e) (h1 : ¬Z false m e) :
    sub (mk' s m e) ZERO = pure (mk' s m e) := by
  rw [sub, is_neg_mk h, show is_neg ZERO = false from rfl]
  cases s
  · rw [if_neg (by simp), is_zero_mk h, if_neg (by simpa [Z] using h0)]
    rfl
  · rw [if_pos (by decide), if_pos rfl, neg_mk h h0, Bool.not_true, add_zero_left _ (is_neg_mk h), pure_bind,
      neg_mk h h1, Bool.not_false]

theorem sub_zero_tiny : sub (mk' true S127 0) ZERO = pure ZERO := by
  rw [sub, is_neg_mk nrm_S, show is_neg ZERO = false from rfl, if_pos (by decide), if_pos rfl, neg_mk nrm_S nz_true,
    Bool.not_true, add_zero_left _ (is_neg_mk nrm_S)]
  rfl

/-- the fractional part between two numbers of equal sign, close together -/
theorem sub_exact {s : Bool} {m T k : Nat} (h : Nrm m) (g : Nrm T) (hT : T ≤ m) (hne : T ≠ m)
    (hk : k ≤ 127) : ∃ m' e', Nrm m' ∧ e' < B64 ∧ 0 < e' ∧ mg m' e' = mg m (C48 - k) - mg T (C48 - k) ∧
      sub (mk' s m (C48 - k)) (mk' s T (C48 - k)) = pure (mk' s m' e') := by
  have hd : mg m (C48 - k) - mg T (C48 - k) = mg (m - T) (C48 - k) := by
    rw [mg_eq, mg_eq, mg_eq, Nat.cast_sub hT]; ring
  have hpos : 0 < mg (m - T) (C48 - k) := by
    rw [mg_eq]
    exact mul_pos (by exact_mod_cast (show 0 < m - T by omega)) (ulp_pos _)
  have ha : |sgn s * mg m (C48 - k) - sgn s * mg T (C48 - k)| = mg (m - T) (C48 - k) := by
    rw [← mul_sub, hd, abs_mul, abs_sgn, one_mul, abs_of_pos hpos]
  obtain ⟨m', e', a1, a2, a3, a4, a5⟩ := from_ratio_exact (r := m - T) (e := C48 - k) (by omega)
    (by have := h.2; omega) (by omega) (by omega) ha
  refine ⟨m', e', a1, by omega, a3, by rw [a4, ha, hd], ?_⟩
  rw [sub_same h g ⟨by omega, by omega⟩ ⟨by omega, by omega⟩, a5]
  have : decide (sgn s * mg m (C48 - k) - sgn s * mg T (C48 - k) < 0) = s := by
    rw [← mul_sub, hd]
    cases s
    · rw [sgn_false, one_mul, decide_eq_false]; linarith
    · rw [sgn_true, decide_eq_true]; linarith
  rw [this]

section
variable {s : Bool} {m e : Nat} (h : Nrm m) (h0 : ¬Z s m e) (he : e < 9223372036854775808) (h1 : ¬Z false m e)
include h h0 he h1

omit h1 in
theorem sub_self_c : sub (mk' s m e) (mk' s m e) = pure ZERO := by
  obtain ⟨q, hq⟩ := to_ratio_gen (s := s) h he
  rw [sub, is_neg_mk h, if_neg (by simp), is_zero_mk h, if_neg (by simpa [Z] using h0), if_neg (by simpa [Z] using h0),
    hq, pure_bind, pure_bind, Ratio.sub_c, pure_bind, sub_self, from_ratio_zero]

theorem frac_c : ∃ t, frac (mk' s m e) = pure t ∧ FValid t ∧ fval t = sgn s * (mg m e - ⌊mg m e⌋) := by
  rw [frac]
  rcases trunc_cases h h0 he with ⟨h3, h4, h2, h5⟩ | ⟨-, h4, h2⟩ | ⟨k, N, k1, k2, rfl, g1, g5, g6, g2, g3, g4⟩
  · rw [h4, pure_bind, sub_zero_right h h0 h1, h2]
    exact ⟨_, rfl, valid_mk h (by omega), by rw [fval_mk h h0]; simp⟩
  · rw [h4, pure_bind, sub_self_c h h0 he, h2]
    exact ⟨_, rfl, by decide, by rw [fval_zero, sub_self, mul_zero]⟩
  · rw [g2, pure_bind, g3]
    by_cases hc : N * 2 ^ k = m
    · rw [hc, sub_self_c h h0 he]
      refine ⟨_, rfl, by decide, ?_⟩
      rw [fval_zero, ← hc, g4]
      push_cast
      rw [sub_self, mul_zero]
    · obtain ⟨m', e', a1, a2, a3, a4, a5⟩ := sub_exact (s := s) h g1 g5 hc k2
      rw [a5]
      refine ⟨_, rfl, valid_mk a1 a2, ?_⟩
      rw [fval_mk a1 (nz_exp a3), a4, g4]
      push_cast; rfl

end

theorem half_c : shr ONE 1 = mk' false S127 281474976710528 := by decide
theorem mhalf_c : neg (mk' false S127 281474976710528) = mk' true S127 281474976710528 := by decide
theorem fval_half (s : Bool) : fval (mk' s S127 281474976710528) = sgn s / 2 := by
  have := mg_coeff_sub (m := S127) (k := 128) (by omega)
  rw [show C48 - 128 = 281474976710528 from rfl] at this
  rw [fval_mk nrm_S (nz_exp (by omega)), this]; norm_num [div_eq_mul_inv]

theorem add_zero_one (s : Bool) : add ZERO (mk' s S127 281474976710529) = pure (mk' s S127 281474976710529) := by
  cases s
  · exact add_zero_left _ (is_neg_mk nrm_S)
  · rw [add_zero_neg (is_neg_mk nrm_S) (by rw [neg_mk nrm_S nz_true, is_neg_mk nrm_S]; rfl), neg_mk nrm_S nz_true,
      neg_mk nrm_S (nz_exp (by omega))]
    rfl

/-- the last step of rounding: `f` is the fractional part -/
theorem round_step {s : Bool} {f t : F192} {r : ℚ} (hf : FValid f) (hr : fval f = sgn s * r) (h0 : 0 ≤ r) :
    (if le f (mk' true S127 281474976710528) then do
      let m ← from_int (-1)
      add t m
    else if ge f (mk' false S127 281474976710528) then do
      let o ← from_int 1
      add t o
    else pure t) = if 1 / 2 ≤ r then add t (mk' s S127 281474976710529) else pure t := by
  have v1 : FValid (mk' true S127 281474976710528) := valid_mk nrm_S (by omega)
  have v2 : FValid (mk' false S127 281474976710528) := valid_mk nrm_S (by omega)
  rw [le_c hf v1, ge_c hf v2, fval_half, fval_half, hr, one_c, mone_c, pure_bind, pure_bind, sgn_true, sgn_false]
  simp only [decide_eq_true_eq]
  cases s
  · rw [sgn_false, one_mul, if_neg (by linarith)]
  · rw [sgn_true]
    by_cases hc : 1 / 2 ≤ r
    · rw [if_pos (by linarith), if_pos hc]
    · rw [if_neg (by linarith), if_neg (by linarith), if_neg hc]

theorem round_c {s : Bool} {m e : Nat} (h : Nrm m) (h0 : ¬Z s m e) (he : e < 9223372036854775808) :
    ∃ t, round (mk' s m e) = pure t ∧ FValid t ∧
    fval t = sgn s * if 1 / 2 ≤ mg m e - ⌊mg m e⌋ then (⌊mg m e⌋ : ℚ) + 1 else ⌊mg m e⌋ := by
  rw [round]
  dsimp only
  rw [half_c, mhalf_c]
  rcases trunc_cases h h0 he with ⟨h3, h1, h2, h4⟩ | ⟨-, h1, h2⟩ | ⟨k, N, k1, k2, rfl, g1, g5, g6, g2, g3, g4⟩
  · have hp := mg_pos (e := e) h
    rw [h1, pure_bind, if_neg (zero_ne_mk h h0), h2]
    push_cast
    rw [sub_zero]
    by_cases hz : Z false m e
    · obtain ⟨-, rfl, rfl⟩ := hz
      have hs : s = true := by cases s <;> [exact absurd ⟨rfl, rfl, rfl⟩ h0; rfl]
      subst hs
      have : ¬(1 / 2 : ℚ) ≤ mg S127 0 := by
        have a := mg_lt_of_exp (m₁ := S127) (m₂ := S127) (e₁ := 0) (e₂ := 281474976710528) nrm_S nrm_S (by omega)
        have b := fval_half false
        rw [fval_mk nrm_S (nz_exp (by omega)), sgn_false, one_mul] at b
        linarith
      rw [sub_zero_tiny, pure_bind, if_neg this, mul_zero]
      rw [round_step (s := true) (r := 0) (by decide) (by rw [fval_zero, mul_zero]) (le_refl _), if_neg (by norm_num)]
      exact ⟨_, rfl, by decide, fval_zero⟩
    · rw [sub_zero_right h h0 hz, pure_bind]
      rw [round_step (s := s) (r := mg m e) (valid_mk h (by omega)) (fval_mk h h0) (le_of_lt hp)]
      by_cases hc : 1 / 2 ≤ mg m e
      · rw [if_pos hc, if_pos hc, add_zero_one]
        exact ⟨_, rfl, valid_mk nrm_S (by omega), by rw [fval_one, zero_add, mul_one]⟩
      · rw [if_neg hc, if_neg hc]
        exact ⟨_, rfl, by decide, by rw [fval_zero, mul_zero]⟩
  · rw [h1, pure_bind, if_pos rfl, h2, sub_self, if_neg (by norm_num)]
    exact ⟨_, rfl, valid_mk h (by omega), by rw [fval_mk h h0]⟩
  · rw [g2, pure_bind, g3]
    push_cast
    by_cases hc : N * 2 ^ k = m
    · rw [if_pos (by rw [hc]), ← hc, g4, sub_self, if_neg (by norm_num)]
      exact ⟨_, rfl, valid_mk g1 (by omega), by rw [fval_mk g1 (nz_exp (by omega)), g4]⟩
    · have hne : ¬mk' s (N * 2 ^ k) (C48 - k) = mk' s m (C48 - k) := by
        rw [eq_mk_iff g1 h (nz_exp (by omega)) h0]
        intro hcc
        rw [mg_eq, mg_eq] at hcc
        have := mul_right_cancel₀ (ulp_pos _).ne' hcc
        exact hc (by exact_mod_cast this)
      obtain ⟨m', e', a1, a2, a3, a4, a5⟩ := sub_exact (s := s) h g1 g5 hc k2
      rw [if_neg hne, a5, pure_bind]
      rw [round_step (s := s) (r := mg m' e') (valid_mk a1 a2) (fval_mk a1 (nz_exp a3)) (le_of_lt (mg_pos a1)), a4, g4]
      by_cases hh : 1 / 2 ≤ mg m (C48 - k) - N
      · rw [if_pos hh, if_pos hh]
        obtain ⟨⟨m2, e2, b1, b2, b3, b4, b5⟩, -⟩ := inc_c (s := s) g1 rfl k1 k2
        exact ⟨_, b5, valid_mk b1 b2, by rw [fval_mk b1 (nz_exp b3), b4]⟩
      · rw [if_neg hh, if_neg hh]
        exact ⟨_, rfl, valid_mk g1 (by omega), by rw [fval_mk g1 (nz_exp (by omega)), g4]⟩

/-! ### beyond `2^63` -/

theorem expI64_big {s : Bool} {m e : Nat} (h : 9223653511831486464 ≤ e) (hb : e < B64) :
    expI64 (mk' s m e) = pure ((e : Int) - 18446744073709551616 - 281474976710656) := by
  have : asI64 e = (e : Int) - 18446744073709551616 := by unfold asI64; omega
  rw [expI64, mk_exp, this, i64Chk, if_pos (by unfold EXP_COEFF; omega)]
  rfl

theorem expI64_panic {s : Bool} {m e : Nat} (h : 9223372036854775808 ≤ e) (hb : e < 9223653511831486464) :
    expI64 (mk' s m e) = throw .overflow := by
  have : asI64 e = (e : Int) - 18446744073709551616 := by unfold asI64; omega
  rw [expI64, mk_exp, this, i64Chk, if_neg (by unfold EXP_COEFF; omega)]

theorem truncate_big {s : Bool} {m e : Nat} (hn : Nrm m) (h : 9223653511831486464 ≤ e) (hb : e < B64) :
    truncate (mk' s m e) = pure ZERO := by
  rw [truncate, is_zero_mk hn, if_neg (by
    have : ¬Z s m e := nz_exp (by omega)
    simpa [Z] using this), expI64_big h hb, pure_bind, if_pos (by omega)]

theorem truncate_panic {s : Bool} {m e : Nat} (hn : Nrm m) (h : 9223372036854775808 ≤ e)
    (hb : e < 9223653511831486464) : truncate (mk' s m e) = throw .overflow := by
  rw [truncate, is_zero_mk hn, if_neg (by
    have : ¬Z s m e := nz_exp (by omega)
    simpa [Z] using this), expI64_panic h hb]
  rfl

theorem is_integer_c {s : Bool} {m e : Nat} (h : Nrm m) (h0 : ¬Z s m e) (he : e < 9223372036854775808) :
    is_integer (mk' s m e) = pure (decide ((⌊mg m e⌋ : ℚ) = mg m e)) := by
  rw [is_integer, is_zero_mk h, if_neg (by simpa [Z] using h0), expI64_c he, pure_bind]
  by_cases h1 : e + 128 ≤ C48
  · have hp := mg_pos (e := e) h
    have h2 : ⌊mg m e⌋ = 0 := by
      rw [Int.floor_eq_zero_iff]; exact ⟨le_of_lt hp, mg_small h h1⟩
    rw [if_pos (by omega), h2, decide_eq_false]
    push_cast; exact hp.ne
  · rw [if_neg (by omega)]
    by_cases h2 : C48 ≤ e
    · rw [if_pos (by omega)]
      rcases trunc_cases h h0 he with ⟨h3, -⟩ | ⟨-, -, h3⟩ | ⟨k, N, k1, k2, rfl, -⟩
      · omega
      · rw [h3, decide_eq_true rfl]
      · omega
    · have hk : (-((e : Int) - 281474976710656)).toNat = C48 - e := by omega
      obtain ⟨g1, g2⟩ := clear_dg (s := s) (k := C48 - e) h (by omega)
      have hb : dg s (m / 2 ^ (C48 - e) * 2 ^ (C48 - e)) < 2 ^ 128 := by
        have := (valid_mk (s := s) (e := 0) g2 (by norm_num)).1
        rw [mk_digits] at this
        omega
      rw [if_neg (by omega), hk, clearLow, uShr_eq (by omega), pure_bind, uShl_eq (by omega), mk_digits,
        g1, Nat.mod_eq_of_lt hb, pure_bind, floor_mg (by omega)]
      have hne : ∀ n, Nrm n → n ≤ m → (dg s n = dg s m ↔ n = m) := by
        intro n hn _
        obtain ⟨d1, hd1⟩ : ∃ d, n = S127 + d := ⟨n - S127, by have := hn.1; omega⟩
        obtain ⟨d2, hd2⟩ : ∃ d, m = S127 + d := ⟨m - S127, by have := h.1; omega⟩
        subst hd1 hd2
        cases s
        · rw [dg_false, dg_false]; omega
        · rw [dg_true, dg_true]; omega
      have e1 : (dg s (m / 2 ^ (C48 - e) * 2 ^ (C48 - e)) == dg s m) =
          decide (((m / 2 ^ (C48 - e) : Nat) : ℤ) = mg m e) := by
        rw [Bool.eq_iff_iff, beq_iff_eq, hne _ g2 (Nat.div_mul_le_self _ _), decide_eq_true_eq]
        have := nat_mg (N := m / 2 ^ (C48 - e)) (e := e) (by omega)
        rw [Int.cast_natCast, this, mg_eq, mg_eq]
        constructor
        · intro hh; rw [hh]
        · intro hh
          have := mul_right_cancel₀ (ulp_pos _).ne' hh
          exact_mod_cast this
      rw [e1]

end F192
end Hmath
