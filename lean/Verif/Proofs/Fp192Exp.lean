import Verif.Proofs.Fp192Atrigo
import Verif.Proofs.Fp192Eval

/-!
# 192-bit floating point numbers: powers of two
-/

namespace Hmath
namespace F192

open Props

/-! ### the fraction -/

theorem rng_of_bounds {K : ℤ} {z : F192} {v : ℚ} (hz : FValid z) (hv : v = 0 ∨ 2 ^ (-K) ≤ v) (hu : v ≤ 2 ^ K) (h : |fval z - v| ≤ 1 / 2 ^ 127 * |v|) (h0 : 0 ≤ v) :
    Rng (K + 1) z ∧ 0 ≤ fval z := by
  rw [abs_of_nonneg h0] at h
  refine rng_of_near (v := v) (S := v) (by rcases hv with hv | hv; exact Or.inl hv; exact Or.inr ⟨hv, hu⟩) hz (by linarith) (by linarith) (h.trans ?_)
  exact mul_le_mul_of_nonneg_right (by norm_num) h0

/-- the floor, and the difference from it -/
theorem floorSub_c {K : ℤ} {x : F192} (rx : Rng K x) (hK : 130 ≤ K) (hK' : K ≤ 4294967000) (h1 : -2 ^ 63 ≤ fval x) (h2 : fval x < 2 ^ 63)
    (h3 : 0 ≤ fval x ∨ fval x < -1 / 2 ^ 129) : ∃ t f, F192.floor x = pure t ∧ F192.sub x t = pure f ∧ FValid t ∧ fval t = ⌊fval x⌋ ∧
      Rng (K + 1) f ∧ 0 ≤ fval f ∧ |fval f - Int.fract (fval x)| ≤ 1 / 2 ^ 127 * Int.fract (fval x) := by
  have hb : x.exp < 2 ^ 63 := by
    rcases rx.exp with h | h
    · rw [(fval_eq_zero rx.1).1 h]; decide
    · omega
  obtain ⟨t, t1, t2, t3⟩ := C43_floor_partial rx.1 hb
  have hfl := Int.floor_le (fval x)
  have hfu := Int.lt_floor_add_one (fval x)
  have hfr : fval x - fval t = Int.fract (fval x) := by rw [t3]; exact Int.self_sub_floor _
  have hf0 := Int.fract_nonneg (fval x)
  have hf1 := Int.fract_lt_one (fval x)
  have rt : Rng 64 t := by
    refine ⟨t2, ?_⟩
    rw [t3]
    by_cases h : ⌊fval x⌋ = 0
    · left; rw [h]; rfl
    right
    have : (1 : ℚ) ≤ |(⌊fval x⌋ : ℚ)| := by
      rw [← Int.cast_abs]
      exact_mod_cast Int.one_le_abs h
    refine ⟨le_trans (by norm_num) this, ?_⟩
    rw [abs_le]
    norm_num
    norm_num at h1 h2
    constructor <;> linarith
  have key : (fval x * fval t ≤ 0 ∨ NoCarry (fval x - fval t)) ∧ (Int.fract (fval x) = 0 ∨ 2 ^ (-K) ≤ Int.fract (fval x)) := by
    have hK130 : (2 : ℚ) ^ (-K) ≤ 2 ^ (-130 : ℤ) := zpow_le_zpow_right₀ (by norm_num) (by omega)
    -- numbers which are multiples of a power of two
    have dy : ∀ k : ℕ, k ≤ 128 → (∃ N : ℤ, fval x = N * 2 ^ (-k : ℤ)) → (fval x * fval t ≤ 0 ∨ NoCarry (fval x - fval t)) ∧ (Int.fract (fval x) = 0 ∨ 2 ^ (-K) ≤ Int.fract (fval x)) := by
      rintro k hk ⟨N, hN⟩
      have hp : (0 : ℚ) < 2 ^ (-k : ℤ) := zpow_pos (by norm_num) _
      have hpe : (2 : ℚ) ^ (k : ℕ) * 2 ^ (-k : ℤ) = 1 := by rw [zpow_neg, zpow_natCast]; exact mul_inv_cancel₀ (by positivity)
      have e : Int.fract (fval x) = ((N - ⌊fval x⌋ * 2 ^ k : ℤ) : ℚ) * 2 ^ (-k : ℤ) := by
        rw [← hfr, t3]
        push_cast
        rw [sub_mul, mul_assoc, hpe, mul_one, ← hN]
      have n0 : 0 ≤ N - ⌊fval x⌋ * 2 ^ k := by
        rw [e] at hf0
        have := nonneg_of_mul_nonneg_left hf0 hp
        exact_mod_cast this
      have n1 : N - ⌊fval x⌋ * 2 ^ k < 2 ^ k := by
        rw [e, ← hpe, mul_lt_mul_iff_of_pos_right hp] at hf1
        exact_mod_cast hf1
      refine ⟨Or.inr ?_, ?_⟩
      · rw [hfr, e]
        refine noCarry_dyadic ?_
        rw [abs_of_nonneg n0]
        exact lt_of_lt_of_le n1 (pow_le_pow_right₀ (by norm_num) hk)
      · rcases n0.eq_or_lt with h | h
        · left; rw [e, ← h, Int.cast_zero, zero_mul]
        · right
          have h' : (1 : ℚ) ≤ ((N - ⌊fval x⌋ * 2 ^ k : ℤ) : ℚ) := by exact_mod_cast h
          rw [e]
          refine le_trans ?_ (le_mul_of_one_le_left hp.le h')
          exact zpow_le_zpow_right₀ (by norm_num) (by omega)
    rcases le_or_gt 1 |fval x| with ha | ha
    · exact dy 127 (by norm_num) (multiple rx.1 (k := 127) (by simpa using ha))
    rw [abs_lt] at ha
    rcases le_or_gt 0 (fval x) with hn | hn
    · have hz : ⌊fval x⌋ = 0 := Int.floor_eq_zero_iff.2 ⟨hn, ha.2⟩
      have e : Int.fract (fval x) = fval x := by rw [Int.fract, hz, Int.cast_zero, sub_zero]
      refine ⟨Or.inl (by rw [t3, hz, Int.cast_zero, mul_zero]), ?_⟩
      rw [e]
      rcases rx.2 with h | ⟨h, -⟩
      · exact Or.inl h
      · rw [abs_of_nonneg hn] at h; exact Or.inr h
    · have h3 := h3.resolve_left (not_le.2 hn)
      have hz : ⌊fval x⌋ = -1 := by
        rw [Int.floor_eq_iff]; push_cast; constructor <;> linarith [ha.1]
      have e : Int.fract (fval x) = fval x + 1 := by rw [Int.fract, hz]; push_cast; ring
      rcases le_or_gt (1 / 2) |fval x| with hh | hh
      · exact dy 128 (by norm_num) (multiple rx.1 (k := 128) (by norm_num; norm_num at hh; exact hh))
      rw [abs_of_neg hn] at hh
      refine ⟨Or.inr ?_, Or.inr ?_⟩
      · rw [hfr, e]
        intro k
        rw [abs_of_nonneg (by linarith)]
        rcases le_or_gt (-128) k with hk | hk
        · left
          have : (2 : ℚ) ^ (-128 : ℤ) ≤ 2 ^ k := zpow_le_zpow_right₀ (by norm_num) hk
          refine lt_of_lt_of_le ?_ (mul_le_mul_of_nonneg_left this (by norm_num))
          norm_num at h3 ⊢
          linarith
        · right
          have : (2 : ℚ) ^ k ≤ 2 ^ (-129 : ℤ) := zpow_le_zpow_right₀ (by norm_num) (by omega)
          refine (mul_le_mul_of_nonneg_left this (by norm_num)).trans ?_
          norm_num
          linarith
      · rw [e]
        norm_num at hK130
        rw [← zpow_neg] at hK130
        linarith
  obtain ⟨f, f1, f2, -, f3⟩ := C41_sub_partial rx.1 t2 (rx.inRange hK') (rt.inRange (by norm_num)) key.1
  rw [hfr] at f3
  obtain ⟨g1, g2⟩ := rng_of_bounds f2 key.2 (hf1.le.trans (one_le_zpow₀ (by norm_num) (by omega))) f3 hf0
  rw [abs_of_nonneg hf0] at f3
  exact ⟨t, f, t1, f1, t2, t3, g1, g2, f3⟩

/-! ### the series -/

theorem pow2Loop_c {K : ℤ} {u : F192} (ru : Rng K u) (u0 : 0 ≤ fval u) (hK : 0 ≤ K) (hK' : K ≤ 2 ^ 34) :
    ∀ (n i : ℕ) (r c : F192) (L : ℤ), i + n = 15 → 2 ≤ i → Rng L r → Rng L c → 0 ≤ fval r → 0 ≤ fval c → 0 ≤ L → L + n * (K + 100) ≤ 2 ^ 39 →
      |fval r - expSum (i - 1) (fval u)| ≤ i / 2 ^ 123 * expSum (i - 1) (fval u) →
      |fval c - fval u ^ (i - 1) / ((i - 1).factorial : ℚ)| ≤ i / 2 ^ 123 * (fval u ^ (i - 1) / ((i - 1).factorial : ℚ)) →
      ∃ r' c', pow2Loop u n i r c = pure (r', c') ∧ Rng (L + n * (K + 100)) r' ∧ Rng (L + n * (K + 100)) c' ∧ 0 ≤ fval r' ∧ 0 ≤ fval c' ∧
        |fval r' - expSum 14 (fval u)| ≤ 15 / 2 ^ 123 * expSum 14 (fval u) ∧
        |fval c' - fval u ^ 14 / ((14 : ℕ).factorial : ℚ)| ≤ 15 / 2 ^ 123 * (fval u ^ 14 / ((14 : ℕ).factorial : ℚ))
  | 0, i, r, c, L, hi, h2, rr, rc, r0, c0, hL, hL', er, ec => by
    obtain rfl : i = 15 := by omega
    have hm : L ≤ L + ((0 : ℕ) : ℤ) * (K + 100) := by push_cast; omega
    exact ⟨r, c, rfl, rr.mono hm, rc.mono hm, r0, c0, er, ec⟩
  | n + 1, i, r, c, L, hi, h2, rr, rc, r0, c0, hL, hL', er, ec => by
    have hmn : (0 : ℤ) ≤ n * (K + 100) := by positivity
    have hex : ((n + 1 : ℕ) : ℤ) * (K + 100) = n * (K + 100) + K + 100 := by push_cast; ring
    rw [hex] at hL'
    rw [hex, pow2Loop]
    obtain ⟨j, rfl⟩ : ∃ j, i = j + 1 := ⟨i - 1, by omega⟩
    rw [Nat.add_sub_cancel] at er ec
    have hS : 0 ≤ expSum j (fval u) := Finset.sum_nonneg fun k _ => by positivity
    have hT : 0 ≤ fval u ^ j / (j.factorial : ℚ) := by positivity
    have hj : ((j + 1 : ℕ) : ℚ) ≤ 15 := by exact_mod_cast (show j + 1 ≤ 15 by omega)
    have hj0 : (0 : ℚ) ≤ ((j + 1 : ℕ) : ℚ) := by positivity
    obtain ⟨s, s1, s2, s3, s4⟩ := addP rr rc (by omega) r0 c0
    obtain ⟨m, m1, m2, m3, m4⟩ := mulR2 rc ru (by omega) (by omega) (by omega)
    have m0 := m4 (mul_nonneg c0 u0)
    obtain ⟨d, d1, d2, d3, -, d4⟩ := divR m2 (a := ((j + 1 : ℕ) : ℤ)) (by omega) (by omega) (by omega)
    have d0 := d4 m0
    rw [s1, pure_bind, m1, pure_bind, d1, pure_bind]
    have es : |fval s - expSum (j + 1) (fval u)| ≤ ((j + 1 + 1 : ℕ) : ℚ) / 2 ^ 123 * expSum (j + 1) (fval u) := by
      have hsum : expSum (j + 1) (fval u) = expSum j (fval u) + fval u ^ j / (j.factorial : ℚ) := by
        rw [expSum, Finset.sum_range_succ, ← expSum]
      rw [hsum]
      have e1 : |fval r + fval c - (expSum j (fval u) + fval u ^ j / (j.factorial : ℚ))| ≤
          ((j + 1 : ℕ) : ℚ) / 2 ^ 123 * (expSum j (fval u) + fval u ^ j / (j.factorial : ℚ)) := by
        rw [add_sub_add_comm, mul_add]
        exact (abs_add_le _ _).trans (add_le_add er ec)
      have e2 := rel_trans (add_nonneg hS hT) (by norm_num) (γ := 1 / 2 ^ 127) (by rw [abs_of_nonneg (add_nonneg r0 c0)]; exact s3) e1
      refine e2.trans (mul_le_mul_of_nonneg_right ?_ (add_nonneg hS hT))
      push_cast
      push_cast at hj hj0
      clear * - hj hj0
      generalize (j : ℚ) = t at *
      norm_num
      linarith
    have ed : |fval d - fval u ^ (j + 1) / ((j + 1).factorial : ℚ)| ≤ ((j + 1 + 1 : ℕ) : ℚ) / 2 ^ 123 * (fval u ^ (j + 1) / ((j + 1).factorial : ℚ)) := by
      have hP : 0 ≤ fval u ^ j / (j.factorial : ℚ) * fval u := mul_nonneg hT u0
      have e1 := rel_trans hP (by norm_num) m3 (rel_mul hT u0 ec (y := fval u) (β := 0) (by simp))
      have hb : (0 : ℚ) < ((j + 1 : ℕ) : ℚ) := by positivity
      have e2 := rel_trans (div_nonneg hP hb.le) (by norm_num) (z := fval d) (w := fval m / ((j + 1 : ℕ) : ℚ)) (γ := 1 / 2 ^ 127)
        (by exact_mod_cast d3) (rel_divide hb e1)
      have hE : fval u ^ (j + 1) / ((j + 1).factorial : ℚ) = fval u ^ j / (j.factorial : ℚ) * fval u / ((j + 1 : ℕ) : ℚ) := by
        rw [Nat.factorial_succ, pow_succ]
        push_cast
        field_simp
      rw [hE]
      refine e2.trans (mul_le_mul_of_nonneg_right ?_ (div_nonneg hP hb.le))
      push_cast
      push_cast at hj hj0
      clear * - hj hj0
      generalize (j : ℚ) = t at *
      norm_num
      linarith
    obtain ⟨r', c', z1, z2, z3, z4⟩ := pow2Loop_c ru u0 hK hK' n (j + 1 + 1) s d (L + K + 100) (by omega) (by omega) (s2.mono (by omega)) (d2.mono (by omega)) s4 d0
      (by omega) (by omega) es ed
    exact ⟨r', c', z1, z2.mono (by omega), z3.mono (by omega), z4⟩

theorem pow2Series_c {K : ℤ} {u : F192} (ru : Rng K u) (u0 : 0 ≤ fval u) (hK : 64 ≤ K) (hK' : K ≤ 2 ^ 34) :
    ∃ p z, pow2Loop u 13 2 ONE u = pure p ∧ F192.add p.1 p.2 = pure z ∧ FValid z ∧ |fval z - expSum 15 (fval u)| ≤ 1 / 2 ^ 119 * expSum 15 (fval u) := by
  have one_val : fval ONE = 1 := by
    have := fval_mk (s := false) (m := 170141183460469231731687303715884105728) (e := 281474976710656 - 127) ⟨by norm_num, by norm_num⟩ (nz_exp (by omega))
    rw [mg_coeff_sub (by omega), sgn_false, one_mul] at this
    exact this.trans (by norm_num)
  have r1 : Rng K ONE := (rng_const (by decide) (by rw [one_val]; norm_num) (by rw [one_val]; norm_num)).mono hK
  obtain ⟨r, c, z1, z2, z3, z4, z5, z6, z7⟩ := pow2Loop_c ru u0 (by omega) hK' 13 2 ONE u K (by norm_num) (by norm_num) r1 ru (by rw [one_val]; norm_num) u0 (by omega)
    (by push_cast; omega) (by rw [one_val]; simp [expSum]; norm_num) (by simp; positivity)
  obtain ⟨s, s1, s2, s3, s4⟩ := addP z2 z3 (by push_cast; omega) z4 z5
  refine ⟨(r, c), s, z1, s1, s2.1, ?_⟩
  have hsum : expSum 15 (fval u) = expSum 14 (fval u) + fval u ^ 14 / ((14 : ℕ).factorial : ℚ) := by
    rw [expSum, Finset.sum_range_succ, ← expSum]
  have hS : 0 ≤ expSum 14 (fval u) := Finset.sum_nonneg fun k _ => by positivity
  have hT : 0 ≤ fval u ^ 14 / ((14 : ℕ).factorial : ℚ) := by positivity
  rw [hsum]
  have e1 : |fval r + fval c - (expSum 14 (fval u) + fval u ^ 14 / ((14 : ℕ).factorial : ℚ))| ≤
      15 / 2 ^ 123 * (expSum 14 (fval u) + fval u ^ 14 / ((14 : ℕ).factorial : ℚ)) := by
    rw [add_sub_add_comm, mul_add]
    exact (abs_add_le _ _).trans (add_le_add z6 z7)
  have e2 := rel_trans (add_nonneg hS hT) (by norm_num) (γ := 1 / 2 ^ 127) (by rw [abs_of_nonneg (add_nonneg z4 z5)]; exact s3) e1
  refine e2.trans (mul_le_mul_of_nonneg_right ?_ (add_nonneg hS hT))
  norm_num

/-- the exponent field of a number from one half to four -/
theorem exp_mid {z : F192} (hz : FValid z) (h0 : 1 / 2 ≤ fval z) (h1 : fval z ≤ 4) :
    281474976710656 ≤ z.exp + 128 ∧ z.exp + 125 ≤ 281474976710656 := by
  obtain ⟨s, m, e, hm, he, hzz, rfl, hv⟩ := mk_of_not_zero hz (by intro h; rw [h] at h0; norm_num at h0)
  have hp := mg_pos (e := e) hm
  have n127 : Nrm 170141183460469231731687303715884105728 := ⟨by norm_num, by norm_num⟩
  cases s
  · rw [hv, sgn_false, one_mul] at h0 h1
    rw [mk_exp]
    constructor
    · by_contra hc
      have g := mg_lt_of_exp (e₁ := e) (e₂ := 281474976710656 - 128) hm n127 (by omega)
      rw [mg_coeff_sub (by norm_num)] at g
      norm_num at g h0
      linarith
    · by_contra hc
      have g := mg_lt_of_exp (e₁ := 281474976710656 - 125) (e₂ := e) n127 hm (by omega)
      rw [mg_coeff_sub (by norm_num)] at g
      norm_num at g h1
      linarith
  · rw [hv, sgn_true] at h0
    linarith

/-- changing the exponent -/
theorem scale_exp {z : F192} (hz : FValid z) (h0 : 1 / 2 ≤ fval z) (h1 : fval z ≤ 4) {n : ℤ} (h2 : -2 ^ 48 + 129 ≤ n) (h3 : n < 2 ^ 63 - 2 ^ 48 + 125) :
    ∃ e, i64Chk (asI64 z.exp + n) = pure e ∧ FValid ⟨z.digits, asU64 e⟩ ∧ fval ⟨z.digits, asU64 e⟩ = fval z * 2 ^ n := by
  have hx := exp_mid hz h0 h1
  obtain ⟨s, m, e, hm, he, hzz, rfl, hv⟩ := mk_of_not_zero hz (by intro h; rw [h] at h0; norm_num at h0)
  rw [mk_exp] at hx
  have ha : asI64 (mk' s m e).exp = e := by
    rw [mk_exp, asI64]
    omega
  refine ⟨e + n, ?_, ?_⟩
  · rw [ha, i64Chk, if_pos (by omega)]
  obtain ⟨k, hk⟩ : ∃ k : ℕ, (e : ℤ) + n = k := ⟨((e : ℤ) + n).toNat, by omega⟩
  have hu : asU64 (e + n) = k := by
    rw [asU64, hk]
    omega
  rw [hu]
  have hd : (⟨(mk' s m e).digits, k⟩ : F192) = mk' s m k := by unfold mk'; rfl
  rw [hd]
  refine ⟨valid_mk hm (by omega), ?_⟩
  rw [hv, fval_mk hm (nz_exp (by omega)), mg_eq, mg_eq, ulp, ulp, mul_assoc, mul_assoc, ← zpow_add₀ (by norm_num)]
  have hkn : (k : ℤ) - 2 ^ 48 = (e : ℤ) - 2 ^ 48 + n := by omega
  rw [hkn]

/-- the exponent field wraps below zero -/
theorem scale_wrap {z : F192} (hz : FValid z) (h0 : 1 / 2 ≤ fval z) (h1 : fval z ≤ 4) {n : ℤ} (h2 : -2 ^ 63 ≤ n) (h3 : n < -2 ^ 48 + 125) :
    ∃ e, i64Chk (asI64 z.exp + n) = pure e ∧ FValid ⟨z.digits, asU64 e⟩ ∧ 2 ^ 63 ≤ asU64 e ∧ 0 < fval ⟨z.digits, asU64 e⟩ := by
  have hx := exp_mid hz h0 h1
  obtain ⟨s, m, e, hm, he, hzz, rfl, hv⟩ := mk_of_not_zero hz (by intro h; rw [h] at h0; norm_num at h0)
  rw [mk_exp] at hx
  have ha : asI64 (mk' s m e).exp = e := by
    rw [mk_exp, asI64]
    omega
  refine ⟨e + n, ?_, ?_⟩
  · rw [ha, i64Chk, if_pos (by omega)]
  obtain ⟨k, hk⟩ : ∃ k : ℕ, (e : ℤ) + n + 2 ^ 64 = k := ⟨((e : ℤ) + n + 2 ^ 64).toNat, by omega⟩
  have hu : asU64 (e + n) = k := by
    rw [asU64]
    omega
  rw [hu]
  have hd : (⟨(mk' s m e).digits, k⟩ : F192) = mk' s m k := by unfold mk'; rfl
  rw [hd]
  refine ⟨valid_mk hm (by omega), by omega, ?_⟩
  have hp := mg_pos (e := e) hm
  have hp' := mg_pos (e := k) hm
  cases s
  · rw [fval_mk hm (nz_exp (by omega)), sgn_false, one_mul]
    exact hp'
  · rw [hv, sgn_true] at h0
    linarith

/-- the exponent field leaves the signed range -/
theorem scale_panic {z : F192} (hz : FValid z) (h0 : 1 / 2 ≤ fval z) (h1 : fval z ≤ 4) {n : ℤ} (h3 : 2 ^ 63 - 2 ^ 48 + 128 ≤ n) :
    i64Chk (asI64 z.exp + n) = throw .overflow := by
  have hx := exp_mid hz h0 h1
  have ha : asI64 z.exp = z.exp := by
    rw [asI64]
    omega
  rw [ha, i64Chk, if_neg (by omega)]

/-! ### evaluation -/

def floorE (x : F192) : M F192 := do
  let t ← truncate x
  if t = x then pure t
  else if is_neg x then do
    let one ← from_int 1
    subE t one
  else pure t

theorem floorE_c (x : F192) : Le (floorE x) (floor x) := by
  rw [floorE, floor]
  exact Le.bind' fun _ => Le.ite (Le.refl _) (Le.ite (Le.bind' fun _ => subE_c _ _) (Le.refl _))

def pow2LoopE (u : F192) : Nat → Nat → F192 → F192 → M (F192 × F192)
  | 0, _, approx, iter => pure (approx, iter)
  | n + 1, i, approx, iter => do
    let approx ← addE approx iter
    let iter ← mul iter u
    let iter ← div_i32E iter i
    pow2LoopE u n (i + 1) approx iter

theorem pow2LoopE_c (u : F192) : ∀ n i r c, Le (pow2LoopE u n i r c) (pow2Loop u n i r c)
  | 0, _, _, _ => Le.refl _
  | n + 1, i, r, c => by
    rw [pow2LoopE, pow2Loop]
    exact Le.bind (addE_c _ _) fun _ => Le.bind' fun _ => Le.bind (div_i32E_c _ _) fun _ => pow2LoopE_c u n _ _ _

def pow2E (x : F192) : M F192 := do
  let int ← floorE x
  let fraction ← subE x int
  match ← to_int (-9223372036854775808) 9223372036854775807 int with
  | none => throw .explicit
  | some exp =>
    let u ← mul fraction LN_2
    let p ← pow2LoopE u 13 2 ONE u
    let approx ← addE p.1 p.2
    let e ← i64Chk (asI64 approx.exp + exp)
    pure ⟨approx.digits, asU64 e⟩

theorem pow2E_c (x : F192) : Le (pow2E x) (pow2 x) := by
  rw [pow2E, pow2]
  refine Le.bind (floorE_c _) fun _ => Le.bind (subE_c _ _) fun _ => Le.bind' fun o => ?_
  cases o with
  | none => exact Le.refl _
  | some e => exact Le.bind' fun _ => Le.bind (pow2LoopE_c _ _ _ _ _) fun _ => Le.bind (addE_c _ _) fun _ => Le.refl _

end F192
end Hmath
