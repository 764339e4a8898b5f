import Verif.Proofs.Fp192Log
import Verif.Props.Fp192Const

/-!
# C68: logarithms of 192-bit floating point numbers
-/

namespace Hmath
namespace Props

open Real (logb)

open F192 (mk' mg ulp sgn Nrm Z ZERO ONE mg_eq mg_pos ulp_pos nz_exp fval_mk mk_of_not_zero from_int lerr)

private theorem abs_lt_of_abs_lt {v : ℚ} {a b : ℚ} (h : -b < v) (h' : v < b) (hb : b ≤ a) : |v| < a :=
  abs_lt.2 ⟨by linarith, by linarith⟩

/-- a dyadic number with at most 128 bits is not rounded -/
theorem noCarry_dyadic {N : ℤ} {j : ℤ} (h : |N| < 2 ^ 128) : NoCarry ((N : ℚ) * 2 ^ j) := by
  intro k
  have hj : (0 : ℚ) < 2 ^ j := zpow_pos (by norm_num) j
  rw [abs_mul, abs_of_pos hj, ← Int.cast_abs]
  obtain ⟨n, hn⟩ := Int.eq_ofNat_of_zero_le (abs_nonneg N)
  rw [hn] at h ⊢
  have h' : n < 2 ^ 128 := by exact_mod_cast h
  rw [Int.cast_natCast]
  have hk : (0 : ℚ) < 2 ^ k := zpow_pos (by norm_num) k
  rcases le_or_gt j k with hjk | hjk
  · left
    have h2 : (2 : ℚ) ^ j ≤ 2 ^ k := zpow_le_zpow_right₀ (by norm_num) hjk
    have h3 : (n : ℚ) ≤ 2 ^ 128 - 1 := by
      have : (n : ℚ) + 1 ≤ 2 ^ 128 := by exact_mod_cast h'
      linarith
    have h4 : (n : ℚ) * 2 ^ j ≤ (2 ^ 128 - 1) * 2 ^ k := mul_le_mul h3 h2 hj.le (by norm_num)
    have h5 : ((2 : ℚ) ^ 128 - 1) * 2 ^ k < (2 ^ 128 - 1 / 2) * 2 ^ k := mul_lt_mul_of_pos_right (by norm_num) hk
    linarith
  · obtain ⟨d, rfl⟩ : ∃ d : ℕ, j = k + ((d + 1 : ℕ) : ℤ) := ⟨(j - k - 1).toNat, by omega⟩
    rw [zpow_add₀ (by norm_num), zpow_natCast, show (n : ℚ) * (2 ^ k * 2 ^ (d + 1)) = ((n * 2 ^ (d + 1) : Nat) : ℚ) * 2 ^ k by push_cast; ring]
    rcases lt_or_ge (n * 2 ^ (d + 1)) (2 ^ 128) with h1 | h1
    · left
      refine mul_lt_mul_of_pos_right ?_ hk
      have : ((n * 2 ^ (d + 1) : Nat) : ℚ) + 1 ≤ 2 ^ 128 := by exact_mod_cast h1
      linarith
    · right
      exact mul_le_mul_of_nonneg_right (by exact_mod_cast h1) hk.le

private theorem inRange_int {n : ℤ} (h1 : -2 ^ 63 < n) (h2 : n < 2 ^ 63) : ∃ x, from_int n = pure x ∧ FValid x ∧ fval x = n ∧ InRange x := by
  obtain ⟨x, a1, a2, a3⟩ := F192.from_int_c (n := n) (by omega) (by omega)
  refine ⟨x, a1, a2, a3, ?_⟩
  by_cases h0 : n = 0
  · subst h0
    rw [Int.cast_zero] at a3
    exact Or.inl ((F192.fval_eq_zero a2).1 a3)
  · obtain ⟨s, m, e, hm, he, hz, rfl, hv⟩ := mk_of_not_zero a2 (by rw [a3]; exact_mod_cast h0)
    have hp := mg_pos (e := e) hm
    have hab : mg m e = ((|n| : ℤ) : ℚ) := by
      rw [Int.cast_abs, ← a3, hv, abs_mul, F192.abs_sgn, one_mul, abs_of_pos hp]
    have l1 : (1 : ℤ) ≤ |n| := Int.one_le_abs h0
    have l2 : |n| < 2 ^ 63 := abs_lt.2 ⟨by omega, h2⟩
    have l1' : (1 : ℚ) ≤ mg m e := by rw [hab]; exact_mod_cast l1
    have l2' : mg m e < 2 ^ 63 := by rw [hab]; exact_mod_cast l2
    have := F192.exp_of_fval hm (by linarith) l2'
    rw [InRange, F192.mk_exp]
    right
    omega

/-- the parts of the logarithm -/
theorem log2_parts {x : F192} (hx : FValid x) (h0 : 0 < fval x) (hb : x.exp < 2 ^ 63) : ∃ (E : ℤ) (y l : F192) (K : ℕ),
    F192.log2 x = F192.add y l ∧ FValid y ∧ fval y = E ∧ InRange y ∧ FValid l ∧ InRange l ∧ fval l = (K : ℚ) / 2 ^ 121 ∧
    253 / 2 ≤ fval l ∧ fval l ≤ 257 / 2 ∧ -2 ^ 48 ≤ E ∧ E < 2 ^ 63 ∧ fval x < 2 ^ 128 * 2 ^ E ∧
    |((E + fval l : ℚ) : ℝ) - logb 2 ((fval x : ℚ) : ℝ)| ≤ 1 / 2 ^ 119 + 1 / 2 ^ 128 ∧ E = (x.exp : ℤ) - 281474976710656 := by
  obtain ⟨s, m, e, hm, he, hz, rfl, hv⟩ := mk_of_not_zero hx h0.ne'
  have hp := mg_pos (e := e) hm
  rw [F192.mk_exp] at hb
  cases s
  swap
  · rw [hv, F192.sgn_true] at h0
    linarith
  obtain ⟨mL, eL, l1, l2, l3, l4, l5⟩ := F192.log2_iter_c 16 hm
  obtain ⟨y, y1, y2, y3, y4⟩ := inRange_int (n := (e : ℤ) - 281474976710656) (by omega) (by omega)
  have hzL : ¬Z false mL eL := nz_exp (by omega)
  have hvL := fval_mk (s := false) l2 hzL
  rw [F192.sgn_false, one_mul] at hvL hv
  obtain ⟨b1, b2⟩ := F192.logb_nrm hm
  obtain ⟨c1, c2⟩ := abs_le.1 l5
  have hr : lerr 16 ≤ 1 / 2 := by unfold lerr; norm_num
  have d1 : (253 / 2 : ℚ) ≤ mg mL eL := by
    have : ((253 / 2 : ℚ) : ℝ) ≤ ((mg mL eL : ℚ) : ℝ) := by push_cast; linarith
    exact_mod_cast this
  have d2 : mg mL eL ≤ (257 / 2 : ℚ) := by
    have : ((mg mL eL : ℚ) : ℝ) ≤ ((257 / 2 : ℚ) : ℝ) := by push_cast; linarith
    exact_mod_cast this
  have hK : ∃ K : ℕ, mg mL eL = (K : ℚ) / 2 ^ 121 := by
    have h121 : 281474976710656 ≤ eL + 121 := by
      by_contra hc
      have hu := F192.ulp_mono (show eL ≤ 281474976710656 - 122 by omega)
      have hu2 := F192.mg_coeff_sub (m := 1) (k := 122) (by omega)
      rw [mg_eq, Nat.cast_one, one_mul] at hu2
      rw [hu2] at hu
      rw [mg_eq] at d1
      have h128 : (mL : ℚ) ≤ 2 ^ 128 := by exact_mod_cast le_trans l2.2.le (by norm_num)
      have := mul_le_mul h128 hu (ulp_pos eL).le (by norm_num)
      norm_num at this
      linarith
    obtain ⟨j, hj⟩ := Nat.exists_eq_add_of_le h121
    have hej : eL = (281474976710656 - 121) + j := by omega
    refine ⟨mL * 2 ^ j, ?_⟩
    have hu2 := F192.mg_coeff_sub (m := 1) (k := 121) (by omega)
    rw [mg_eq, Nat.cast_one, one_mul] at hu2
    rw [mg_eq, hej, F192.ulp_add, hu2]
    push_cast
    ring
  obtain ⟨K, hK⟩ := hK
  refine ⟨(e : ℤ) - 281474976710656, y, mk' false mL eL, K, ?_, y2, y3, y4, F192.valid_mk l2 (by omega), ?_, by rw [hvL, hK], by rw [hvL]; exact d1, by rw [hvL]; exact d2, by omega, by omega, ?_, ?_, rfl⟩
  · rw [F192.log2, F192.is_neg_mk hm, if_neg (by decide), F192.is_zero_mk hm, if_neg]
    · simp only []
      rw [F192.or_sign hm, F192.expI64_c (by omega), pure_bind, y1, pure_bind, l1, pure_bind]
    · rw [decide_eq_true_eq]
      exact hz
  · rw [InRange, F192.mk_exp]
    right
    omega
  · rw [hv, mg_eq]
    refine mul_lt_mul_of_pos_right ?_ (ulp_pos e)
    exact_mod_cast lt_of_lt_of_le hm.2 (by norm_num)
  · rw [hv, hvL, F192.logb_mg hm]
    have hE : ((((e : ℤ) - 281474976710656 : ℤ) : ℚ) : ℝ) = (e : ℝ) - 281474976710656 := by
      rw [Int.cast_sub, Int.cast_natCast, Int.cast_ofNat, Rat.cast_sub, Rat.cast_natCast, Rat.cast_ofNat]
    rw [Rat.cast_add, hE]
    have : lerr 16 = 1 / 2 ^ 119 + 1 / 2 ^ 128 := by unfold lerr; norm_num
    rw [← this]
    have e1 : (e : ℝ) - 281474976710656 + ((mg mL eL : ℚ) : ℝ) - (logb 2 (m : ℝ) + ((e : ℝ) - 281474976710656)) = ((mg mL eL : ℚ) : ℝ) - logb 2 (m : ℝ) := by ring
    rw [e1]
    exact l5

/-- the real number `v` is within `2^-80` of `-2^k` for some `k` -/
def NearNegPow (v : ℝ) : Prop := ∃ k : ℕ, |v + 2 ^ k| < 1 / 2 ^ 80

theorem log2_main {x : F192} (hx : FValid x) (h0 : 0 < fval x) (hb : x.exp < 2 ^ 63)
    (h : 1 / 2 ^ 127 ≤ fval x ∨ ¬NearNegPow (logb 2 ((fval x : ℚ) : ℝ))) : ∃ z, F192.log2 x = pure z ∧ FValid z ∧
      |((fval z : ℚ) : ℝ) - logb 2 ((fval x : ℚ) : ℝ)| ≤ 1 / 2 ^ 118 + |logb 2 ((fval x : ℚ) : ℝ)| / 2 ^ 127 ∧
      (fval z ≠ 0 → 1 / 2 ^ 122 ≤ |fval z|) ∧ |fval z| < 2 ^ 65 := by
  obtain ⟨E, y, l, K, p1, p2, p3, p4, p5, p6, p7, p8, p9, p10, p11, p13, p12, -⟩ := log2_parts hx h0 hb
  have hcond : 0 ≤ fval y * fval l ∨ NoCarry (fval y + fval l) := by
    rcases le_or_gt 0 E with hE | hE
    · left
      rw [p3]
      exact mul_nonneg (by exact_mod_cast hE) (by linarith)
    · right
      rw [p3]
      by_cases hE2 : -254 ≤ E
      · have e1 : (E : ℚ) + fval l = ((E * 2 ^ 121 + K : ℤ) : ℚ) * 2 ^ (-121 : ℤ) := by
          rw [p7, zpow_neg]
          push_cast
          norm_num
          ring
        rw [e1]
        apply noCarry_dyadic
        have k1 : (253 / 2 : ℚ) * 2 ^ 121 ≤ K := by
          rw [p7, le_div_iff₀ (by norm_num)] at p8
          exact p8
        have k2 : (K : ℚ) ≤ 257 / 2 * 2 ^ 121 := by
          rw [p7, div_le_iff₀ (by norm_num)] at p9
          exact p9
        have k1' : 253 * 2 ^ 120 ≤ K := by norm_num at k1 ⊢; exact_mod_cast k1
        have k2' : K ≤ 257 * 2 ^ 120 := by norm_num at k2 ⊢; exact_mod_cast k2
        rw [abs_lt]
        constructor <;> omega
      · have hx127 : ¬1 / 2 ^ 127 ≤ fval x := by
          intro hc
          have : (2 : ℚ) ^ E ≤ 2 ^ (-255 : ℤ) := zpow_le_zpow_right₀ (by norm_num) (by omega)
          rw [zpow_neg] at this
          norm_num at this hc p13
          linarith
        have hN := h.resolve_left hx127
        intro k
        by_contra hc
        rw [not_or, not_lt, not_le] at hc
        obtain ⟨c1, c2⟩ := hc
        have hk : (2 : ℚ) ^ 128 * 2 ^ k = 2 ^ (k + 128) := by
          rw [zpow_add₀ (by norm_num)]
          norm_num
          ring
        have hneg : (E : ℚ) + fval l ≤ -125 := by
          have : (E : ℚ) ≤ -254 := by exact_mod_cast (by omega : E ≤ -254)
          linarith
        have hlow : -2 ^ 48 ≤ (E : ℚ) + fval l := by
          have : (-2 ^ 48 : ℚ) ≤ E := by exact_mod_cast p10
          linarith
        rw [abs_of_neg (by linarith)] at c1 c2
        rw [hk] at c2
        have hk0 : 0 ≤ k + 128 := by
          by_contra hcc
          have : (2 : ℚ) ^ (k + 128) ≤ 2 ^ (0 : ℤ) := zpow_le_zpow_right₀ (by norm_num) (by omega)
          rw [zpow_zero] at this
          linarith
        obtain ⟨n, hn⟩ := Int.eq_ofNat_of_zero_le hk0
        rw [hn] at c2
        have hP : (2 ^ 128 - 1 / 2) * (2 : ℚ) ^ k = 2 ^ n * (1 - 1 / 2 ^ 129) := by
          have : (2 : ℚ) ^ n = 2 ^ 128 * 2 ^ k := by rw [hk, hn, zpow_natCast]
          rw [this]
          norm_num
          ring
        rw [hP] at c1
        have c2' : -((E : ℚ) + fval l) < 2 ^ n := by exact_mod_cast c2
        apply hN
        refine ⟨n, ?_⟩
        have r1 : (((2 : ℚ) ^ n * (1 - 1 / 2 ^ 129) : ℚ) : ℝ) ≤ ((-((E : ℚ) + fval l) : ℚ) : ℝ) := Rat.cast_le.2 c1
        have r2 : ((-((E : ℚ) + fval l) : ℚ) : ℝ) ≤ (((2 : ℚ) ^ n : ℚ) : ℝ) := Rat.cast_le.2 c2'.le
        have r3 : ((-2 ^ 48 : ℚ) : ℝ) ≤ ((E + fval l : ℚ) : ℝ) := Rat.cast_le.2 hlow
        rw [Rat.cast_neg] at r1 r2
        generalize ((E + fval l : ℚ) : ℝ) = V at *
        generalize logb 2 ((fval x : ℚ) : ℝ) = B at *
        push_cast at r1 r2 r3
        generalize (2 : ℝ) ^ n = P at *
        have t := abs_le.1 p12
        rw [abs_lt]
        norm_num at *
        constructor <;> linarith
  obtain ⟨z, z1, z2, z3, z4⟩ := C41_add_partial p2 p5 p4 p6 hcond
  refine ⟨z, by rw [p1, z1], z2, ?_, ?_, ?_⟩
  · rw [p3] at z4
    have q : |((fval z : ℚ) : ℝ) - ((E + fval l : ℚ) : ℝ)| ≤ 1 / 2 ^ 127 * |((E + fval l : ℚ) : ℝ)| := by
      have := (Rat.cast_le (K := ℝ)).2 z4
      rw [Rat.cast_abs, Rat.cast_sub, Rat.cast_mul, Rat.cast_abs] at this
      norm_num at this ⊢
      exact this
    generalize ((E + fval l : ℚ) : ℝ) = V at *
    generalize ((fval z : ℚ) : ℝ) = R at *
    generalize logb 2 ((fval x : ℚ) : ℝ) = B at *
    have t1 : |V| ≤ |B| + |V - B| := by
      have := abs_sub_abs_le_abs_sub V B
      linarith
    have t2 := abs_sub_le R V B
    norm_num at *
    linarith
  · intro hz
    rw [p3] at z3 z4
    have hv0 : (E : ℚ) + fval l ≠ 0 := by
      intro hc
      rw [hc, sign_zero, sign_eq_zero_iff] at z3
      exact hz z3
    have e1 : (E : ℚ) + fval l = ((E * 2 ^ 121 + K : ℤ) : ℚ) / 2 ^ 121 := by
      rw [p7]
      rw [Int.cast_add, Int.cast_mul, Int.cast_natCast, add_div]
      norm_num
    have hn : (E * 2 ^ 121 + K : ℤ) ≠ 0 := by
      intro hc
      rw [hc] at e1
      exact hv0 (by rw [e1]; norm_num)
    have h1 : (1 : ℚ) ≤ |((E * 2 ^ 121 + K : ℤ) : ℚ)| := by exact_mod_cast Int.one_le_abs hn
    have h2 : 1 / 2 ^ 121 ≤ |(E : ℚ) + fval l| := by
      rw [e1, abs_div, abs_of_pos (show (0 : ℚ) < 2 ^ 121 by norm_num)]
      exact div_le_div_of_nonneg_right h1 (by norm_num)
    have h3 := abs_sub_abs_le_abs_sub ((E : ℚ) + fval l) (fval z)
    rw [abs_sub_comm] at h3
    norm_num at *
    linarith

  · rw [p3] at z4
    have h3 := abs_sub_abs_le_abs_sub (fval z) ((E : ℚ) + fval l)
    have e1 : (-2 ^ 48 : ℚ) ≤ E := by exact_mod_cast p10
    have e2 : (E : ℚ) < 2 ^ 63 := by exact_mod_cast p11
    have e3 : |(E : ℚ) + fval l| ≤ 2 ^ 64 := by
      rw [abs_le]
      norm_num at *
      constructor <;> linarith
    norm_num at *
    linarith

/-- The binary logarithm of a positive number, unless it is less than `2^-127` and its logarithm is next to the negative of a
power of two.
The full claim has no such exception and no bound on the exponent; see the counterexamples below. -/
theorem C68_log2_partial {x : F192} (hx : FValid x) (h0 : 0 < fval x) (hb : x.exp < 2 ^ 63)
    (h : 1 / 2 ^ 127 ≤ fval x ∨ ¬NearNegPow (logb 2 ((fval x : ℚ) : ℝ))) : ∃ z, F192.log2 x = pure z ∧ FValid z ∧
      |((fval z : ℚ) : ℝ) - logb 2 ((fval x : ℚ) : ℝ)| ≤ 1 / 2 ^ 118 + |logb 2 ((fval x : ℚ) : ℝ)| / 2 ^ 127 := by
  obtain ⟨z, h1, h2, h3, -⟩ := log2_main hx h0 hb h
  exact ⟨z, h1, h2, h3⟩

/-- 3 -/
example : FValid ⟨85070591730234615865843651857942052864, 281474976710530⟩ ∧ 0 < fval ⟨85070591730234615865843651857942052864, 281474976710530⟩ ∧
    1 / 2 ^ 127 ≤ fval ⟨85070591730234615865843651857942052864, 281474976710530⟩ := by
  have h : fval ⟨85070591730234615865843651857942052864, 281474976710530⟩ = 3 := by
    have := fval_mk (s := false) (m := 255211775190703847597530955573826158592) (e := 281474976710656 - 126) ⟨by norm_num, by norm_num⟩ (nz_exp (by norm_num))
    rw [F192.mg_coeff_sub (by norm_num)] at this
    exact this.trans (by norm_num [sgn])
  rw [h]
  exact ⟨by decide, by norm_num, by norm_num⟩

/-- There is no logarithm of zero and of negative numbers. -/
theorem C68_log2_panics {x : F192} (hx : FValid x) (h : fval x ≤ 0) : Panics (F192.log2 x) ∧ Panics (F192.ln x) := by
  have key : Panics (F192.log2 x) := by
    refine ⟨.explicit, ?_⟩
    rw [F192.log2]
    by_cases h0 : fval x = 0
    · rw [(F192.fval_eq_zero hx).1 h0]
      rfl
    · obtain ⟨s, m, e, hm, he, hz, rfl, hv⟩ := mk_of_not_zero hx h0
      have hp := mg_pos (e := e) hm
      cases s
      · rw [hv, F192.sgn_false] at h
        linarith
      · rw [F192.is_neg_mk hm, if_pos rfl]
  refine ⟨key, ?_⟩
  obtain ⟨p, hp⟩ := key
  exact ⟨p, by rw [F192.ln, hp]; rfl⟩

example : FValid ⟨2 ^ 127, 2 ^ 48 - 127⟩ ∧ fval ⟨2 ^ 127, 2 ^ 48 - 127⟩ ≤ 0 := by
  have := fval_mk (s := true) (m := 170141183460469231731687303715884105728) (e := 281474976710656 - 127) ⟨by norm_num, by norm_num⟩ (nz_exp (by norm_num))
  rw [F192.mg_coeff_sub (by norm_num)] at this
  refine ⟨by decide, ?_⟩
  refine le_trans (le_of_eq this) ?_
  norm_num [sgn]

/-- The logarithm of `(1 + 2^-100) / 2^(2^40)` is twice the result. -/
theorem C68_log2_counterexample : ∃ x z, FValid x ∧ fval x = (1 + 1 / 2 ^ 100) * 2 ^ (-2 ^ 40 : ℤ) ∧ F192.log2 x = pure z ∧ fval z = -2 ^ 39 ∧
    -2 ^ 40 < logb 2 ((fval x : ℚ) : ℝ) ∧ logb 2 ((fval x : ℚ) : ℝ) < -2 ^ 40 + 1 / 2 ^ 98 := by
  have hm : Nrm (170141183460469231731687303715884105728 + 134217728) := ⟨by norm_num, by norm_num⟩
  have he : 281474976710656 - 127 - 1099511627776 = 280375465082753 := by norm_num
  have hv := fval_mk (s := false) (e := 280375465082753) hm (nz_exp (by norm_num))
  have hx := F192.valid_mk (s := false) (e := 280375465082753) hm (by norm_num)
  have hx0 : 0 < fval (mk' false (170141183460469231731687303715884105728 + 134217728) 280375465082753) := by
    rw [hv, F192.sgn_false, one_mul]
    exact mg_pos hm
  have hq : fval (mk' false (170141183460469231731687303715884105728 + 134217728) 280375465082753) = (1 + 1 / 2 ^ 100) * 2 ^ (-2 ^ 40 : ℤ) := by
    rw [hv, F192.sgn_false, one_mul, mg_eq, ulp]
    have e2 : ((280375465082753 : ℕ) : ℤ) - 2 ^ 48 = (-127) + (-2 ^ 40) := by norm_num
    rw [e2, zpow_add₀ (by norm_num), ← mul_assoc]
    congr 1
    norm_num
  have hl : logb 2 ((fval (mk' false (170141183460469231731687303715884105728 + 134217728) 280375465082753) : ℚ) : ℝ) = -2 ^ 40 + logb 2 (1 + 1 / 2 ^ 100) := by
    rw [hq]
    push_cast
    rw [Real.logb_mul (by norm_num) (zpow_ne_zero _ (by norm_num)), ← Real.rpow_intCast, Real.logb_rpow (by norm_num) (by norm_num), add_comm]
    norm_num
  have l2 := Real.log_two_gt_d9
  have l2' := Real.log_two_lt_d9
  have b1 : 1 / 2 ^ 101 ≤ logb 2 (1 + 1 / 2 ^ 100) := by
    rw [Real.logb, le_div_iff₀ (by linarith)]
    have := Real.one_sub_inv_le_log_of_pos (show (0 : ℝ) < 1 + 1 / 2 ^ 100 by norm_num)
    refine le_trans (le_trans (mul_le_mul_of_nonneg_left l2'.le (by norm_num)) ?_) this
    norm_num
  have b2 : logb 2 (1 + 1 / 2 ^ 100) ≤ 1 / 2 ^ 99 := by
    rw [Real.logb, div_le_iff₀ (by linarith)]
    have := Real.log_le_sub_one_of_pos (show (0 : ℝ) < 1 + 1 / 2 ^ 100 by norm_num)
    refine le_trans this (le_trans ?_ (mul_le_mul_of_nonneg_left l2.le (by norm_num)))
    norm_num
  obtain ⟨E, y, l, K, p1, p2, p3, p4, p5, p6, p7, p8, p9, p10, p11, p13, p12, p14⟩ := log2_parts hx hx0 (by rw [F192.mk_exp]; norm_num)
  rw [F192.mk_exp] at p14
  have hE : E = -(2 ^ 40 + 127) := by rw [p14]; norm_num
  rw [hl] at p12
  subst hE
  generalize logb 2 (1 + 1 / 2 ^ 100) = D at *
  have hV : -2 ^ 40 + (1 / 2 ^ 102 : ℚ) ≤ ((-(2 ^ 40 + 127) : ℤ) : ℚ) + fval l ∧ ((-(2 ^ 40 + 127) : ℤ) : ℚ) + fval l ≤ -2 ^ 40 + (1 / 2 ^ 98 : ℚ) := by
    obtain ⟨t1, t2⟩ := abs_le.1 p12
    constructor
    · refine (Rat.cast_le (K := ℝ)).1 ?_
      push_cast at t1 t2 ⊢
      norm_num at *
      linarith
    · refine (Rat.cast_le (K := ℝ)).1 ?_
      push_cast at t1 t2 ⊢
      norm_num at *
      linarith
  obtain ⟨v1, v2⟩ := hV
  have hu : ulp (281474976710656 - 88) = 1 / 2 ^ 88 := ulp_sub (by norm_num)
  refine ⟨_, mk' true 170141183460469231731687303715884105728 (281474976710656 - 88), hx, hq, ?_, ?_, ?_, ?_⟩
  · rw [p1]
    obtain ⟨s, m, e, hm1, he1, hz1, rfl, hv1⟩ := mk_of_not_zero p2 (by rw [p3]; norm_num)
    obtain ⟨s', m', e', hm2, he2, hz2, rfl, hv2⟩ := mk_of_not_zero p5 (by linarith)
    have q1 := inRange_mid hm1 p4 hz1
    have q2 := inRange_mid hm2 p6 hz2
    have w1 := mg_pos (e := e) hm1
    have w2 := mg_pos (e := e') hm2
    rw [hv1] at p3
    rw [hv2] at p8 v1 v2
    cases s
    · rw [F192.sgn_false] at p3
      norm_num at p3
      linarith
    cases s'
    swap
    · rw [F192.sgn_true] at p8
      linarith
    rw [F192.add, F192.is_neg_mk hm1, F192.is_neg_mk hm2, if_pos (by decide), if_pos rfl, F192.neg_mk hm1 hz1, Bool.not_true, F192.sub_same hm2 hm1 q2 q1]
    rw [← p3, F192.sgn_true, F192.sgn_false] at v1 v2
    have e1 : sgn false * mg m' e' - sgn false * mg m e = -1 * mg m e + 1 * mg m' e' := by rw [F192.sgn_false]; ring
    rw [e1]
    generalize -1 * mg m e + 1 * mg m' e' = v at *
    refine carry_mk (by omega) ?_ ?_
    · rw [hu, abs_of_neg (by norm_num at v2 ⊢; linarith)]
      norm_num at v2 ⊢
      linarith
    · rw [hu, abs_of_neg (by norm_num at v2 ⊢; linarith)]
      norm_num at v1 ⊢
      linarith
  · rw [fval_mk ⟨by norm_num, by norm_num⟩ (nz_exp (by norm_num)), mg_eq, hu, F192.sgn_true]
    norm_num
  · rw [hl]
    norm_num at b1 ⊢
    linarith
  · rw [hl]
    norm_num at b2 ⊢
    linarith

/-- The exponent field is read as a signed number. -/
theorem C68_log2_range_counterexample : Panics (F192.log2 ⟨0, 2 ^ 63⟩) ∧ FValid ⟨0, 2 ^ 63⟩ := ⟨⟨.overflow, by rfl⟩, by decide⟩

/-- The natural logarithm, under the same conditions. -/
theorem C68_ln_partial {x : F192} (hx : FValid x) (h0 : 0 < fval x) (hb : x.exp < 2 ^ 63)
    (h : 1 / 2 ^ 127 ≤ fval x ∨ ¬NearNegPow (logb 2 ((fval x : ℚ) : ℝ))) : ∃ z, F192.ln x = pure z ∧ FValid z ∧
      |((fval z : ℚ) : ℝ) - Real.log ((fval x : ℚ) : ℝ)| ≤ 1 / 2 ^ 118 + |Real.log ((fval x : ℚ) : ℝ)| / 2 ^ 122 := by
  obtain ⟨w, w1, w2, w3, w4, w5⟩ := log2_main hx h0 hb h
  have hL : |((fval F192.LN_2 : ℚ) : ℝ) - Real.log 2| ≤ 1 / 2 ^ 128 := by
    obtain ⟨g1, g2⟩ := ln2_rat (a := ((2 ^ 127 + 65724579765044062406256839048270378671 : Nat) - 1 / 2 : ℚ) / 2 ^ 128)
      (b := ((2 ^ 127 + 65724579765044062406256839048270378671 : Nat) + 1 / 2 : ℚ) / 2 ^ 128) (by decide +kernel) (by decide +kernel)
    have hv : fval F192.LN_2 = ((2 ^ 127 + 65724579765044062406256839048270378671 : Nat) : ℚ) / 2 ^ 128 := by
      have := fval_mk (s := false) (m := 2 ^ 127 + 65724579765044062406256839048270378671) (e := 281474976710656 - 128) ⟨by norm_num, by norm_num⟩ (nz_exp (by norm_num))
      rw [F192.mg_coeff_sub (by norm_num), F192.sgn_false, one_mul] at this
      exact this
    rw [hv, abs_le]
    push_cast at g1 g2 ⊢
    norm_num at g1 g2 ⊢
    constructor <;> linarith
  have l2 := Real.log_two_gt_d9
  have l2' := Real.log_two_lt_d9
  have hlog : Real.log ((fval x : ℚ) : ℝ) = logb 2 ((fval x : ℚ) : ℝ) * Real.log 2 := by
    rw [Real.logb, div_mul_cancel₀ _ (by linarith)]
  have hexp : fval w * fval F192.LN_2 = 0 ∨ (2 ^ 48 ≤ w.exp + F192.LN_2.exp ∧ w.exp + F192.LN_2.exp < 2 ^ 64) := by
    by_cases hw : fval w = 0
    · left
      rw [hw, zero_mul]
    · right
      obtain ⟨s, m, e, hm, he, hz, rfl, hv⟩ := mk_of_not_zero w2 hw
      have hp := mg_pos (e := e) hm
      have w4' := w4 hw
      rw [hv, abs_mul, F192.abs_sgn, one_mul, abs_of_pos hp] at w4' w5
      have hup : e < 281474976710656 := by
        by_contra hc
        have hu := F192.ulp_mono (not_lt.1 hc)
        have h1 : ulp 281474976710656 = 1 := by
          have := ulp_sub (k := 0) (by norm_num)
          norm_num at this
          exact this
        rw [h1] at hu
        rw [mg_eq] at w5
        have : (2 ^ 127 : ℚ) ≤ m := by exact_mod_cast le_trans (by norm_num) hm.1
        have := mul_le_mul this hu (by norm_num) (by linarith)
        norm_num at this w5
        linarith
      have hlo : 281474976710656 - 251 ≤ e := by
        by_contra hc
        have hu := F192.ulp_mono (not_le.1 hc).le
        rw [ulp_sub (by norm_num)] at hu
        rw [mg_eq] at w4'
        have : (m : ℚ) ≤ 2 ^ 128 := by exact_mod_cast le_trans hm.2.le (by norm_num)
        have := mul_le_mul this hu (ulp_pos e).le (by norm_num)
        norm_num at this w4'
        linarith
      have hL2 : F192.LN_2.exp = 281474976710528 := rfl
      rw [F192.mk_exp, hL2]
      constructor <;> omega
  obtain ⟨z, z1, ⟨z2, -, z3⟩, -⟩ := C41_mul w2 (by decide) hexp
  refine ⟨z, ?_, z2, ?_⟩
  · rw [F192.ln, w1, pure_bind, z1]
  · rw [hlog]
    have q : |((fval z : ℚ) : ℝ) - ((fval w : ℚ) : ℝ) * ((fval F192.LN_2 : ℚ) : ℝ)| ≤ 1 / 2 ^ 124 * (|((fval w : ℚ) : ℝ)| * |((fval F192.LN_2 : ℚ) : ℝ)|) := by
      have := (Rat.cast_le (K := ℝ)).2 z3
      rw [Rat.cast_abs, Rat.cast_sub, Rat.cast_mul, Rat.cast_mul, Rat.cast_abs, Rat.cast_mul, abs_mul] at this
      norm_num at this ⊢
      exact this
    generalize ((fval z : ℚ) : ℝ) = R at *
    generalize ((fval w : ℚ) : ℝ) = W at *
    generalize logb 2 ((fval x : ℚ) : ℝ) = B at *
    generalize ((fval F192.LN_2 : ℚ) : ℝ) = L at *
    generalize Real.log 2 = T at *
    have t1 : |W| ≤ |B| + |W - B| := by
      have := abs_sub_abs_le_abs_sub W B
      linarith
    obtain ⟨T1, T2⟩ := abs_le.1 hL
    have Lp : 0 < L := by norm_num at *; linarith
    have Tp : 0 < T := by norm_num at *; linarith
    rw [abs_of_pos Lp] at q
    have t2 : |W * L - B * T| ≤ |W - B| * L + |B| * (1 / 2 ^ 128) := by
      have : W * L - B * T = (W - B) * L + B * (L - T) := by ring
      rw [this]
      refine le_trans (abs_add_le _ _) ?_
      rw [abs_mul, abs_mul, abs_of_pos Lp]
      exact add_le_add le_rfl (mul_le_mul_of_nonneg_left hL (abs_nonneg _))
    have t3 := abs_sub_le R (W * L) (B * T)
    rw [abs_mul, abs_of_pos Tp]
    have hB := abs_nonneg B
    have hW := abs_nonneg W
    have hL1 : L ≤ 0.7 := by norm_num at *; linarith
    have hT1 : 0.69 ≤ T := by norm_num at *; linarith
    have hWB := abs_nonneg (W - B)
    have s1 : |W - B| * L ≤ |W - B| * 0.7 := mul_le_mul_of_nonneg_left hL1 hWB
    have s2 : |W| * L ≤ |W| * 0.7 := mul_le_mul_of_nonneg_left hL1 hW
    have s3 : |B| * 0.69 ≤ |B| * T := mul_le_mul_of_nonneg_left hT1 hB
    generalize |B| * T = BT at *
    clear w4 z3 hexp w5
    generalize |B| = B' at *
    generalize |W - B| * L = WBL at *
    generalize |W| * L = WL at *
    generalize |R - B * T| = G at *
    norm_num at *
    linarith

/-- three -/
example : FValid ⟨85070591730234615865843651857942052864, 281474976710530⟩ ∧ 0 < fval ⟨85070591730234615865843651857942052864, 281474976710530⟩ ∧
    1 / 2 ^ 127 ≤ fval ⟨85070591730234615865843651857942052864, 281474976710530⟩ := by
  have h : fval ⟨85070591730234615865843651857942052864, 281474976710530⟩ = 3 := by
    have := fval_mk (s := false) (m := 255211775190703847597530955573826158592) (e := 281474976710656 - 126) ⟨by norm_num, by norm_num⟩ (nz_exp (by omega))
    rw [F192.mg_coeff_sub (by omega), F192.sgn_false, one_mul] at this
    exact this.trans (by norm_num)
  exact ⟨by decide, by rw [h]; norm_num, by rw [h]; norm_num⟩

end Props
end Hmath
