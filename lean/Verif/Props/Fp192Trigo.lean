import Verif.Proofs.Fp192Eval

/-!
# C70: sine, cosine and tangent of 192-bit floating point numbers
-/

namespace Hmath
namespace Props

open F192 (Rng ZERO PI PI_OVER_2 PI_OVER_4 pi_val pi_err pi_lo pi_hi rng_const sub_near cosGap sin_iter_c cos_iter_c gt)

/-- Zero, or an exponent up to almost `2^31` in magnitude (at `2^-(2^31)` the results are wrong, see `C70_small_counterexample`). -/
def TrigRange (x : F192) : Prop := x = ZERO ∨ (2 ^ 48 - (2 ^ 31 - 2 ^ 12) < x.exp ∧ x.exp < 2 ^ 48 + (2 ^ 31 - 2 ^ 12))

private theorem truncQ_nonneg {q : ℚ} (h : 0 ≤ q) : truncQ q = ⌊q⌋ := by rw [truncQ, if_pos h]

/-- twice pi -/
private def PI2 : F192 := ⟨97115962555772455233232789574583590097, 281474976710531⟩

private theorem pi2_val : fval PI2 = 2 * fval PI := by
  have := F192.fval_mk (s := false) (m := 267257146016241686964920093290467695825) (e := 281474976710656 - 125) ⟨by norm_num, by norm_num⟩ (F192.nz_exp (by omega))
  rw [F192.mg_coeff_sub (by omega), F192.sgn_false, one_mul] at this
  rw [pi_val.1]
  exact this.trans (by norm_num)

private theorem mod2pi_c {K : ℤ} {x : F192} (hx : Rng K x) (hK : 1000 ≤ K) (hK' : K ≤ 2147482000) : ∃ (y : F192) (n : ℕ), F192.mod2pi x = pure y ∧ Rng (K + 5) y ∧ 0 ≤ fval y ∧
    fval y ≤ 2 * fval PI ∧ fval y ≤ |fval x| * (1 + 1 / 2 ^ 124) ∧
    |((fval y : ℚ) : ℝ) - (|((fval x : ℚ) : ℝ)| - n * (2 * Real.pi))| ≤ |((fval x : ℚ) : ℝ)| / 2 ^ 122 := by
  have plo := pi_lo
  have phi := pi_hi
  have ht : x ≠ negTiny := by
    rintro rfl
    rcases hx.exp with h | h
    · exact absurd ((F192.fval_eq_zero hx.1).1 h) (by decide)
    · have : negTiny.exp = 0 := rfl
      omega
  obtain ⟨a1, a2, -⟩ := C59_sign_partial hx.1 ht
  have ra : Rng K (F192.abs x) := ⟨a1, by rw [a2, _root_.abs_abs, abs_eq_zero]; exact hx.2⟩
  have hshl : F192.shl PI 1 = pure PI2 := rfl
  have r2 : Rng 64 PI2 := rng_const (by decide) (by rw [pi2_val]; linarith) (by rw [pi2_val]; linarith)
  rw [F192.mod2pi, hshl, pure_bind]
  set X := |fval x| with hX
  have hX0 : 0 ≤ X := abs_nonneg _
  -- the quotient
  obtain ⟨d, δ, d1, d2, d3, d4, d5⟩ : ∃ (d : F192) (δ : ℚ), F192.div (F192.abs x) PI2 = pure d ∧ Rng (K + 4) d ∧ 0 ≤ δ ∧ δ ≤ 1 / 2 ^ 124 ∧ fval d = X / (2 * fval PI) * (1 + δ) := by
    rcases ra.exp with h | ⟨h1, h2⟩
    · have hz := (F192.fval_eq_zero a1).1 h
      rw [a2] at h
      refine ⟨ZERO, 0, ?_, ⟨by decide, Or.inl rfl⟩, le_refl _, by norm_num, ?_⟩
      · rw [hz]; exact (C62_div_zero _).1
      · rw [h, zero_div, zero_mul]; rfl
    · have hp : PI2.exp = 281474976710531 := rfl
      obtain ⟨c1, c2, c4, c3⟩ := divRange_small (x := F192.abs x) (y := PI2) ⟨by omega, by omega⟩ ⟨by rw [hp]; norm_num, by rw [hp]; norm_num⟩
      obtain ⟨d, δ, d1, d2, d3, d4, d5⟩ := C62_div_partial a1 r2.1 c1 c2 c4 c3
      rw [a2, pi2_val] at d5
      refine ⟨d, δ, d1, ⟨d2, ?_⟩, d3, d4, d5⟩
      rw [d5]
      rcases ra.2 with h | ⟨l, u⟩
      · left; rw [← a2, h, zero_div, zero_mul]
      rw [a2, _root_.abs_abs] at l u
      right
      rw [abs_of_nonneg (by positivity)]
      have hδ : 1 + δ ≤ 2 := by norm_num at d4; linarith
      constructor
      · have e1 : (2 : ℚ) ^ (-(K + 4)) = 2 ^ (-K) * (1 / 16) := by rw [neg_add, zpow_add₀ (by norm_num)]; norm_num
        rw [e1]
        refine le_trans ?_ (le_mul_of_one_le_right (by positivity) (by linarith))
        rw [← hX] at l
        rw [div_eq_mul_inv X]
        refine mul_le_mul l ?_ (by norm_num) hX0
        rw [one_div]
        exact inv_anti₀ (by linarith) (by linarith)
      · have e1 : (2 : ℚ) ^ (K + 4) = 2 ^ K * 16 := by rw [zpow_add₀ (by norm_num)]; norm_num
        rw [e1]
        refine mul_le_mul ?_ (by linarith) (by linarith) (by positivity)
        exact (div_le_self hX0 (by linarith)).trans u
  have hd0 : 0 ≤ fval d := by rw [d5]; positivity
  have hdt : d ≠ negTiny := by
    rintro rfl
    rcases d2.exp with h | h
    · exact absurd ((F192.fval_eq_zero d2.1).1 h) (by decide)
    · have : negTiny.exp = 0 := rfl
      omega
  obtain ⟨f, f1, f2, f3⟩ := C43_frac_partial d2.1 (by
    rcases d2.exp with h | h
    · rw [(F192.fval_eq_zero d2.1).1 h]
      decide
    · omega) hdt
  rw [truncQ_nonneg hd0] at f3
  have hf0 : 0 ≤ fval f := by rw [f3]; linarith [Int.floor_le (fval d)]
  have hf1 : fval f < 1 := by rw [f3]; linarith [Int.lt_floor_add_one (fval d)]
  have hfd : fval f ≤ fval d := by
    have : (0 : ℚ) ≤ ⌊fval d⌋ := by exact_mod_cast Int.floor_nonneg.2 hd0
    rw [f3]; linarith
  obtain ⟨n, hn⟩ := Int.eq_ofNat_of_zero_le (Int.floor_nonneg.2 hd0)
  have hn' : (⌊fval d⌋ : ℚ) = n := by exact_mod_cast hn
  have hnd : (n : ℚ) ≤ fval d := by rw [← hn']; exact Int.floor_le _
  rw [hn'] at f3
  have rf : Rng (K + 4) f := by
    refine ⟨f2, ?_⟩
    by_cases hz : fval f = 0
    · exact Or.inl hz
    right
    rw [abs_of_nonneg hf0]
    constructor
    · rcases Nat.eq_zero_or_pos n with h | h
      · rw [h, Nat.cast_zero, sub_zero] at f3
        rw [f3] at hz ⊢
        have := (d2.2.resolve_left hz).1
        rwa [abs_of_nonneg hd0] at this
      · have : (1 : ℚ) ≤ n := by exact_mod_cast h
        obtain ⟨N, hN⟩ := F192.multiple d2.1 (k := 127) (by rw [abs_of_nonneg hd0]; norm_num; linarith)
        have e : fval f = (N - n * 2 ^ 127 : ℤ) * 2 ^ (-127 : ℤ) := by
          rw [f3, hN]
          push_cast
          rw [sub_mul]
          norm_num
          ring
        have hp : (0 : ℚ) < 2 ^ (-127 : ℤ) := zpow_pos (by norm_num) _
        have h1 : 0 < (N - n * 2 ^ 127 : ℤ) := by
          have h2 : 0 < fval f := lt_of_le_of_ne hf0 (Ne.symm hz)
          rw [e] at h2
          have := pos_of_mul_pos_left h2 hp.le
          exact_mod_cast this
        have h3 : (1 : ℚ) ≤ (N - n * 2 ^ 127 : ℤ) := by exact_mod_cast h1
        rw [e]
        refine le_trans ?_ ((one_mul _).ge.trans (mul_le_mul_of_nonneg_right h3 hp.le))
        exact zpow_le_zpow_right₀ (by norm_num) (by omega)
    · refine hf1.le.trans ?_
      exact one_le_zpow₀ (by norm_num) (by omega)
  obtain ⟨y, y1, y2, y3, y4, y5⟩ := F192.mulR rf (r2.mono (show 64 ≤ K + 4 by omega)) (by omega)
  rw [pi2_val] at y3 y4 y5
  have hy0 : 0 ≤ fval y := y5 (by positivity)
  rw [abs_of_nonneg (show 0 ≤ fval f * (2 * fval PI) by positivity)] at y3 y4
  rw [abs_of_nonneg hy0] at y4
  have hdv : fval d * (2 * fval PI) = X * (1 + δ) := by
    rw [d5]
    have : 2 * fval PI ≠ 0 := by linarith
    field_simp
  have hfp : fval f * (2 * fval PI) ≤ X * (1 + δ) := by
    rw [← hdv]
    exact mul_le_mul_of_nonneg_right hfd (by linarith)
  have hX2 : X * (1 + δ) ≤ X * (1 + 1 / 2 ^ 124) := mul_le_mul_of_nonneg_left (by linarith) hX0
  refine ⟨y, n, ?_, ⟨y2.1, ?_⟩, hy0, y4.trans (mul_le_of_le_one_left (by linarith) hf1.le), y4.trans (hfp.trans hX2), ?_⟩
  · rw [d1, pure_bind, f1, pure_bind, y1]
  · rcases rf.2 with h | ⟨l, u⟩
    · left
      rw [h, zero_mul] at y4
      exact le_antisymm y4 hy0
    · right
      rw [abs_of_nonneg hf0] at l u
      rw [abs_of_nonneg hy0]
      have hy1 := (abs_le.1 y3).1
      have hw : fval f ≤ fval f * (2 * fval PI) * (1 - 1 / 2 ^ 124) := by
        rw [mul_assoc]
        refine le_mul_of_one_le_right hf0 ?_
        have := mul_le_mul_of_nonneg_left (show (1 : ℚ) / 2 ≤ 1 - 1 / 2 ^ 124 by norm_num) (show 0 ≤ 2 * fval PI by linarith)
        linarith
      have hp : (0 : ℚ) < 2 ^ (-K) := zpow_pos (by norm_num) _
      constructor
      · have e : (2 : ℚ) ^ (-(K + 5)) ≤ 2 ^ (-(K + 4)) := zpow_le_zpow_right₀ (by norm_num) (by omega)
        linarith
      · have e1 : (2 : ℚ) ^ (3 : ℤ) ≤ 2 ^ (K + 5) := zpow_le_zpow_right₀ (by norm_num) (by omega)
        have : fval f * (2 * fval PI) ≤ 2 * fval PI := mul_le_of_le_one_left (by linarith) hf1.le
        norm_num at e1
        linarith
  -- the remainder
  have hq : |fval y - (X - n * (2 * fval PI))| ≤ 3 * X / 2 ^ 124 + X / 2 ^ 200 := by
    have e : fval y - (X - n * (2 * fval PI)) = (fval y - fval f * (2 * fval PI)) + X * δ := by
      have : fval f * (2 * fval PI) = X * (1 + δ) - n * (2 * fval PI) := by rw [f3, sub_mul, hdv]
      rw [this]; ring
    rw [e]
    refine (abs_add_le _ _).trans ?_
    have e2 : 1 / 2 ^ 124 * (fval f * (2 * fval PI)) ≤ 1 / 2 ^ 124 * (X * (1 + 1 / 2 ^ 124)) := mul_le_mul_of_nonneg_left (hfp.trans hX2) (by norm_num)
    have e3 : |X * δ| ≤ X * (1 / 2 ^ 124) := by
      rw [abs_of_nonneg (by positivity)]
      exact mul_le_mul_of_nonneg_left d4 hX0
    refine (add_le_add (y3.trans e2) e3).trans ?_
    clear_value X
    norm_num
    linarith
  have hnx : (n : ℚ) ≤ X / 4 := by
    refine hnd.trans ?_
    rw [d5, div_mul_eq_mul_div, div_le_div_iff₀ (by linarith) (by norm_num)]
    have : (1 + δ) * 4 ≤ 2 * fval PI := by norm_num at d4; linarith
    rw [mul_assoc]
    exact mul_le_mul_of_nonneg_left this hX0
  have hqr := F192.cast_abs_sub_le hq
  have hnr := (Rat.cast_le (K := ℝ)).2 hnx
  have hpi := pi_err
  have hn0 : (0 : ℝ) ≤ n := by positivity
  have e1 : |(n : ℝ) * (2 * ((fval PI : ℚ) : ℝ)) - n * (2 * Real.pi)| ≤ n * (2 * (1 / 2 ^ 127)) := by
    rw [← mul_sub, ← mul_sub, abs_mul, abs_mul, abs_of_nonneg hn0, abs_two]
    gcongr
  have hXr : ((X : ℚ) : ℝ) = |((fval x : ℚ) : ℝ)| := by rw [hX, Rat.cast_abs]
  have hX0r : (0 : ℝ) ≤ ((X : ℚ) : ℝ) := by exact_mod_cast hX0
  push_cast at hqr hnr
  rw [← hXr]
  generalize ((X : ℚ) : ℝ) = V at *
  rw [abs_le] at hqr e1 ⊢
  generalize (n : ℝ) * (2 * ((fval PI : ℚ) : ℝ)) = W at *
  generalize (n : ℝ) * (2 * Real.pi) = U at *
  norm_num at hqr e1 ⊢
  constructor <;> linarith

/-- the sign -/
private noncomputable def sg (b : Bool) : ℝ := if b then -1 else 1

private theorem abs_sg (b : Bool) : |sg b| = 1 := by cases b <;> simp [sg]

/-- `cos_iter` returns a negative number for arguments whose cosine is next to this one -/
private noncomputable def gap : ℝ := 2 ^ 61 / 2432902008176640000

private theorem gap_eq : ((cosGap : ℚ) : ℝ) = gap := by rw [cosGap, gap]; push_cast; rfl

private theorem gap_pos : 0 < gap := by rw [gap]; norm_num

private theorem gap_abs (w : ℝ) : |(|w|) - gap| ≤ |w - gap| := by
  have := abs_abs_sub_abs_le w gap
  rwa [abs_of_pos gap_pos] at this

private theorem gap_move {a b c e : ℝ} (h : c + e ≤ |(|a|) - gap|) (h2 : |a - b| ≤ e) : c ≤ |(|b|) - gap| := by
  have h3 := abs_abs_sub_abs_le a b
  have h4 := abs_sub_le (|a|) (|b|) gap
  linarith

private theorem sg_err {b : Bool} {z v w e : ℝ} (h : |z - v| ≤ e) (hw : w = sg b * z) : |w - sg b * v| ≤ e := by
  rw [hw, ← mul_sub, abs_mul, abs_sg, one_mul]
  exact h

private theorem neg_if {K : ℤ} {r : F192} (hr : Rng K r) (hK : K ≤ 2 ^ 40) (b : Bool) : Rng K (if b then F192.neg r else r) ∧
    ((fval (if b then F192.neg r else r) : ℚ) : ℝ) = sg b * ((fval r : ℚ) : ℝ) := by
  cases b
  · exact ⟨hr, by simp [sg]⟩
  · obtain ⟨h1, h2⟩ := hr.neg hK
    refine ⟨h1, ?_⟩
    rw [if_pos rfl, h2]
    simp [sg]

private theorem gt_iff {x y : F192} (hx : FValid x) (hy : FValid y) : gt x y = true ↔ fval y < fval x := (C39_ops hx hy).2.1

private theorem castlt {a b : ℚ} (h : a ≤ b) : ((a : ℚ) : ℝ) ≤ ((b : ℚ) : ℝ) := Rat.cast_le.2 h

private theorem consts : Rng 1000000 PI ∧ Rng 1000000 PI_OVER_2 ∧ FValid PI_OVER_4 ∧ fval PI_OVER_2 = fval PI / 2 ∧ fval PI_OVER_4 = fval PI / 4 ∧
    Rng 1000000 PI2 := by
  have plo := pi_lo
  have phi := pi_hi
  obtain ⟨-, p2, p4⟩ := pi_val
  exact ⟨(rng_const (by decide) (by linarith) (by linarith)).mono (by norm_num), (rng_const (by decide) (by rw [p2]; linarith) (by rw [p2]; linarith)).mono (by norm_num), by decide, p2, p4,
    (rng_const (by decide) (by rw [pi2_val]; linarith) (by rw [pi2_val]; linarith)).mono (by norm_num)⟩

private theorem rng_mid' {y : F192} (hy : FValid y) (h1 : 1 / 2 ≤ fval y) (h2 : fval y ≤ 8) : Rng 1000000 y :=
  (rng_const hy (by linarith) (by linarith)).mono (by norm_num)

private theorem sinQuarter_c {K : ℤ} {y : F192} (ry : Rng K y) (hK : 1000 ≤ K) (hK' : K ≤ 2147483000) (h0 : 0 ≤ fval y) (h1 : fval y ≤ fval PI / 2) (b : Bool)
    (hg : 1 / 2 ^ 73 ≤ |(|Real.sin ((fval y : ℚ) : ℝ)|) - gap|) :
    ∃ z, F192.sinQuarter y b = pure z ∧ Rng (2 * K + 100) z ∧ |((fval z : ℚ) : ℝ) - sg b * Real.sin ((fval y : ℚ) : ℝ)| ≤ min 1 ((fval y : ℚ) : ℝ) / 2 ^ 71 := by
  obtain ⟨rp, rp2, v4, p2, p4, -⟩ := consts
  have plo := pi_lo
  have phi := pi_hi
  by_cases hgt : gt y PI_OVER_4 = true
  · have hy := (gt_iff ry.1 v4).1 hgt
    rw [p4] at hy
    obtain ⟨w, w1, w2, w3⟩ := sub_near rp2 (rng_mid' ry.1 (by linarith) (by linarith)) (k := 128) (by norm_num) (by rw [p2]; norm_num; linarith) (by norm_num; linarith)
      (by rw [p2, abs_lt]; norm_num; constructor <;> linarith)
    rw [p2] at w3
    have e1 : |Real.sin ((fval y : ℚ) : ℝ) - Real.cos ((fval w : ℚ) : ℝ)| ≤ 1 / 2 ^ 127 := by
      rw [← Real.cos_pi_div_two_sub]
      refine (Real.abs_cos_sub_cos_le _ _).trans ?_
      have := pi_err
      rw [w3]
      push_cast
      rw [abs_le] at this ⊢
      constructor <;> linarith
    obtain ⟨z, z1, z2, z3⟩ := cos_iter_c (w2.mono hK) (by omega) hK' (by rw [w3]; linarith) (by rw [w3]; linarith) (by
      intro _
      rw [gap_eq]
      refine le_trans ?_ (gap_abs _)
      refine gap_move (c := 1 / 2 ^ 74) (e := 1 / 2 ^ 127) (le_trans ?_ hg) e1
      norm_num)
    obtain ⟨n1, n2⟩ := neg_if z2 (by omega) b
    refine ⟨_, by rw [F192.sinQuarter, if_pos hgt, w1, pure_bind, z1, pure_bind], n1, ?_⟩
    have hy' : (1 / 2 : ℝ) + 1 / 2 ^ 50 ≤ min 1 ((fval y : ℚ) : ℝ) := by
      refine le_min (by norm_num) ?_
      have := castlt (show 3 / 4 ≤ fval y by linarith)
      push_cast at this
      refine le_trans ?_ this
      norm_num
    have e2 : |((fval z : ℚ) : ℝ) - Real.sin ((fval y : ℚ) : ℝ)| ≤ min 1 ((fval y : ℚ) : ℝ) / 2 ^ 71 := by
      have := (abs_sub_le _ _ _).trans (add_le_add z3 ((abs_sub_comm _ _).trans_le e1))
      refine this.trans (le_trans ?_ (div_le_div_of_nonneg_right hy' (by norm_num)))
      norm_num
    exact sg_err e2 n2
  · have hy : fval y ≤ fval PI / 4 := by
      rw [← p4]
      by_contra hc
      exact hgt ((gt_iff ry.1 v4).2 (not_le.1 hc))
    obtain ⟨z, z1, z2, z3⟩ := sin_iter_c ry (by omega) hK' h0 (by linarith)
    obtain ⟨n1, n2⟩ := neg_if z2 (by omega) b
    refine ⟨_, by rw [F192.sinQuarter, if_neg hgt, z1, pure_bind], n1, ?_⟩
    refine sg_err (z3.trans ?_) n2
    have hm : min 1 ((fval y : ℚ) : ℝ) = ((fval y : ℚ) : ℝ) := by
      refine min_eq_right ?_
      have := castlt (show fval y ≤ 1 by linarith)
      push_cast at this
      exact this
    have h0' := castlt h0
    push_cast at h0'
    rw [hm]
    exact div_le_div_of_nonneg_left h0' (by norm_num) (by norm_num)

private theorem sinHalf_c {K : ℤ} {y : F192} (ry : Rng K y) (hK : 1000 ≤ K) (hK' : K ≤ 2147483000) (h0 : 0 ≤ fval y) (h1 : fval y ≤ fval PI) (b : Bool)
    (hg : 1 / 2 ^ 73 + 1 / 2 ^ 127 ≤ |(|Real.sin ((fval y : ℚ) : ℝ)|) - gap|) :
    ∃ z, F192.sinHalf y b = pure z ∧ Rng (2 * K + 100) z ∧
      |((fval z : ℚ) : ℝ) - sg b * Real.sin ((fval y : ℚ) : ℝ)| ≤ min 1 ((fval y : ℚ) : ℝ) * (1 / 2 ^ 71 + 1 / 2 ^ 127) := by
  obtain ⟨rp, rp2, v4, p2, p4, -⟩ := consts
  have plo := pi_lo
  have phi := pi_hi
  by_cases hgt : gt y PI_OVER_2 = true
  · have hy := (gt_iff ry.1 rp2.1).1 hgt
    rw [p2] at hy
    obtain ⟨w, w1, w2, w3⟩ := sub_near rp (rng_mid' ry.1 (by linarith) (by linarith)) (k := 127) (by norm_num) (by norm_num; linarith) (by norm_num; linarith)
      (by rw [abs_lt]; norm_num; constructor <;> linarith)
    have e1 : |Real.sin ((fval y : ℚ) : ℝ) - Real.sin ((fval w : ℚ) : ℝ)| ≤ 1 / 2 ^ 127 := by
      rw [← Real.sin_pi_sub]
      refine (Real.abs_sin_sub_sin_le _ _).trans ?_
      have := pi_err
      rw [w3]
      push_cast
      rw [abs_le] at this ⊢
      constructor <;> linarith
    obtain ⟨z, z1, z2, z3⟩ := sinQuarter_c (w2.mono hK) hK hK' (by rw [w3]; linarith) (by rw [w3]; linarith) b (gap_move hg e1)
    refine ⟨z, by rw [F192.sinHalf, if_pos hgt, w1, pure_bind, z1], z2, ?_⟩
    have hm : min 1 ((fval y : ℚ) : ℝ) = 1 := by
      refine min_eq_left ?_
      have := castlt (show 1 ≤ fval y by linarith)
      push_cast at this
      exact this
    rw [hm, one_mul]
    have e2 : |sg b * Real.sin ((fval w : ℚ) : ℝ) - sg b * Real.sin ((fval y : ℚ) : ℝ)| ≤ 1 / 2 ^ 127 := sg_err ((abs_sub_comm _ _).trans_le e1) rfl
    refine (abs_sub_le _ _ _).trans (add_le_add (z3.trans ?_) e2)
    exact div_le_div_of_nonneg_right (min_le_left _ _) (by norm_num)
  · have hy : fval y ≤ fval PI / 2 := by
      rw [← p2]
      by_contra hc
      exact hgt ((gt_iff ry.1 rp2.1).2 (not_le.1 hc))
    obtain ⟨z, z1, z2, z3⟩ := sinQuarter_c ry hK hK' h0 hy b (le_trans (by norm_num) hg)
    refine ⟨z, by rw [F192.sinHalf, if_neg hgt, z1], z2, z3.trans ?_⟩
    have h0' := castlt h0
    push_cast at h0'
    rw [div_eq_mul_inv]
    exact mul_le_mul_of_nonneg_left (by norm_num) (le_min (by norm_num) h0')

private theorem sin_main {K : ℤ} {x : F192} (rx : Rng K x) (hK : 1000 ≤ K) (hK' : K ≤ 2147482000)
    (hg : 1 / 2 ^ 72 + |((fval x : ℚ) : ℝ)| / 2 ^ 122 ≤ |(|Real.sin ((fval x : ℚ) : ℝ)|) - gap|) :
    ∃ z, F192.sin x = pure z ∧ Rng (2 * K + 200) z ∧
      |((fval z : ℚ) : ℝ) - Real.sin ((fval x : ℚ) : ℝ)| ≤ min 1 |((fval x : ℚ) : ℝ)| / 2 ^ 70 + |((fval x : ℚ) : ℝ)| / 2 ^ 122 := by
  obtain ⟨rp, rp2, v4, p2, p4, -⟩ := consts
  have plo := pi_lo
  have phi := pi_hi
  obtain ⟨y, n, y1, y2, y3, y4, y5, y6⟩ := mod2pi_c rx hK hK'
  set X := ((fval x : ℚ) : ℝ) with hX
  have hy0 := castlt y3
  push_cast at hy0
  have hmin : min 1 ((fval y : ℚ) : ℝ) ≤ min 1 |X| * (1 + 1 / 2 ^ 124) := by
    have e1 := castlt y5
    push_cast at e1
    rw [min_mul_of_nonneg _ _ (by norm_num)]
    exact min_le_min (by norm_num) e1
  have hm0 : 0 ≤ min 1 |X| := le_min (by norm_num) (abs_nonneg _)
  -- the sign of the argument
  have hneg : sg (F192.is_neg x) * Real.sin (|X|) = Real.sin X := by
    have ht : x ≠ negTiny := by
      rintro rfl
      rcases rx.exp with h | h
      · exact absurd ((F192.fval_eq_zero rx.1).1 h) (by decide)
      · have : negTiny.exp = 0 := rfl
        omega
    have h := (C59_sign_partial rx.1 ht).2.2.2.2
    by_cases hn : F192.is_neg x = true
    · have := (Rat.cast_lt (K := ℝ)).2 (h.1 hn)
      rw [Rat.cast_zero] at this
      rw [hn, abs_of_neg this, Real.sin_neg, sg, if_pos rfl]
      ring
    · have : 0 ≤ fval x := by
        by_contra hc
        exact hn (h.2 (not_le.1 hc))
      have := castlt this
      rw [Rat.cast_zero] at this
      rw [Bool.not_eq_true] at hn
      rw [hn, abs_of_nonneg this, sg, if_neg (by simp), one_mul]
  have hper : Real.sin (|X| - n * (2 * Real.pi)) = Real.sin (|X|) := Real.sin_sub_nat_mul_two_pi _ _
  have habs : |Real.sin X| = |Real.sin (|X|)| := by rw [← hneg, abs_mul, abs_sg, one_mul]
  have ey : |Real.sin (|X|) - Real.sin ((fval y : ℚ) : ℝ)| ≤ |X| / 2 ^ 122 := by
    rw [← hper, abs_sub_comm]
    exact (Real.abs_sin_sub_sin_le _ _).trans y6
  rw [habs] at hg
  have hgy : 1 / 2 ^ 72 ≤ |(|Real.sin ((fval y : ℚ) : ℝ)|) - gap| := gap_move hg ey
  by_cases hgt : gt y PI = true
  · have hy := (gt_iff y2.1 rp.1).1 hgt
    obtain ⟨w, w1, w2, w3⟩ := sub_near (rng_mid' y2.1 (by linarith) (by linarith)) rp (k := 126) (by norm_num) (by norm_num; linarith) (by norm_num; linarith)
      (by rw [abs_lt]; norm_num; constructor <;> linarith)
    have e1 : |Real.sin ((fval y : ℚ) : ℝ) - -Real.sin ((fval w : ℚ) : ℝ)| ≤ 1 / 2 ^ 127 := by
      rw [← neg_neg (Real.sin ((fval y : ℚ) : ℝ)), ← Real.sin_sub_pi, ← neg_sub', abs_neg]
      refine (Real.abs_sin_sub_sin_le _ _).trans ?_
      have := pi_err
      rw [w3]
      push_cast
      rw [abs_le] at this ⊢
      constructor <;> linarith
    have hgw : 1 / 2 ^ 73 + 1 / 2 ^ 127 ≤ |(|Real.sin ((fval w : ℚ) : ℝ)|) - gap| := by
      rw [← abs_neg (Real.sin ((fval w : ℚ) : ℝ))]
      exact gap_move (le_trans (by norm_num) hgy) e1
    obtain ⟨z, z1, z2, z3⟩ := sinHalf_c (w2.mono hK) hK (by omega) (by rw [w3]; linarith) (by rw [w3]; linarith) (!F192.is_neg x) hgw
    refine ⟨z, by rw [F192.sin, y1, pure_bind, if_pos hgt, w1, pure_bind, z1], z2.mono (by omega), ?_⟩
    have hs : sg (!F192.is_neg x) = -sg (F192.is_neg x) := by cases F192.is_neg x <;> simp [sg]
    rw [hs, neg_mul, ← mul_neg] at z3
    have e2 : |sg (F192.is_neg x) * -Real.sin ((fval w : ℚ) : ℝ) - sg (F192.is_neg x) * Real.sin ((fval y : ℚ) : ℝ)| ≤ 1 / 2 ^ 127 :=
      sg_err ((abs_sub_comm _ _).trans_le e1) rfl
    have e3 : |sg (F192.is_neg x) * Real.sin ((fval y : ℚ) : ℝ) - sg (F192.is_neg x) * Real.sin (|X|)| ≤ |X| / 2 ^ 122 := sg_err ((abs_sub_comm _ _).trans_le ey) rfl
    rw [hneg] at e3
    have hy1 : (1 : ℝ) ≤ min 1 |X| * (1 + 1 / 2 ^ 124) := by
      refine le_trans (le_min le_rfl ?_) hmin
      have := castlt (show 1 ≤ fval y by linarith)
      push_cast at this
      exact this
    have e4 := z3.trans (mul_le_mul_of_nonneg_right (min_le_left _ _) (by norm_num))
    have e5 := (abs_sub_le _ _ _).trans (add_le_add e4 e2)
    refine (abs_sub_le _ _ _).trans ((add_le_add e5 e3).trans ?_)
    refine add_le_add_left ?_ _
    norm_num at hy1 ⊢
    linarith
  · have hy : fval y ≤ fval PI := by
      by_contra hc
      exact hgt ((gt_iff y2.1 rp.1).2 (not_le.1 hc))
    obtain ⟨z, z1, z2, z3⟩ := sinHalf_c y2 (by omega) (by omega) y3 hy (F192.is_neg x) (le_trans (by norm_num) hgy)
    refine ⟨z, by rw [F192.sin, y1, pure_bind, if_neg hgt, z1], z2.mono (by omega), ?_⟩
    have e3 : |sg (F192.is_neg x) * Real.sin ((fval y : ℚ) : ℝ) - sg (F192.is_neg x) * Real.sin (|X|)| ≤ |X| / 2 ^ 122 := sg_err ((abs_sub_comm _ _).trans_le ey) rfl
    rw [hneg] at e3
    refine (abs_sub_le _ _ _).trans (add_le_add (z3.trans ?_) e3)
    refine (mul_le_mul_of_nonneg_right hmin (by norm_num)).trans ?_
    rw [mul_assoc, div_eq_mul_inv]
    exact mul_le_mul_of_nonneg_left (by norm_num) hm0

private theorem cosQuarter_c {K : ℤ} {y : F192} (ry : Rng K y) (hK : 1000 ≤ K) (hK' : K ≤ 2147483000) (h0 : 0 ≤ fval y) (h1 : fval y ≤ fval PI / 2) (b : Bool)
    (hg : 1 / 2 ^ 73 ≤ |(|Real.cos ((fval y : ℚ) : ℝ)|) - gap|) :
    ∃ z, F192.cosQuarter y b = pure z ∧ Rng (2 * K + 100) z ∧ |((fval z : ℚ) : ℝ) - sg b * Real.cos ((fval y : ℚ) : ℝ)| ≤ 1 / 2 ^ 71 := by
  obtain ⟨rp, rp2, v4, p2, p4, -⟩ := consts
  have plo := pi_lo
  have phi := pi_hi
  by_cases hgt : gt y PI_OVER_4 = true
  · have hy := (gt_iff ry.1 v4).1 hgt
    rw [p4] at hy
    obtain ⟨w, w1, w2, w3⟩ := sub_near rp2 (rng_mid' ry.1 (by linarith) (by linarith)) (k := 128) (by norm_num) (by rw [p2]; norm_num; linarith) (by norm_num; linarith)
      (by rw [p2, abs_lt]; norm_num; constructor <;> linarith)
    rw [p2] at w3
    have e1 : |Real.cos ((fval y : ℚ) : ℝ) - Real.sin ((fval w : ℚ) : ℝ)| ≤ 1 / 2 ^ 127 := by
      rw [← Real.sin_pi_div_two_sub]
      refine (Real.abs_sin_sub_sin_le _ _).trans ?_
      have := pi_err
      rw [w3]
      push_cast
      rw [abs_le] at this ⊢
      constructor <;> linarith
    obtain ⟨z, z1, z2, z3⟩ := sin_iter_c (w2.mono hK) (by omega) hK' (by rw [w3]; linarith) (by rw [w3]; linarith)
    obtain ⟨n1, n2⟩ := neg_if z2 (by omega) b
    refine ⟨_, by rw [F192.cosQuarter, if_pos hgt, w1, pure_bind, z1, pure_bind], n1, ?_⟩
    have hw := castlt (show fval w ≤ 1 by rw [w3]; linarith)
    push_cast at hw
    have e2 : |((fval z : ℚ) : ℝ) - Real.cos ((fval y : ℚ) : ℝ)| ≤ 1 / 2 ^ 71 := by
      have := (abs_sub_le _ _ _).trans (add_le_add (z3.trans (div_le_div_of_nonneg_right hw (by norm_num))) ((abs_sub_comm _ _).trans_le e1))
      refine this.trans ?_
      norm_num
    exact sg_err e2 n2
  · have hy : fval y ≤ fval PI / 4 := by
      rw [← p4]
      by_contra hc
      exact hgt ((gt_iff ry.1 v4).2 (not_le.1 hc))
    obtain ⟨z, z1, z2, z3⟩ := cos_iter_c ry (by omega) hK' h0 (by linarith) (by
      intro _
      rw [gap_eq]
      refine le_trans (le_trans ?_ hg) (gap_abs _)
      norm_num)
    obtain ⟨n1, n2⟩ := neg_if z2 (by omega) b
    refine ⟨_, by rw [F192.cosQuarter, if_neg hgt, z1, pure_bind], n1, ?_⟩
    refine sg_err (z3.trans ?_) n2
    norm_num

private theorem cosHalf_c {K : ℤ} {y : F192} (ry : Rng K y) (hK : 1000 ≤ K) (hK' : K ≤ 2147483000) (h0 : 0 ≤ fval y) (h1 : fval y ≤ fval PI)
    (hg : 1 / 2 ^ 73 + 1 / 2 ^ 127 ≤ |(|Real.cos ((fval y : ℚ) : ℝ)|) - gap|) :
    ∃ z, F192.cosHalf y = pure z ∧ Rng (2 * K + 100) z ∧ |((fval z : ℚ) : ℝ) - Real.cos ((fval y : ℚ) : ℝ)| ≤ 1 / 2 ^ 71 + 1 / 2 ^ 127 := by
  obtain ⟨rp, rp2, v4, p2, p4, -⟩ := consts
  have plo := pi_lo
  have phi := pi_hi
  by_cases hgt : gt y PI_OVER_2 = true
  · have hy := (gt_iff ry.1 rp2.1).1 hgt
    rw [p2] at hy
    obtain ⟨w, w1, w2, w3⟩ := sub_near rp (rng_mid' ry.1 (by linarith) (by linarith)) (k := 127) (by norm_num) (by norm_num; linarith) (by norm_num; linarith)
      (by rw [abs_lt]; norm_num; constructor <;> linarith)
    have e1 : |Real.cos ((fval y : ℚ) : ℝ) - -Real.cos ((fval w : ℚ) : ℝ)| ≤ 1 / 2 ^ 127 := by
      rw [← neg_neg (Real.cos ((fval y : ℚ) : ℝ)), ← Real.cos_pi_sub, ← neg_sub', abs_neg]
      refine (Real.abs_cos_sub_cos_le _ _).trans ?_
      have := pi_err
      rw [w3]
      push_cast
      rw [abs_le] at this ⊢
      constructor <;> linarith
    have hgw : 1 / 2 ^ 73 ≤ |(|Real.cos ((fval w : ℚ) : ℝ)|) - gap| := by
      rw [← abs_neg (Real.cos ((fval w : ℚ) : ℝ))]
      exact gap_move hg e1
    obtain ⟨z, z1, z2, z3⟩ := cosQuarter_c (w2.mono hK) hK hK' (by rw [w3]; linarith) (by rw [w3]; linarith) true hgw
    refine ⟨z, by rw [F192.cosHalf, if_pos hgt, w1, pure_bind, z1], z2, ?_⟩
    rw [sg, if_pos rfl, neg_one_mul] at z3
    exact (abs_sub_le _ _ _).trans (add_le_add z3 ((abs_sub_comm _ _).trans_le e1))
  · have hy : fval y ≤ fval PI / 2 := by
      rw [← p2]
      by_contra hc
      exact hgt ((gt_iff ry.1 rp2.1).2 (not_le.1 hc))
    obtain ⟨z, z1, z2, z3⟩ := cosQuarter_c ry hK hK' h0 hy false (le_trans (by norm_num) hg)
    rw [sg, if_neg (by simp), one_mul] at z3
    exact ⟨z, by rw [F192.cosHalf, if_neg hgt, z1], z2, z3.trans (by norm_num)⟩

private theorem cos_main {K : ℤ} {x : F192} (rx : Rng K x) (hK : 1000 ≤ K) (hK' : K ≤ 2147482000)
    (hg : 1 / 2 ^ 72 + |((fval x : ℚ) : ℝ)| / 2 ^ 122 ≤ |(|Real.cos ((fval x : ℚ) : ℝ)|) - gap|) :
    ∃ z, F192.cos x = pure z ∧ Rng (2 * K + 200) z ∧
      |((fval z : ℚ) : ℝ) - Real.cos ((fval x : ℚ) : ℝ)| ≤ 1 / 2 ^ 70 + |((fval x : ℚ) : ℝ)| / 2 ^ 122 := by
  obtain ⟨rp, rp2, v4, p2, p4, r2⟩ := consts
  have plo := pi_lo
  have phi := pi_hi
  obtain ⟨y, n, y1, y2, y3, y4, y5, y6⟩ := mod2pi_c rx hK hK'
  set X := ((fval x : ℚ) : ℝ) with hX
  have hper : Real.cos (|X| - n * (2 * Real.pi)) = Real.cos X := (Real.cos_sub_nat_mul_two_pi _ _).trans (Real.cos_abs X)
  have ey : |Real.cos X - Real.cos ((fval y : ℚ) : ℝ)| ≤ |X| / 2 ^ 122 := by
    rw [← hper, abs_sub_comm]
    exact (Real.abs_cos_sub_cos_le _ _).trans y6
  have hgy : 1 / 2 ^ 72 ≤ |(|Real.cos ((fval y : ℚ) : ℝ)|) - gap| := gap_move hg ey
  by_cases hgt : gt y PI = true
  · have hy := (gt_iff y2.1 rp.1).1 hgt
    obtain ⟨w, w1, w2, w3⟩ := sub_near r2 (rng_mid' y2.1 (by linarith) (by linarith)) (k := 126) (by norm_num) (by rw [pi2_val]; norm_num; linarith) (by norm_num; linarith)
      (by rw [pi2_val, abs_lt]; norm_num; constructor <;> linarith)
    rw [pi2_val] at w3
    have e1 : |Real.cos ((fval y : ℚ) : ℝ) - Real.cos ((fval w : ℚ) : ℝ)| ≤ 1 / 2 ^ 126 := by
      rw [← Real.cos_two_pi_sub]
      refine (Real.abs_cos_sub_cos_le _ _).trans ?_
      have := pi_err
      rw [w3]
      push_cast
      rw [abs_le] at this ⊢
      norm_num only at this ⊢
      constructor <;> linarith
    obtain ⟨z, z1, z2, z3⟩ := cosHalf_c (w2.mono hK) hK (by omega) (by rw [w3]; linarith) (by rw [w3]; linarith) (gap_move (le_trans (by norm_num) hgy) e1)
    have hshl : F192.shl PI 1 = pure PI2 := rfl
    refine ⟨z, by rw [F192.cos, y1, pure_bind, if_pos hgt, hshl, pure_bind, w1, pure_bind, z1], z2.mono (by omega), ?_⟩
    refine (abs_sub_le _ _ _).trans (add_le_add ?_ ((abs_sub_comm _ _).trans_le ey))
    refine (abs_sub_le _ _ _).trans ((add_le_add z3 ((abs_sub_comm _ _).trans_le e1)).trans ?_)
    norm_num
  · have hy : fval y ≤ fval PI := by
      by_contra hc
      exact hgt ((gt_iff y2.1 rp.1).2 (not_le.1 hc))
    obtain ⟨z, z1, z2, z3⟩ := cosHalf_c y2 (by omega) (by omega) y3 hy (le_trans (by norm_num) hgy)
    refine ⟨z, by rw [F192.cos, y1, pure_bind, if_neg hgt, z1], z2.mono (by omega), ?_⟩
    refine (abs_sub_le _ _ _).trans (add_le_add (z3.trans ?_) ((abs_sub_comm _ _).trans_le ey))
    norm_num

private theorem trig_rng {x : F192} (hx : FValid x) (h : TrigRange x) : Rng 2147479680 x :=
  (F192.rng_of_exp (K := 2147479552) hx h (by norm_num)).mono (by norm_num)

private theorem gap_fact : (2 : ℝ) ^ 61 / (Nat.factorial 20 : ℝ) = gap := by
  rw [gap]
  norm_num [Nat.factorial]

/-- one -/
private theorem one_val : fval F192.ONE = 1 := by
  have := F192.fval_mk (s := false) (m := 170141183460469231731687303715884105728) (e := 281474976710656 - 127) ⟨by norm_num, by norm_num⟩ (F192.nz_exp (by omega))
  rw [F192.mg_coeff_sub (by omega), F192.sgn_false, one_mul] at this
  exact this.trans (by norm_num)

private theorem cos_one_lo : 1 / 2 ≤ Real.cos 1 := by
  have := Real.one_sub_sq_div_two_le_cos (x := 1)
  linarith

private theorem sin_one_pos : 0 < Real.sin 1 := Real.sin_pos_of_pos_of_lt_pi one_pos (by linarith [Real.pi_gt_three])

private theorem sin_one_hi : Real.sin 1 ≤ 9 / 10 := by
  have h1 := cos_one_lo
  have h2 := Real.sin_sq_add_cos_sq 1
  nlinarith [sin_one_pos]

private theorem gap_val : (94 / 100 : ℝ) ≤ 2 ^ 61 / (Nat.factorial 20 : ℝ) := by norm_num [Nat.factorial]

/-- one meets the conditions of the three theorems -/
private theorem one_ex : FValid F192.ONE ∧ TrigRange F192.ONE ∧
    1 / 2 ^ 72 + |((fval F192.ONE : ℚ) : ℝ)| / 2 ^ 122 ≤ |(|Real.sin ((fval F192.ONE : ℚ) : ℝ)|) - 2 ^ 61 / (Nat.factorial 20 : ℝ)| ∧
    1 / 2 ^ 72 + |((fval F192.ONE : ℚ) : ℝ)| / 2 ^ 122 ≤ |(|Real.cos ((fval F192.ONE : ℚ) : ℝ)|) - 2 ^ 61 / (Nat.factorial 20 : ℝ)| ∧
    1 / 2 ^ 68 + |((fval F192.ONE : ℚ) : ℝ)| / 2 ^ 120 ≤ |Real.cos ((fval F192.ONE : ℚ) : ℝ)| := by
  have hg := gap_val
  have h1 := cos_one_lo
  have h2 := Real.cos_one_le
  have h3 := sin_one_hi
  refine ⟨by decide, Or.inr (by decide), ?_⟩
  rw [one_val, Rat.cast_one, abs_one, abs_of_pos sin_one_pos, abs_of_pos Real.cos_one_pos]
  generalize (2 : ℝ) ^ 61 / (Nat.factorial 20 : ℝ) = G at *
  have hp : (1 : ℝ) / 2 ^ 72 + 1 / 2 ^ 122 ≤ 1 / 100 := by norm_num
  refine ⟨?_, ?_, ?_⟩
  · rw [abs_sub_comm]; exact le_trans (by linarith) (le_abs_self _)
  · rw [abs_sub_comm]; exact le_trans (by linarith) (le_abs_self _)
  · refine le_trans ?_ h1; norm_num

/-- The sine, relatively accurate to 70 bits for small arguments, unless its magnitude is next to `2^61/20!` (about 0.948). -/
theorem C70_sin_partial {x : F192} (hx : FValid x) (hr : TrigRange x)
    (hg : 1 / 2 ^ 72 + |((fval x : ℚ) : ℝ)| / 2 ^ 122 ≤ |(|Real.sin ((fval x : ℚ) : ℝ)|) - 2 ^ 61 / (Nat.factorial 20 : ℝ)|) :
    ∃ z, F192.sin x = pure z ∧ FValid z ∧
      |((fval z : ℚ) : ℝ) - Real.sin ((fval x : ℚ) : ℝ)| ≤ min 1 |((fval x : ℚ) : ℝ)| / 2 ^ 70 + |((fval x : ℚ) : ℝ)| / 2 ^ 122 := by
  rw [gap_fact] at hg
  obtain ⟨z, z1, z2, z3⟩ := sin_main (trig_rng hx hr) (by norm_num) (by norm_num) hg
  exact ⟨z, z1, z2.1, z3⟩

example : FValid F192.ONE ∧ TrigRange F192.ONE ∧
    1 / 2 ^ 72 + |((fval F192.ONE : ℚ) : ℝ)| / 2 ^ 122 ≤ |(|Real.sin ((fval F192.ONE : ℚ) : ℝ)|) - 2 ^ 61 / (Nat.factorial 20 : ℝ)| :=
  ⟨one_ex.1, one_ex.2.1, one_ex.2.2.1⟩

/-- The cosine, under the same condition. -/
theorem C70_cos_partial {x : F192} (hx : FValid x) (hr : TrigRange x)
    (hg : 1 / 2 ^ 72 + |((fval x : ℚ) : ℝ)| / 2 ^ 122 ≤ |(|Real.cos ((fval x : ℚ) : ℝ)|) - 2 ^ 61 / (Nat.factorial 20 : ℝ)|) :
    ∃ z, F192.cos x = pure z ∧ FValid z ∧
      |((fval z : ℚ) : ℝ) - Real.cos ((fval x : ℚ) : ℝ)| ≤ 1 / 2 ^ 70 + |((fval x : ℚ) : ℝ)| / 2 ^ 122 := by
  rw [gap_fact] at hg
  obtain ⟨z, z1, z2, z3⟩ := cos_main (trig_rng hx hr) (by norm_num) (by norm_num) hg
  exact ⟨z, z1, z2.1, z3⟩

example : FValid F192.ONE ∧ TrigRange F192.ONE ∧
    1 / 2 ^ 72 + |((fval F192.ONE : ℚ) : ℝ)| / 2 ^ 122 ≤ |(|Real.cos ((fval F192.ONE : ℚ) : ℝ)|) - 2 ^ 61 / (Nat.factorial 20 : ℝ)| :=
  ⟨one_ex.1, one_ex.2.1, one_ex.2.2.2.1⟩

/-- The tangent, under both conditions and away from its poles. -/
theorem C70_tan_partial {x : F192} (hx : FValid x) (hr : TrigRange x)
    (hg : 1 / 2 ^ 72 + |((fval x : ℚ) : ℝ)| / 2 ^ 122 ≤ |(|Real.sin ((fval x : ℚ) : ℝ)|) - 2 ^ 61 / (Nat.factorial 20 : ℝ)|)
    (hg' : 1 / 2 ^ 72 + |((fval x : ℚ) : ℝ)| / 2 ^ 122 ≤ |(|Real.cos ((fval x : ℚ) : ℝ)|) - 2 ^ 61 / (Nat.factorial 20 : ℝ)|)
    (hc : 1 / 2 ^ 68 + |((fval x : ℚ) : ℝ)| / 2 ^ 120 ≤ |Real.cos ((fval x : ℚ) : ℝ)|) :
    ∃ z, F192.tan x = pure z ∧ FValid z ∧
      |((fval z : ℚ) : ℝ) - Real.tan ((fval x : ℚ) : ℝ)| ≤ (1 / 2 ^ 67 + |((fval x : ℚ) : ℝ)| / 2 ^ 119) / Real.cos ((fval x : ℚ) : ℝ) ^ 2 := by
  rw [gap_fact] at hg hg'
  obtain ⟨s, s1, s2, s3⟩ := sin_main (trig_rng hx hr) (by norm_num) (by norm_num) hg
  obtain ⟨c, c1, c2, c3⟩ := cos_main (trig_rng hx hr) (by norm_num) (by norm_num) hg'
  have hX := abs_nonneg ((fval x : ℚ) : ℝ)
  set X := ((fval x : ℚ) : ℝ)
  have s3' : |((fval s : ℚ) : ℝ) - Real.sin X| ≤ 1 / 2 ^ 70 + |X| / 2 ^ 122 := by
    refine s3.trans (add_le_add_left (div_le_div_of_nonneg_right (min_le_left _ _) (by norm_num)) _)
  set η := 1 / 2 ^ 70 + |X| / 2 ^ 122 with hη
  have hη0 : 0 ≤ η := by positivity
  have hc4 : 4 * η ≤ |Real.cos X| := by
    refine le_trans (le_of_eq ?_) hc
    rw [hη]; ring
  have hC : 3 / 4 * |Real.cos X| ≤ |((fval c : ℚ) : ℝ)| := by
    have := abs_sub_abs_le_abs_sub (Real.cos X) ((fval c : ℚ) : ℝ)
    rw [abs_sub_comm] at this
    linarith
  have hcpos : 0 < |Real.cos X| := lt_of_lt_of_le (by positivity) hc
  have hc0 : fval c ≠ 0 := by
    intro h
    rw [h, Rat.cast_zero, _root_.abs_zero] at hC
    linarith
  have hcr : ((fval c : ℚ) : ℝ) ≠ 0 := by exact_mod_cast hc0
  have hcos0 : Real.cos X ≠ 0 := abs_pos.1 hcpos
  -- the quotient
  obtain ⟨z, δ, d1, d2, d3, d4, d5⟩ : ∃ (z : F192) (δ : ℚ), F192.div s c = pure z ∧ FValid z ∧ 0 ≤ δ ∧ δ ≤ 1 / 2 ^ 124 ∧ fval z = fval s / fval c * (1 + δ) := by
    have ec := c2.exp.resolve_left hc0
    rcases s2.exp with h | h
    · refine ⟨ZERO, 0, ?_, by decide, le_refl _, by norm_num, ?_⟩
      · rw [(F192.fval_eq_zero s2.1).1 h]; exact (C62_div_zero _).1
      · rw [h, zero_div, zero_mul]; rfl
    · obtain ⟨w1, w2, w4, w3⟩ := divRange_small (x := s) (y := c) ⟨by omega, by omega⟩ ⟨by omega, by omega⟩
      exact C62_div_partial s2.1 c2.1 w1 w2 w4 w3
  refine ⟨z, by rw [F192.tan, s1, pure_bind, c1, pure_bind, d1], d2, ?_⟩
  have hsc := Real.sin_sq_add_cos_sq X
  have hs1 : |Real.sin X| ≤ 1 := Real.abs_sin_le_one X
  have hc1 : |Real.cos X| ≤ 1 := Real.abs_cos_le_one X
  set S := ((fval s : ℚ) : ℝ)
  set C := ((fval c : ℚ) : ℝ)
  have hD0 : (0 : ℝ) ≤ ((δ : ℚ) : ℝ) := by exact_mod_cast d3
  have hD1 : ((δ : ℚ) : ℝ) ≤ 1 / 2 ^ 124 := by
    have := castlt d4
    push_cast at this
    exact this
  have hz : ((fval z : ℚ) : ℝ) = S / C * (1 + ((δ : ℚ) : ℝ)) := by rw [d5]; push_cast; rfl
  have q1 : |S / C - Real.tan X| ≤ 8 / 3 * η / Real.cos X ^ 2 := by
    have e : S / C - Real.tan X = ((S - Real.sin X) * Real.cos X + Real.sin X * (Real.cos X - C)) / (C * Real.cos X) := by
      rw [Real.tan_eq_sin_div_cos]
      field_simp
      ring
    have n1 : |(S - Real.sin X) * Real.cos X + Real.sin X * (Real.cos X - C)| ≤ 2 * η := by
      refine (abs_add_le _ _).trans ?_
      rw [abs_mul, abs_mul]
      have a1 := mul_le_mul s3' hc1 (abs_nonneg _) hη0
      have a2 := mul_le_mul hs1 ((abs_sub_comm _ _).trans_le c3) (abs_nonneg _) (by norm_num)
      linarith
    rw [e, abs_div, ← sq_abs (Real.cos X), abs_mul C]
    rw [div_le_div_iff₀ (mul_pos (abs_pos.2 hcr) hcpos) (by positivity)]
    have a3 := mul_le_mul_of_nonneg_right hC hcpos.le
    have a4 := mul_le_mul n1 a3 (by positivity) (by positivity)
    have a5 : 0 ≤ |Real.cos X| ^ 2 := by positivity
    have a6 := mul_le_mul_of_nonneg_right n1 a5
    have a7 := mul_le_mul_of_nonneg_left a3 hη0
    nlinarith
  have q2 : |Real.tan X| ≤ 1 / Real.cos X ^ 2 := by
    rw [Real.tan_eq_sin_div_cos, abs_div, ← sq_abs (Real.cos X), div_le_div_iff₀ hcpos (by positivity)]
    nlinarith
  have q3 : |S / C| ≤ (1 + 8 / 3 * η) / Real.cos X ^ 2 := by
    have := abs_sub_abs_le_abs_sub (S / C) (Real.tan X)
    rw [add_div]
    linarith
  have hc2 : 0 < Real.cos X ^ 2 := by positivity
  have q4 : |((fval z : ℚ) : ℝ) - S / C| ≤ 1 / 2 ^ 124 * ((1 + 8 / 3 * η) / Real.cos X ^ 2) := by
    rw [hz, mul_add, mul_one, add_sub_cancel_left, abs_mul, abs_of_nonneg hD0, mul_comm]
    exact mul_le_mul hD1 q3 (abs_nonneg _) (by norm_num)
  refine (abs_sub_le _ _ _).trans ((add_le_add q4 q1).trans ?_)
  rw [← mul_div_assoc, ← add_div]
  refine div_le_div_of_nonneg_right ?_ hc2.le
  rw [hη]
  clear_value X
  generalize |X| = V at *
  norm_num
  linarith

example : FValid F192.ONE ∧ TrigRange F192.ONE ∧
    1 / 2 ^ 72 + |((fval F192.ONE : ℚ) : ℝ)| / 2 ^ 122 ≤ |(|Real.sin ((fval F192.ONE : ℚ) : ℝ)|) - 2 ^ 61 / (Nat.factorial 20 : ℝ)| ∧
    1 / 2 ^ 72 + |((fval F192.ONE : ℚ) : ℝ)| / 2 ^ 122 ≤ |(|Real.cos ((fval F192.ONE : ℚ) : ℝ)|) - 2 ^ 61 / (Nat.factorial 20 : ℝ)| ∧
    1 / 2 ^ 68 + |((fval F192.ONE : ℚ) : ℝ)| / 2 ^ 120 ≤ |Real.cos ((fval F192.ONE : ℚ) : ℝ)| := one_ex

private instance : DecidableEq (M F192) := inferInstanceAs (DecidableEq (Option (Except Panic F192)))

private theorem cos_wit : F192.cosE ⟨50777935630667203214059471976233708198, 281474976710527⟩ =
    pure ⟨322511023578540590474353485756820708861, 281474976710527⟩ := by decide +kernel

private theorem cos_small_wit : F192.cosE ⟨0, 281472829226881⟩ = pure ⟨13714164033182210696299811089501514576, 281474976710528⟩ := by decide +kernel

private theorem sin_small_wit : F192.sinE ⟨0, 281472829226881⟩ = pure ⟨116196554945254842826510586540909568731, 281472829226880⟩ := by decide +kernel

/-- Where the sum of the cosine series is next to `2^61`, rounding it gives the negative of its half: the cosine of this number near 0.325
is not 0.948 but -0.474. -/
theorem C70_cos_counterexample : ∃ x z, FValid x ∧ TrigRange x ∧ F192.cos x = pure z ∧ fval z ≤ -47 / 100 ∧
    0 ≤ fval x ∧ fval x ≤ 325 / 1000 ∧ 94 / 100 ≤ Real.cos ((fval x : ℚ) : ℝ) := by
  have hx : fval ⟨50777935630667203214059471976233708198, 281474976710527⟩ = 220919119091136434945746775692117813926 / 2 ^ 129 := by
    have := F192.fval_mk (s := false) (m := 220919119091136434945746775692117813926) (e := 281474976710656 - 129) ⟨by norm_num, by norm_num⟩ (F192.nz_exp (by omega))
    rw [F192.mg_coeff_sub (by omega), F192.sgn_false, one_mul] at this
    exact this.trans (by norm_num)
  have hz : fval ⟨322511023578540590474353485756820708861, 281474976710527⟩ = -322511023578540590474353485756820708861 / 2 ^ 129 := by
    have := F192.fval_mk (s := true) (m := 322511023578540590474353485756820708861) (e := 281474976710656 - 129) ⟨by norm_num, by norm_num⟩ (F192.nz_exp (by omega))
    rw [F192.mg_coeff_sub (by omega), F192.sgn_true] at this
    exact this.trans (by norm_num)
  have h1 : fval ⟨50777935630667203214059471976233708198, 281474976710527⟩ ≤ 325 / 1000 := by rw [hx]; norm_num
  have h2 : 0 ≤ fval ⟨50777935630667203214059471976233708198, 281474976710527⟩ := by rw [hx]; norm_num
  refine ⟨_, _, by decide, Or.inr (by decide), (F192.cosE_c _).ret cos_wit, by rw [hz]; norm_num, h2, h1, ?_⟩
  have h3 := (Rat.cast_le (K := ℝ)).2 h1
  have h4 := (Rat.cast_nonneg (K := ℝ)).2 h2
  push_cast at h3
  generalize ((fval ⟨50777935630667203214059471976233708198, 281474976710527⟩ : ℚ) : ℝ) = X at *
  have := Real.one_sub_sq_div_two_le_cos (x := X)
  nlinarith

/-- `2^(-2^31)`, whose square is taken for one: its cosine comes out as 0.54 and its sine as 0.84 of the number. -/
theorem C70_small_counterexample : ∃ x z w, FValid x ∧ fval x = 2 ^ (-2 ^ 31 : ℤ) ∧ F192.cos x = pure z ∧ F192.sin x = pure w ∧
    fval z ≤ 55 / 100 ∧ 99 / 100 ≤ Real.cos ((fval x : ℚ) : ℝ) ∧
    0 < fval x ∧ fval w ≤ 85 / 100 * fval x ∧ 99 / 100 * ((fval x : ℚ) : ℝ) ≤ Real.sin ((fval x : ℚ) : ℝ) := by
  have hx := F192.fval_mk (s := false) (m := 170141183460469231731687303715884105728) (e := 281472829226881) ⟨by norm_num, by norm_num⟩ (F192.nz_exp (by norm_num))
  have hw := F192.fval_mk (s := false) (m := 286337738405724074558197890256793674459) (e := 281472829226880) ⟨by norm_num, by norm_num⟩ (F192.nz_exp (by norm_num))
  have hz : fval ⟨13714164033182210696299811089501514576, 281474976710528⟩ = 183855347493651442427987114805385620304 / 2 ^ 128 := by
    have := F192.fval_mk (s := false) (m := 183855347493651442427987114805385620304) (e := 281474976710656 - 128) ⟨by norm_num, by norm_num⟩ (F192.nz_exp (by omega))
    rw [F192.mg_coeff_sub (by omega), F192.sgn_false, one_mul] at this
    exact this.trans (by norm_num)
  have hu := F192.ulp_pos 281472829226880
  rw [F192.sgn_false, one_mul, F192.mg_eq] at hx hw
  have hsu : F192.ulp 281472829226881 = F192.ulp 281472829226880 * 2 := F192.ulp_succ _
  have hle : F192.ulp 281472829226880 ≤ F192.ulp (281474976710656 - 148) := F192.ulp_mono (by norm_num)
  rw [ulp_sub (by norm_num)] at hle
  have hpow : fval ⟨0, 281472829226881⟩ = 2 ^ (-2 ^ 31 : ℤ) := by
    refine hx.trans ?_
    rw [F192.ulp, show (((170141183460469231731687303715884105728 : ℕ) : ℚ)) = 2 ^ (127 : ℤ) by norm_num, ← zpow_add₀ two_ne_zero]
    congr 1
  rw [hsu] at hx
  have hx' : fval ⟨0, 281472829226881⟩ = 170141183460469231731687303715884105728 * (F192.ulp 281472829226880 * 2) := hx.trans (by norm_num)
  have hw' : fval ⟨116196554945254842826510586540909568731, 281472829226880⟩ = 286337738405724074558197890256793674459 * F192.ulp 281472829226880 :=
    hw.trans (by norm_num)
  refine ⟨_, _, _, by decide, hpow, (F192.cosE_c _).ret cos_small_wit, (F192.sinE_c _).ret sin_small_wit, by rw [hz]; norm_num, ?_⟩
  rw [hw', hx']
  clear hpow hx hw hx' hw' hsu hz
  generalize F192.ulp 281472829226880 = u at *
  have h0 : 0 < 170141183460469231731687303715884105728 * (u * 2) := by linarith
  have h1 : 170141183460469231731687303715884105728 * (u * 2) ≤ 1 / 10 ^ 5 := by
    norm_num at hle ⊢
    linarith
  have h2 : 286337738405724074558197890256793674459 * u ≤ 85 / 100 * (170141183460469231731687303715884105728 * (u * 2)) := by linarith
  generalize 170141183460469231731687303715884105728 * (u * 2) = v at *
  have r0 : (0 : ℝ) < (v : ℝ) := by exact_mod_cast h0
  have r1 := (Rat.cast_le (K := ℝ)).2 h1
  push_cast at r1
  have c1 := Real.one_sub_sq_div_two_le_cos (x := (v : ℝ))
  have c2 := Real.sin_gt_sub_cube r0
  refine ⟨by nlinarith, h0, h2, ?_⟩
  have : (v : ℝ) ^ 3 / 6 ≤ 1 / 100 * v := by nlinarith
  linarith

end Props
end Hmath
