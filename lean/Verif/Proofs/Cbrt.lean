import Verif.Proofs.Exp2
import Verif.Proofs.RatioEst

/-!
# Proofs about `cbrt_iter`
-/

namespace Hmath
namespace Ratio

/-! ## the first approximation -/

theorem to_ubi_nat (n : Nat) : BigI.to_ubi (ofInt (n : Int)) = .ok (ofNat n) := by
  rw [BigI.to_ubi, BigI.neg_ofInt, BigI.mag_ofInt, Int.natAbs_natCast, decide_eq_false (by omega), if_neg (by decide)]

/-- the cube root of the number times `2^32`, up to `31/100000` -/
theorem cbrtPart_c {T : Nat} (hT : T = 2 ^ 32) {z : Int} (hz : z ≠ 0) (hb : (z.natAbs * B32 : Nat) < 2 ^ T) (neg : Bool) :
    ∃ m : Nat, cbrtPart (ofInt z) neg = pure (ofInt (if neg then -(m : Int) else m)) ∧ 0 < m ∧
      ∀ C : ℝ, 0 ≤ C → C ^ 3 = z.natAbs * 4294967296 → C * (1 - 31 / 100000) ≤ m ∧ (m : ℝ) ≤ C * (1 + 31 / 100000) := by
  have b1 : B32 = 4294967296 := rfl
  have hz' : 0 < z.natAbs := Int.natAbs_pos.2 hz
  have hN : 0 < z.natAbs * B32 := Nat.mul_pos hz' (by decide)
  obtain ⟨r, e1, e2, e3⟩ := bi_log2_c hT ((z.natAbs * B32 : Nat) : Int) (by exact_mod_cast hN) (by exact_mod_cast hb)
  rw [Int.natAbs_natCast] at e3
  obtain ⟨g1, g2⟩ := logOk_p2 hT hN e3
  obtain ⟨m, f1, f2, f3, -⟩ := UBig.exp2_accurate_c (n := r / 3) (by omega)
  have key : ∀ C : ℝ, 0 ≤ C → C ^ 3 = z.natAbs * 4294967296 → C * (1 - 31 / 100000) ≤ m ∧ (m : ℝ) ≤ C * (1 + 31 / 100000) := by
    intro C hC0 hC
    have c1 : (1625 : ℝ) ≤ C := by
      refine le_of_pow_le_pow_left₀ (n := 3) (by norm_num) hC0 ?_
      rw [hC]
      have : (1 : ℝ) ≤ z.natAbs := by exact_mod_cast hz'
      have h5 : (1625 : ℝ) ^ 3 ≤ 1 * 4294967296 := by norm_num
      linarith
    have d1 : p2 ((r / 3 : Nat) / 4294967296) ≤ C := by
      refine le_of_pow_le_pow_left₀ (n := 3) (by norm_num) hC0 ?_
      rw [hC]
      have h3 : p2 ((r / 3 : Nat) / 4294967296) ^ 3 = p2 (3 * (r / 3 : Nat) / 4294967296) := by
        rw [p2, p2, ← Real.rpow_natCast, ← Real.rpow_mul (by norm_num)]; congr 1; push_cast; ring
      rw [h3]
      have h4 : (z.natAbs : ℝ) * 4294967296 = ((z.natAbs * B32 : Nat) : ℝ) := by rw [b1]; push_cast; ring
      rw [h4]
      refine le_trans (p2_mono ?_) g1
      have : 3 * (r / 3) ≤ r := by omega
      have : (3 : ℝ) * (r / 3 : Nat) ≤ r := by exact_mod_cast this
      exact div_le_div_of_nonneg_right this (by norm_num)
    have d2 : C ≤ p2 ((r / 3 : Nat) / 4294967296) * p2 (2 / 4294967296) := by
      refine le_of_pow_le_pow_left₀ (n := 3) (by norm_num) (mul_nonneg (p2_pos _).le (p2_pos _).le) ?_
      rw [hC, ← p2_add]
      have h3 : p2 ((r / 3 : Nat) / 4294967296 + 2 / 4294967296) ^ 3 = p2 ((3 * (r / 3 : Nat) + 6) / 4294967296) := by
        rw [p2, p2, ← Real.rpow_natCast, ← Real.rpow_mul (by norm_num)]; congr 1; push_cast; ring
      rw [h3]
      have h4 : (z.natAbs : ℝ) * 4294967296 = ((z.natAbs * B32 : Nat) : ℝ) := by rw [b1]; push_cast; ring
      rw [h4]
      refine le_trans g2.le (p2_mono ?_)
      have : r + 2 ≤ 3 * (r / 3) + 6 := by omega
      have : (r : ℝ) + 2 ≤ 3 * (r / 3 : Nat) + 6 := by exact_mod_cast this
      exact div_le_div_of_nonneg_right this (by norm_num)
    have sm := p2_small (k := 2) (by norm_num)
    have pp := p2_pos ((r / 3 : Nat) / 4294967296)
    have k1 : C * (1 - 2 * 0.7 / 4294967296) ≤ p2 ((r / 3 : Nat) / 4294967296) := by
      calc C * (1 - 2 * 0.7 / 4294967296) ≤ p2 ((r / 3 : Nat) / 4294967296) * p2 (2 / 4294967296) * (1 - 2 * 0.7 / 4294967296) :=
            mul_le_mul_of_nonneg_right d2 (by norm_num)
        _ = p2 ((r / 3 : Nat) / 4294967296) * (p2 (2 / 4294967296) * (1 - 2 * 0.7 / 4294967296)) := by ring
        _ ≤ p2 ((r / 3 : Nat) / 4294967296) * 1 := mul_le_mul_of_nonneg_left sm pp.le
        _ = _ := mul_one _
    generalize p2 ((r / 3 : Nat) / 4294967296) = P at *
    constructor
    · linarith
    · linarith
  have hm : 0 < m := by
    obtain ⟨C, hC0, hC⟩ : ∃ C : ℝ, 0 < C ∧ C ^ 3 = z.natAbs * 4294967296 := by
      have h0 : (0 : ℝ) < z.natAbs * 4294967296 := by
        have : (0 : ℝ) < z.natAbs := by exact_mod_cast hz'
        positivity
      refine ⟨((z.natAbs : ℝ) * 4294967296) ^ ((3 : Nat) : ℝ)⁻¹, Real.rpow_pos_of_pos h0 _, Real.rpow_inv_natCast_pow h0.le (by norm_num)⟩
    have := (key C hC0.le hC).1
    have : (0 : ℝ) < m := lt_of_lt_of_le (mul_pos hC0 (by norm_num)) this
    exact_mod_cast this
  refine ⟨m, ?_, hm, key⟩
  have e0 : (z * (B32 ^ 1 : Nat)).natAbs = z.natAbs * B32 := by rw [Int.natAbs_mul, Int.natAbs_natCast, pow_one]
  have et : (r : Int).tdiv 3 = ((r / 3 : Nat) : Int) := (Int.ofNat_tdiv _ _).symm
  rw [cbrtPart, BigI.shift_left_c, log2_natAbs, e0, e1, pure_bind, BigI.div_i32_c (by unfold IsI32; omega) (by omega) (by omega), pure_bind, et,
    to_ubi_nat]
  simp only [unwrapR, pure_bind]
  rw [f1, pure_bind]
  refine congrArg pure (BigI.from_ubi_c ?_ ?_)
  · cases neg <;> simp
  · intro _
    cases neg <;> simp [hm]

/-! ## one round -/

/-- Newton's step for the cube root squares the relative error -/
theorem newton_cbrt {c a e : ℝ} (hc : c ≠ 0) (he : e ≤ 1 / 1000) (ha : |a - c| ≤ e * |c|) :
    |a * (2 / 3) + c ^ 3 / 3 / a / a - c| ≤ 1.002 * e ^ 2 * |c| := by
  obtain ⟨u, hu⟩ : ∃ u, a = c * (1 + u) := ⟨a / c - 1, by field_simp; ring⟩
  have hu1 : |u| ≤ e := by
    have : a - c = c * u := by rw [hu]; ring
    rw [this, abs_mul, mul_comm] at ha
    exact le_of_mul_le_mul_right ha (abs_pos.2 hc)
  obtain ⟨v1, v2⟩ := abs_le.1 hu1
  have h1 : 0 < 1 + u := by linarith
  have hne := h1.ne'
  have id1 : a * (2 / 3) + c ^ 3 / 3 / a / a - c = c * (u ^ 2 * ((1 + 2 / 3 * u) / (1 + u) ^ 2)) := by
    rw [hu]; field_simp; ring
  have b1 : (1 + 2 / 3 * u) / (1 + u) ^ 2 ≤ 1.002 := by
    rw [div_le_iff₀ (by positivity)]
    nlinarith [sq_nonneg u]
  have b0 : 0 ≤ (1 + 2 / 3 * u) / (1 + u) ^ 2 := div_nonneg (by linarith) (by positivity)
  have s1 : u ^ 2 ≤ e ^ 2 := sq_le_sq' v1 v2
  rw [id1, abs_mul, mul_comm, abs_of_nonneg (mul_nonneg (sq_nonneg u) b0)]
  refine mul_le_mul_of_nonneg_right ?_ (abs_nonneg c)
  calc u ^ 2 * ((1 + 2 / 3 * u) / (1 + u) ^ 2) ≤ e ^ 2 * 1.002 := mul_le_mul s1 b1 b0 (sq_nonneg e)
    _ = _ := by ring

/-- the smaller of the lengths of numerator and denominator -/
def lenMin (q : ℚ) : Nat := min (ofNat q.den).length (ofNat q.num.natAbs).length

theorem lenMin_pos (q : ℚ) : 0 < lenMin q := lt_min (length_ofNat_pos _) (length_ofNat_pos _)

/-- what dropping limbs loses -/
theorem div_pow_near {n W P : Nat} (hP : 0 < P) (h : P * W ≤ n) (hW : 0 < W) :
    (n : ℝ) / P * (1 - 1 / W) ≤ (n / P : Nat) ∧ ((n / P : Nat) : ℝ) ≤ n / P := by
  have hP' : (0 : ℝ) < P := by exact_mod_cast hP
  have hW' : (0 : ℝ) < W := by exact_mod_cast hW
  refine ⟨?_, Nat.cast_div_le⟩
  have h1 : (n : ℝ) < ((n / P : Nat) + 1) * P := by
    have : n < (n / P + 1) * P := by
      have := Nat.lt_div_mul_add (a := n) hP
      linarith
    exact_mod_cast this
  have h2 : (n : ℝ) / P < (n / P : Nat) + 1 := by rwa [div_lt_iff₀ hP']
  have h3 : (1 : ℝ) ≤ n / P * (1 / W) := by
    rw [div_mul_div_comm, mul_one, le_div_iff₀ (by positivity), one_mul]
    exact_mod_cast h
  linarith

/-- numerator and denominator without their last limbs -/
theorem cut_near {q : ℚ} (hq : q ≠ 0) {s L : Nat} (hL : 1 < L) (h : L + s ≤ lenMin q) :
    ∃ q' : ℚ, fit ⟨BigI.shift_right_mut (ofInt q.den) s, BigI.shift_right_mut (ofInt q.num) s⟩ = pure (ofRat q') ∧
      |(q' : ℝ) - q| ≤ 1.001 / (B32 : ℝ) ^ (L - 1) * |(q : ℝ)| := by
  have hP : 0 < B32 ^ s := Nat.pow_pos (by decide)
  have hW : 0 < B32 ^ (L - 1) := Nat.pow_pos (by decide)
  have hWB : 4294967296 ≤ B32 ^ (L - 1) := by
    calc 4294967296 = B32 ^ 1 := by norm_num
      _ ≤ _ := Nat.pow_le_pow_right (by decide) (by omega)
  have big : ∀ {n : Nat}, L + s ≤ (ofNat n).length → B32 ^ s * B32 ^ (L - 1) ≤ n := by
    intro n hn
    rw [← pow_add]
    exact (length_ofNat_gt_iff (by omega)).1 (by omega)
  have g1 := big (le_trans h (min_le_left _ _))
  have g2 := big (le_trans h (min_le_right _ _))
  obtain ⟨d1, d2⟩ := div_pow_near hP g1 hW
  obtain ⟨n1, n2⟩ := div_pow_near hP g2 hW
  have dp : 0 < q.den / B32 ^ s := Nat.div_pos (le_trans (Nat.le_mul_of_pos_right _ hW) g1) hP
  have np : 0 < q.num.natAbs / B32 ^ s := Nat.div_pos (le_trans (Nat.le_mul_of_pos_right _ hW) g2) hP
  refine ⟨((q.num.tdiv (B32 ^ s : Nat) : Int) : ℚ) / (((q.den : Int).tdiv (B32 ^ s : Nat) : Int) : ℚ), ?_, ?_⟩
  · rw [BigI.shift_right_mut_c, BigI.shift_right_mut_c]
    refine fit_c ?_ rfl
    have : (q.den : Int).tdiv (B32 ^ s : Nat) = ((q.den / B32 ^ s : Nat) : Int) := (Int.ofNat_tdiv _ _).symm
    rw [this]
    exact_mod_cast dp.ne'
  · have ed : (((q.den : Int).tdiv (B32 ^ s : Nat) : Int)) = ((q.den / B32 ^ s : Nat) : Int) := (Int.ofNat_tdiv _ _).symm
    obtain ⟨σ, hσ, en, em⟩ : ∃ σ : ℝ, |σ| = 1 ∧ ((q.num.tdiv (B32 ^ s : Nat) : Int) : ℝ) = σ * (q.num.natAbs / B32 ^ s : Nat) ∧
        (q.num : ℝ) = σ * q.num.natAbs := by
      rcases Int.natAbs_eq q.num with hs | hs
      · refine ⟨1, abs_one, ?_, ?_⟩
        · rw [hs, Int.natAbs_natCast, one_mul, ← Int.ofNat_tdiv]; exact Int.cast_natCast _
        · conv_lhs => rw [hs]
          rw [one_mul]; exact Int.cast_natCast _
      · refine ⟨-1, by norm_num, ?_, ?_⟩
        · rw [hs, Int.natAbs_neg, Int.natAbs_natCast, Int.neg_tdiv, ← Int.ofNat_tdiv, Int.cast_neg, Int.cast_natCast]; ring
        · conv_lhs => rw [hs]
          rw [Int.cast_neg, Int.cast_natCast]; ring
    have eq1 : (q : ℝ) = σ * q.num.natAbs / q.den := by
      rw [← em]; exact_mod_cast (Rat.num_div_den q).symm
    rw [ed, Rat.cast_div, Rat.cast_intCast, Rat.cast_intCast, en, Int.cast_natCast, eq1]
    have hd0 : (0 : ℝ) < q.den := by exact_mod_cast q.den_pos
    have hn0 : (0 : ℝ) < q.num.natAbs := by
      have : 0 < q.num.natAbs := Int.natAbs_pos.2 (Rat.num_ne_zero.2 hq)
      exact_mod_cast this
    have hP' : (0 : ℝ) < (B32 ^ s : Nat) := by exact_mod_cast hP
    have dp' : (0 : ℝ) < (q.den / B32 ^ s : Nat) := by exact_mod_cast dp
    have np' : (0 : ℝ) < (q.num.natAbs / B32 ^ s : Nat) := by exact_mod_cast np
    have hW' : (4294967296 : ℝ) ≤ (B32 ^ (L - 1) : Nat) := by exact_mod_cast hWB
    have ew : (B32 : ℝ) ^ (L - 1) = ((B32 ^ (L - 1) : Nat) : ℝ) := by push_cast; rfl
    rw [ew]
    generalize ((q.den / B32 ^ s : Nat) : ℝ) = d' at *
    generalize ((q.num.natAbs / B32 ^ s : Nat) : ℝ) = n' at *
    generalize ((B32 ^ (L - 1) : Nat) : ℝ) = W at *
    generalize ((B32 ^ s : Nat) : ℝ) = P at *
    generalize (q.num.natAbs : ℝ) = n at *
    generalize (q.den : ℝ) = d at *
    have e1 : σ * n' / d' - σ * n / d = σ * (n' / d' - n / d) := by ring
    have e2 : |σ * n / d| = n / d := by
      rw [mul_div_assoc, abs_mul, hσ, one_mul, abs_of_pos (by positivity)]
    rw [e1, abs_mul, hσ, one_mul, e2]
    obtain ⟨w, hw⟩ : ∃ w : ℝ, w = 1 / W := ⟨_, rfl⟩
    have w0 : 0 < w := by rw [hw]; positivity
    have w1 : w ≤ 1 / 4294967296 := by
      rw [hw]; exact one_div_le_one_div_of_le (by norm_num) hW'
    rw [← hw] at d1 n1
    rw [show 1.001 / W = 1.001 * w by rw [hw]; ring]
    have lo : n / d * (1 - w) ≤ n' / d' := by
      rw [div_mul_eq_mul_div, div_le_div_iff₀ hd0 dp']
      have : d' * P ≤ d := by rwa [le_div_iff₀ hP'] at d2
      have hh : n * (1 - w) ≤ n' * P := by
        rw [div_mul_eq_mul_div, div_le_iff₀ hP'] at n1; exact n1
      have k : n * (1 - w) * d' * P ≤ n' * P * d := by
        calc n * (1 - w) * d' * P = n * (1 - w) * (d' * P) := by ring
          _ ≤ n' * P * d := mul_le_mul hh this (by positivity) (by positivity)
      refine le_of_mul_le_mul_right ?_ hP'
      linarith
    have hi : n' / d' * (1 - w) ≤ n / d := by
      rw [div_mul_eq_mul_div, div_le_div_iff₀ dp' hd0]
      have : n' * P ≤ n := by rwa [le_div_iff₀ hP'] at n2
      have hh : d * (1 - w) ≤ d' * P := by
        rw [div_mul_eq_mul_div, div_le_iff₀ hP'] at d1; exact d1
      have k : n' * P * (d * (1 - w)) ≤ n * (d' * P) := mul_le_mul this hh (mul_nonneg hd0.le (by linarith)) hn0.le
      refine le_of_mul_le_mul_right ?_ hP'
      linarith
    have q0 : 0 < n / d := by positivity
    have q0' : 0 < n' / d' := by positivity
    generalize n / d = Q at *
    generalize n' / d' = Q' at *
    rw [abs_le]
    constructor
    · nlinarith
    · have : Q' ≤ Q * (1 + 1.001 * w) := by
        have h1 : Q ≤ Q * (1 + 1.001 * w) * (1 - w) := by
          have : 1 ≤ (1 + 1.001 * w) * (1 - w) := by nlinarith
          nlinarith
        have h2 : 0 < 1 - w := by linarith
        exact le_of_mul_le_mul_right (le_trans hi h1) h2
      linarith

/-- one round -/
theorem cbrtRound_c {x a : ℚ} {c e : ℝ} (hc : c ≠ 0) (hx : c ^ 3 = x) (he0 : 0 ≤ e) (he : e ≤ 1 / 1000) (ha : |(a : ℝ) - c| ≤ e * |c|) :
    ∃ a' : ℚ, cbrtRound (ofRat (2 / 3)) (ofRat (x / 3)) (ofRat a) = pure (ofRat a') ∧
      |(a' : ℝ) - c| ≤ (1.01 * e ^ 2 + 1.01 / (B32 : ℝ) ^ (lenMin a + 3)) * |c| := by
  have hcp := abs_pos.2 hc
  have nz : ∀ {y : ℚ} {f : ℝ}, f < 1 → |(y : ℝ) - c| ≤ f * |c| → y ≠ 0 := by
    intro y f hf hy h0
    rw [h0, Rat.cast_zero, zero_sub, abs_neg] at hy
    nlinarith
  have ha0 : a ≠ 0 := nz (by linarith) ha
  obtain ⟨b, hb⟩ : ∃ b : ℚ, b = a * (2 / 3) + x / 3 / a / a := ⟨_, rfl⟩
  have hn : |(b : ℝ) - c| ≤ 1.002 * e ^ 2 * |c| := by
    have := newton_cbrt hc he ha
    rw [hx] at this
    rw [hb]; push_cast; exact this
  have he2 : e ^ 2 ≤ 1 / 1000000 := by nlinarith
  have hb0 : b ≠ 0 := nz (by linarith) hn
  have hB : (0 : ℝ) < (B32 : ℝ) ^ (lenMin a + 3) := by
    have : (0 : ℝ) < B32 := by norm_num
    positivity
  rw [cbrtRound, mul_c, pure_bind, div_c ha0, pure_bind, div_c ha0, pure_bind, add_c, pure_bind, ← hb]
  simp only [denom_ofRat, numer_ofRat, BigI.mag_ofInt, Int.natAbs_natCast]
  change ∃ a', (if lenMin a + 4 < lenMin b then fit ⟨BigI.shift_right_mut (ofInt b.den) (lenMin b - lenMin a - 4),
      BigI.shift_right_mut (ofInt b.num) (lenMin b - lenMin a - 4)⟩ else pure (ofRat b)) = pure (ofRat a') ∧ _
  by_cases h : lenMin a + 4 < lenMin b
  · rw [if_pos h]
    obtain ⟨q', r1, r2⟩ := cut_near hb0 (s := lenMin b - lenMin a - 4) (L := lenMin a + 4) (by omega) (by omega)
    refine ⟨q', r1, ?_⟩
    rw [show lenMin a + 4 - 1 = lenMin a + 3 by omega] at r2
    have t1 : |(q' : ℝ) - c| ≤ |(q' : ℝ) - b| + |(b : ℝ) - c| := abs_sub_le _ _ _
    have t2 : |(b : ℝ)| ≤ |(b : ℝ) - c| + |c| := by
      have := abs_add_le ((b : ℝ) - c) c
      rwa [sub_add_cancel] at this
    have t3 : |(b : ℝ)| ≤ 1.0001 * |c| := by nlinarith
    have t4 : 1.001 / (B32 : ℝ) ^ (lenMin a + 3) * |(b : ℝ)| ≤ 1.001 / (B32 : ℝ) ^ (lenMin a + 3) * (1.0001 * |c|) :=
      mul_le_mul_of_nonneg_left t3 (by positivity)
    have t5 : 1.001 / (B32 : ℝ) ^ (lenMin a + 3) * (1.0001 * |c|) ≤ 1.01 / (B32 : ℝ) ^ (lenMin a + 3) * |c| := by
      rw [← mul_assoc]
      refine mul_le_mul_of_nonneg_right ?_ hcp.le
      rw [div_mul_eq_mul_div]
      exact div_le_div_of_nonneg_right (by norm_num) hB.le
    have t6 : 1.002 * e ^ 2 * |c| ≤ 1.01 * e ^ 2 * |c| := mul_le_mul_of_nonneg_right (by nlinarith [sq_nonneg e]) hcp.le
    rw [add_mul]
    linarith
  · rw [if_neg h]
    refine ⟨b, rfl, hn.trans (mul_le_mul_of_nonneg_right ?_ hcp.le)⟩
    have : 0 ≤ 1.01 / (B32 : ℝ) ^ (lenMin a + 3) := by positivity
    nlinarith [sq_nonneg e]

theorem cbrtLoop_c {x : ℚ} {c : ℝ} (hc : c ≠ 0) (hx : c ^ 3 = x) (k : Nat) : ∀ {a : ℚ} {u : ℝ}, 0 ≤ u → u ≤ 1 / 1500 →
    |(a : ℝ) - c| ≤ (0.99 * u + 1 / 2 ^ 127) * |c| →
    ∃ a' : ℚ, cbrtLoop (ofRat (2 / 3)) (ofRat (x / 3)) k (ofRat a) = pure (ofRat a') ∧
      |(a' : ℝ) - c| ≤ (0.99 * u ^ 2 ^ k + 1 / 2 ^ 127) * |c| := by
  induction k with
  | zero => intro a u _ _ h; exact ⟨a, rfl, by simpa using h⟩
  | succ k ih =>
    intro a u h0 h1 h
    obtain ⟨a', r1, r2⟩ := cbrtRound_c hc hx (by positivity) (by linarith [show (1 : ℝ) / 2 ^ 127 ≤ 1 / 10000 by norm_num]) h
    have hB : 1.01 / (B32 : ℝ) ^ (lenMin a + 3) ≤ 1.01 / 2 ^ 128 := by
      refine div_le_div_of_nonneg_left (by norm_num) (by norm_num) ?_
      calc (2 : ℝ) ^ 128 = (B32 : ℝ) ^ 4 := by norm_num
        _ ≤ (B32 : ℝ) ^ (lenMin a + 3) := pow_le_pow_right₀ (by norm_num) (by have := lenMin_pos a; omega)
    obtain ⟨a'', s1, s2⟩ := ih (u := u ^ 2) (sq_nonneg u) (by nlinarith) (a := a') (by
      refine r2.trans (mul_le_mul_of_nonneg_right ?_ (abs_nonneg c))
      refine (add_le_add le_rfl hB).trans ?_
      obtain ⟨t, ht⟩ : ∃ t : ℝ, t = 1 / 2 ^ 127 := ⟨_, rfl⟩
      have t0 : 0 < t := by rw [ht]; positivity
      have t1 : t ≤ 1 / 1000 := by rw [ht]; norm_num
      have t2 : (1.01 : ℝ) / 2 ^ 128 = 0.505 * t := by rw [ht]; norm_num
      rw [← ht, t2]
      have e1 : 1.01 * (0.99 * u + t) ^ 2 = 0.989901 * u ^ 2 + (1.9998 * u + 1.01 * t) * t := by ring
      rw [e1]
      nlinarith [sq_nonneg u])
    refine ⟨a'', by rw [cbrtLoop, r1, pure_bind, s1], ?_⟩
    rw [← pow_mul, ← pow_succ'] at s2
    exact s2

theorem shifted_lt {T : Nat} (hT : T = 2 ^ 32) {n : Nat} (h : (ofNat n).length < 2 ^ 27) : n * B32 < 2 ^ T := by
  obtain ⟨L, hL⟩ : ∃ L : Nat, L + 1 = 2 ^ 27 := ⟨2 ^ 27 - 1, rfl⟩
  have h1 : n < B32 ^ L := (length_ofNat_le_iff (by omega)).1 (by omega)
  have h2 : n * B32 < B32 ^ (L + 1) := by
    rw [pow_succ]
    exact Nat.mul_lt_mul_of_pos_right h1 (by decide)
  refine h2.trans_le ?_
  rw [UBig.B32_pow]
  exact Nat.pow_le_pow_right (by norm_num) (by omega)

/-- the first approximation and the loop -/
theorem cbrt_start {q : ℚ} (h0 : q ≠ 0) (hn : (ofNat q.num.natAbs).length < 2 ^ 27) (hd : (ofNat q.den).length < 2 ^ 27) :
    ∃ a : ℚ, (∀ k, cbrt_iter (ofRat q) k = cbrtLoop (ofRat (2 / 3)) (ofRat (q / 3)) k (ofRat a)) ∧
      ∀ c : ℝ, c ^ 3 = q → |(a : ℝ) - c| ≤ 0.99 * (1 / 1500) * |c| := by
  obtain ⟨T, hT⟩ : ∃ T : Nat, T = 2 ^ 32 := ⟨_, rfl⟩
  have hnum : q.num ≠ 0 := Rat.num_ne_zero.2 h0
  obtain ⟨d, d1, d2, d3⟩ := cbrtPart_c hT (z := (q.den : Int)) (den_ne q) (by rw [Int.natAbs_natCast]; exact shifted_lt hT hd) false
  obtain ⟨n, n1, n2, n3⟩ := cbrtPart_c hT hnum (shifted_lt hT hn) (decide (q < 0))
  rw [Int.natAbs_natCast] at d3
  obtain ⟨N, hN⟩ : ∃ N : Int, N = if decide (q < 0) = true then -(n : Int) else n := ⟨_, rfl⟩
  rw [← hN] at n1
  refine ⟨(N : ℚ) / (d : Int), ?_, ?_⟩
  · intro k
    rw [cbrt_iter, is_zero_c, decide_eq_false h0, if_neg (by decide), denom_ofRat, numer_ofRat, is_neg_c, d1, pure_bind, n1, pure_bind,
      if_neg (by decide), from_dn_c (by exact_mod_cast d2.ne') rfl, pure_bind, div_i32_c _ (by unfold IsI32; omega) (by omega) (by omega), pure_bind,
      from_dn_i32_c (by unfold IsI32; omega) (by unfold IsI32; omega) (by omega) (by omega) (by omega), pure_bind]
    norm_num
  · intro c hc
    have hqc : (q : ℝ) ≠ 0 := by exact_mod_cast h0
    have hc0 : c ≠ 0 := by
      intro h; rw [h] at hc; apply hqc; rw [← hc]; norm_num
    have hn0 : (0 : ℝ) < q.num.natAbs := by
      have := Int.natAbs_pos.2 hnum
      exact_mod_cast this
    have hd0 : (0 : ℝ) < q.den := by exact_mod_cast q.den_pos
    have root : ∀ y : ℝ, 0 < y → ∃ C : ℝ, 0 < C ∧ C ^ 3 = y := fun y hy =>
      ⟨y ^ ((3 : Nat) : ℝ)⁻¹, Real.rpow_pos_of_pos hy _, Real.rpow_inv_natCast_pow hy.le (by norm_num)⟩
    obtain ⟨A, A0, A1⟩ := root (q.num.natAbs * 4294967296) (by positivity)
    obtain ⟨D, D0, D1⟩ := root (q.den * 4294967296) (by positivity)
    obtain ⟨u1, u2⟩ := n3 A A0.le A1
    obtain ⟨v1, v2⟩ := d3 D D0.le D1
    have hac : |c| = A / D := by
      have h3 : |c| ^ 3 = (A / D) ^ 3 := by
        rw [← abs_pow, hc, div_pow, A1, D1, mul_div_mul_right _ _ (by norm_num)]
        have : (q : ℝ) = q.num / q.den := by exact_mod_cast (Rat.num_div_den q).symm
        rw [this, abs_div, abs_of_pos hd0, Nat.cast_natAbs, Int.cast_abs]
      exact (pow_left_inj₀ (abs_nonneg c) (by positivity) (by norm_num)).1 h3
    have d0 : (0 : ℝ) < d := by exact_mod_cast d2
    have sg : ((N : ℚ) / (d : Int) : ℚ) = if q < 0 then -((n : ℚ) / d) else (n : ℚ) / d := by
      rw [hN]
      by_cases h : q < 0
      · rw [if_pos (by simpa using h), if_pos h]; push_cast; ring
      · rw [if_neg (by simpa using h), if_neg h]; push_cast; ring
    have main : |(n : ℝ) / d - A / D| ≤ 0.99 * (1 / 1500) * (A / D) := by
      have AD : 0 < A / D := by positivity
      have lo : A / D * (1 - 0.99 * (1 / 1500)) ≤ n / d := by
        rw [div_mul_eq_mul_div, div_le_div_iff₀ D0 d0]
        have k1 : A * (1 - 0.99 * (1 / 1500)) * d ≤ A * (1 - 0.99 * (1 / 1500)) * (D * (1 + 31 / 100000)) :=
          mul_le_mul_of_nonneg_left v2 (mul_nonneg A0.le (by norm_num))
        have k2 : A * (1 - 31 / 100000) * D ≤ n * D := mul_le_mul_of_nonneg_right u1 D0.le
        have k3 : 0 < A * D := mul_pos A0 D0
        linarith
      have hi : (n : ℝ) / d ≤ A / D * (1 + 0.99 * (1 / 1500)) := by
        rw [div_mul_eq_mul_div, div_le_div_iff₀ d0 D0]
        have k1 : A * (1 + 0.99 * (1 / 1500)) * (D * (1 - 31 / 100000)) ≤ A * (1 + 0.99 * (1 / 1500)) * d :=
          mul_le_mul_of_nonneg_left v1 (mul_nonneg A0.le (by norm_num))
        have k2 : n * D ≤ A * (1 + 31 / 100000) * D := mul_le_mul_of_nonneg_right u2 D0.le
        have k3 : 0 < A * D := mul_pos A0 D0
        linarith
      rw [abs_le]; constructor <;> linarith
    rw [hac, sg]
    by_cases h : q < 0
    · have hcn : c < 0 := by
        by_contra hh
        have : (0 : ℝ) ≤ q := by rw [← hc]; exact pow_nonneg (not_lt.1 hh) 3
        exact absurd h (not_lt.2 (by exact_mod_cast this))
      rw [abs_of_neg hcn] at hac
      rw [if_pos h]
      push_cast
      rw [show -((n : ℝ) / d) - c = -((n : ℝ) / d - A / D) by rw [← hac]; ring, abs_neg]
      exact main
    · have hcn : 0 ≤ c := by
        by_contra hh
        have hh := not_le.1 hh
        have : (q : ℝ) < 0 := by rw [← hc]; exact Odd.pow_neg (by decide) hh
        exact h (by exact_mod_cast this)
      rw [abs_of_nonneg hcn] at hac
      rw [if_neg h]
      push_cast
      rw [hac]
      exact main

theorem cbrt_iter_c {q : ℚ} (h0 : q ≠ 0) (hn : (ofNat q.num.natAbs).length < 2 ^ 27) (hd : (ofNat q.den).length < 2 ^ 27) (k : Nat)
    {c : ℝ} (hc : c ^ 3 = q) : ∃ a : ℚ, cbrt_iter (ofRat q) k = pure (ofRat a) ∧
      |(a : ℝ) - c| ≤ ((1 / 1500) ^ 2 ^ k + 1 / 2 ^ 127) * |c| := by
  obtain ⟨a, h1, h2⟩ := cbrt_start h0 hn hd
  have hc0 : c ≠ 0 := by
    intro h; rw [h] at hc
    have : (q : ℝ) = 0 := by rw [← hc]; norm_num
    exact h0 (by exact_mod_cast this)
  obtain ⟨a', r1, r2⟩ := cbrtLoop_c hc0 hc k (a := a) (u := 1 / 1500) (by norm_num) le_rfl
    ((h2 c hc).trans (mul_le_mul_of_nonneg_right (by norm_num) (abs_nonneg c)))
  refine ⟨a', (h1 k).trans r1, r2.trans (mul_le_mul_of_nonneg_right ?_ (abs_nonneg c))⟩
  have : (0 : ℝ) ≤ (1 / 1500) ^ 2 ^ k := by positivity
  linarith

theorem cbrt_iter_zero (k : Nat) : cbrt_iter (ofRat 0) k = pure (ofRat 0) := by
  rw [cbrt_iter, is_zero_c, decide_eq_true rfl, if_pos rfl, zero_c]

end Ratio
end Hmath
