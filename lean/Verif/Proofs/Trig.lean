import Verif.Proofs.Series

/-!
# Range reduction of `sin_iter`, `cos_iter`, `atan_iter`, `asin_iter`
-/

namespace Hmath
open Finset Nat
namespace Ratio

theorem sinSum_neg (n : Nat) (y : ℚ) : sinSum n (-y) = -sinSum n y := by
  rw [sinSum, sinSum, ← Finset.sum_neg_distrib]
  refine Finset.sum_congr rfl fun j _ => ?_
  rw [Odd.neg_pow (odd_two_mul_add_one j)]
  ring

theorem cosSum_neg (n : Nat) (y : ℚ) : cosSum n (-y) = cosSum n y := by
  rw [cosSum, cosSum]
  refine Finset.sum_congr rfl fun j _ => ?_
  rw [Even.neg_pow (even_two_mul j)]

theorem atanSum_neg (n : Nat) (y : ℚ) : atanSum n (-y) = -atanSum n y := by
  rw [atanSum, atanSum, ← Finset.sum_neg_distrib]
  refine Finset.sum_congr rfl fun j _ => ?_
  rw [Odd.neg_pow (odd_two_mul_add_one j)]
  ring

/-! ## folding the argument, in units of pi -/

/-- `r` is the approximate sine of `t` half turns -/
def GoodS (S C : ℚ → ℚ) (t r : ℚ) : Prop :=
  ∃ (m : ℤ) (h : ℚ), |h| ≤ 1 / 4 ∧ t = m / 2 + h ∧ r = quarter m (S h) (C h)

/-- `r` is the approximate cosine of `t` half turns -/
def GoodC (S C : ℚ → ℚ) (t r : ℚ) : Prop :=
  ∃ (m : ℤ) (h : ℚ), |h| ≤ 1 / 4 ∧ t = m / 2 + h ∧ r = quarter (m + 1) (S h) (C h)

section fold
variable {S C : ℚ → ℚ} (hS : ∀ h, S (-h) = -S h) (hC : ∀ h, C (-h) = C h)
include hS hC

theorem quarter_two_sub (m : ℤ) (h : ℚ) :
    quarter (2 - m) (S (-h)) (C (-h)) = quarter m (S h) (C h) := by
  rw [hS, hC]
  unfold quarter
  have h4 : m % 4 = 0 ∨ m % 4 = 1 ∨ m % 4 = 2 ∨ m % 4 = 3 := by omega
  rcases h4 with e | e | e | e
  · rw [show (2 - m) % 4 = 2 by omega, e]; norm_num
  · rw [show (2 - m) % 4 = 1 by omega, e]; norm_num
  · rw [show (2 - m) % 4 = 0 by omega, e]; norm_num
  · rw [show (2 - m) % 4 = 3 by omega, e]; norm_num

omit hS hC in
theorem quarter_add_two (m : ℤ) (s c : ℚ) : quarter (m + 2) s c = -quarter m s c := by
  unfold quarter
  have h4 : m % 4 = 0 ∨ m % 4 = 1 ∨ m % 4 = 2 ∨ m % 4 = 3 := by omega
  rcases h4 with e | e | e | e
  · rw [show (m + 2) % 4 = 2 by omega, e]; norm_num
  · rw [show (m + 2) % 4 = 3 by omega, e]; norm_num
  · rw [show (m + 2) % 4 = 0 by omega, e]; norm_num
  · rw [show (m + 2) % 4 = 1 by omega, e]; norm_num

omit hS hC in
theorem quarter_add_four (m j : ℤ) (s c : ℚ) : quarter (m + 4 * j) s c = quarter m s c := by
  unfold quarter
  rw [show (m + 4 * j) % 4 = m % 4 by omega]

omit hS hC in
theorem goodS_low {h : ℚ} (h0 : 0 ≤ h) (h1 : h < 1 / 4) : GoodS S C h (S h) :=
  ⟨0, h, by rw [abs_of_nonneg h0]; exact h1.le, by simp, rfl⟩

omit hS in
theorem goodS_high {h : ℚ} (h0 : 1 / 4 ≤ h) (h1 : h ≤ 1 / 2) : GoodS S C h (C (1 / 2 - h)) := by
  refine ⟨1, h - 1 / 2, ?_, by push_cast; ring, ?_⟩
  · rw [abs_le]; constructor <;> linarith
  · rw [← neg_sub, hC]; rfl

theorem GoodS.one_sub {t r : ℚ} (g : GoodS S C t r) : GoodS S C (1 - t) r := by
  obtain ⟨m, h, a, b, c⟩ := g
  refine ⟨2 - m, -h, by rwa [abs_neg], by rw [b]; push_cast; ring, ?_⟩
  rw [quarter_two_sub hS hC, c]

omit hS hC in
theorem GoodS.add_one {t r : ℚ} (g : GoodS S C t r) : GoodS S C (t + 1) (-r) := by
  obtain ⟨m, h, a, b, c⟩ := g
  exact ⟨m + 2, h, a, by rw [b]; push_cast; ring, by rw [quarter_add_two, c]⟩

omit hS hC in
theorem GoodS.add_two {t r : ℚ} (g : GoodS S C t r) (j : ℤ) : GoodS S C (t + 2 * j) r := by
  obtain ⟨m, h, a, b, c⟩ := g
  exact ⟨m + 4 * j, h, a, by rw [b]; push_cast; ring, by rw [quarter_add_four, c]⟩

theorem GoodS.neg {t r : ℚ} (g : GoodS S C t r) : GoodS S C (-t) (-r) := by
  have := ((g.one_sub hS hC).add_one).add_two (-1)
  convert this using 1
  push_cast
  ring

omit hS hC in
theorem goodC_low {h : ℚ} (h0 : 0 ≤ h) (h1 : h < 1 / 4) : GoodC S C h (C h) :=
  ⟨0, h, by rw [abs_of_nonneg h0]; exact h1.le, by simp, rfl⟩

omit hC in
theorem goodC_high {h : ℚ} (h0 : 1 / 4 ≤ h) (h1 : h ≤ 1 / 2) : GoodC S C h (S (1 / 2 - h)) := by
  refine ⟨1, h - 1 / 2, ?_, by push_cast; ring, ?_⟩
  · rw [abs_le]; constructor <;> linarith
  · rw [← neg_sub, hS]; rfl

omit hS hC in
theorem goodC_shift {t r : ℚ} : GoodC S C t r ↔ GoodS S C (t + 1 / 2) r := by
  constructor
  · rintro ⟨m, h, a, b, c⟩
    exact ⟨m + 1, h, a, by rw [b]; push_cast; ring, c⟩
  · rintro ⟨m, h, a, b, c⟩
    exact ⟨m - 1, h, a, by push_cast; linarith, by rw [sub_add_cancel]; exact c⟩

theorem GoodC.one_sub {t r : ℚ} (g : GoodC S C t r) : GoodC S C (1 - t) (-r) := by
  rw [goodC_shift] at *
  have := (g.one_sub hS hC).add_one
  convert this using 1
  ring

omit hS hC in
theorem GoodC.add_two {t r : ℚ} (g : GoodC S C t r) (j : ℤ) : GoodC S C (t + 2 * j) r := by
  rw [goodC_shift] at *
  have := g.add_two j
  convert this using 1
  ring

theorem GoodC.neg {t r : ℚ} (g : GoodC S C t r) : GoodC S C (-t) r := by
  rw [goodC_shift] at *
  have := g.one_sub hS hC
  convert this using 1
  ring

theorem GoodC.two_sub {t r : ℚ} (g : GoodC S C t r) : GoodC S C (2 - t) r := by
  have := (g.neg hS hC).add_two 1
  convert this using 1
  push_cast
  ring

end fold

/-! ## the reduction steps -/

theorem absSign_c (t : ℚ) : absSign (ofRat t) = (ofRat |t|, decide (t < 0)) := by
  rw [absSign, is_neg_c]
  by_cases h : t < 0
  · rw [decide_eq_true h, if_pos rfl, negate_mut_c, abs_of_neg h]
  · rw [decide_eq_false h, if_neg (by decide), abs_of_nonneg (by linarith)]

theorem negIf_c (b : Bool) (q : ℚ) : negIf b (ofRat q) = ofRat (if b then -q else q) := by
  cases b
  · rfl
  · rw [negIf, if_pos rfl, if_pos rfl, negate_mut_c]

theorem subPeriods_c {a : ℚ} (ha : 0 ≤ a) :
    ∃ (p : ℚ) (j : ℤ), subPeriods (ofRat a) = pure (ofRat p) ∧ a = p + 2 * j ∧ 0 ≤ p ∧ p ≤ 2 := by
  rw [subPeriods, Ratio.gt_i32_c isI32_two (by omega), pure_bind]
  by_cases h : ((2 : ℤ) : ℚ) < a
  · rw [decide_eq_true h, if_pos rfl, truncate_bi_c, pure_bind, BigI.div_i32_c isI32_two (by omega) (by omega),
      pure_bind, BigI.mul_i32_c isI32_two (by omega), pure_bind, sub_bi_mut_c, qtrunc_nonneg _ ha]
    refine ⟨_, ⌊a⌋.tdiv 2, rfl, ?_, ?_, ?_⟩
    · push_cast; ring
    · have h1 := Int.floor_le a
      have h0 : 0 ≤ ⌊a⌋ := Int.floor_nonneg.2 ha
      have h2 : ⌊a⌋.tdiv 2 * 2 ≤ ⌊a⌋ := by rw [Int.tdiv_eq_ediv_of_nonneg h0]; omega
      have h3 : ((⌊a⌋.tdiv 2 * 2 : ℤ) : ℚ) ≤ ⌊a⌋ := by exact_mod_cast h2
      linarith
    · have h1 := Int.lt_floor_add_one a
      have h0 : 0 ≤ ⌊a⌋ := Int.floor_nonneg.2 ha
      have h2 : ⌊a⌋ ≤ ⌊a⌋.tdiv 2 * 2 + 1 := by rw [Int.tdiv_eq_ediv_of_nonneg h0]; omega
      have h3 : ((⌊a⌋ : ℤ) : ℚ) ≤ (⌊a⌋.tdiv 2 * 2 : ℤ) + 1 := by exact_mod_cast h2
      linarith
  · rw [decide_eq_false h, if_neg (by decide)]
    push_cast at h
    exact ⟨a, 0, rfl, by simp, ha, by linarith⟩

theorem sinHalf_c (p : ℚ) : sinHalf (ofRat p) = pure (ofRat (if 1 / 2 < p then 1 - p else p)) := by
  rw [sinHalf, mul_i32_c _ isI32_two (by omega), pure_bind, gt_one_c]
  have e : (1 < p * ((2 : ℤ) : ℚ)) ↔ 1 / 2 < p := by push_cast; constructor <;> intro h <;> linarith
  by_cases h : 1 / 2 < p
  · rw [decide_eq_true (e.2 h), if_pos rfl, if_pos h, one_c, Ratio.sub_c]
  · rw [decide_eq_false (fun h' => h (e.1 h')), if_neg (by decide), if_neg h]

theorem coArg_c (p P : ℚ) : coArg (ofRat p) (ofRat P) = pure (ofRat ((1 / 2 - p) * P)) := by
  rw [coArg, from_dn_i32_c isI32_two isI32_one (by omega) (by omega) (by omega), pure_bind, Ratio.sub_c, pure_bind,
    Ratio.mul_c]
  norm_num

section finish
variable (k : Nat) (hk : k < 500000000) (P : ℚ)
include hk

theorem sinFinish_c {h : ℚ} (h0 : 0 ≤ h) (h1 : h ≤ 1 / 2) (b : Bool) :
    ∃ r, sinFinish (ofRat h) (ofRat P) b k = pure (ofRat (if b then -r else r)) ∧
      GoodS (fun u => sinSum (2 * k + 2) (u * P)) (fun u => cosSum (2 * k + 2) (u * P)) h r := by
  rw [sinFinish, mul_i32_c _ (by unfold IsI32; omega) (by omega), pure_bind, lt_one_c]
  have e : (h * ((4 : ℤ) : ℚ) < 1) ↔ h < 1 / 4 := by push_cast; constructor <;> intro h <;> linarith
  by_cases hh : h < 1 / 4
  · rw [decide_eq_true (e.2 hh), if_pos rfl, Ratio.mul_c, pure_bind, sin_worker_c _ hk, pure_bind, negIf_c]
    exact ⟨_, rfl, goodS_low h0 hh⟩
  · rw [decide_eq_false (fun h' => hh (e.1 h')), if_neg (by decide), coArg_c, pure_bind, cos_worker_c _ hk,
      pure_bind, negIf_c]
    refine ⟨_, rfl, goodS_high (S := fun u => sinSum (2 * k + 2) (u * P))
      (C := fun u => cosSum (2 * k + 2) (u * P)) ?_ (by linarith) h1⟩
    intro u; simp only [neg_mul, cosSum_neg]

theorem cosFinish_c {h : ℚ} (h0 : 0 ≤ h) (h1 : h ≤ 1 / 2) (b : Bool) :
    ∃ r, cosFinish (ofRat h) (ofRat P) b k = pure (ofRat (if b then -r else r)) ∧
      GoodC (fun u => sinSum (2 * k + 2) (u * P)) (fun u => cosSum (2 * k + 2) (u * P)) h r := by
  rw [cosFinish, mul_i32_c _ (by unfold IsI32; omega) (by omega), pure_bind, lt_one_c]
  have e : (h * ((4 : ℤ) : ℚ) < 1) ↔ h < 1 / 4 := by push_cast; constructor <;> intro h <;> linarith
  by_cases hh : h < 1 / 4
  · rw [decide_eq_true (e.2 hh), if_pos rfl, Ratio.mul_c, pure_bind, cos_worker_c _ hk, pure_bind, negIf_c]
    exact ⟨_, rfl, goodC_low h0 hh⟩
  · rw [decide_eq_false (fun h' => hh (e.1 h')), if_neg (by decide), coArg_c, pure_bind, sin_worker_c _ hk,
      pure_bind, negIf_c]
    refine ⟨_, rfl, goodC_high (S := fun u => sinSum (2 * k + 2) (u * P))
      (C := fun u => cosSum (2 * k + 2) (u * P)) ?_ (by linarith) h1⟩
    intro u; simp only [neg_mul, sinSum_neg]

end finish

theorem bbp_term_pos (k : Nat) :
    (0 : ℚ) < (4 / (8 * k + 1) - 2 / (8 * k + 4) - 1 / (8 * k + 5) - 1 / (8 * k + 6)) / 16 ^ k := by
  refine div_pos ?_ (by positivity)
  have hk : (0 : ℚ) ≤ k := by positivity
  have h1 : (2 : ℚ) / (8 * k + 4) < 2 / (8 * k + 1) := by gcongr; norm_num
  have h2 : (1 : ℚ) / (8 * k + 5) < 1 / (8 * k + 1) := by gcongr; norm_num
  have h3 : (1 : ℚ) / (8 * k + 6) < 1 / (8 * k + 1) := by gcongr; norm_num
  have h4 : (4 : ℚ) / (8 * k + 1) = 2 / (8 * k + 1) + 1 / (8 * k + 1) + 1 / (8 * k + 1) := by
    rw [← add_div, ← add_div]; norm_num
  linarith

theorem bbpSum_pos (n : Nat) : 0 < bbpSum (n + 1) := by
  rw [bbpSum]
  exact Finset.sum_pos (fun k _ => bbp_term_pos k) ⟨0, by simp⟩

theorem sin_iter_c (x : ℚ) {k : Nat} (hk : k ≤ 255) :
    ∃ (m : ℤ) (h : ℚ), |h| ≤ 1 / 4 ∧ x = (m / 2 + h) * bbpSum (2 * k + 2) ∧
      sin_iter (ofRat x) k = pure (ofRat (quarter m (sinSum (2 * k + 2) (h * bbpSum (2 * k + 2)))
        (cosSum (2 * k + 2) (h * bbpSum (2 * k + 2))))) := by
  have hP := bbpSum_pos (2 * k + 1)
  rw [sin_iter, pi_iter_c hk, pure_bind]
  generalize bbpSum (2 * k + 2) = P at *
  have hS : ∀ u, sinSum (2 * k + 2) (-u * P) = -sinSum (2 * k + 2) (u * P) := by
    intro u; simp only [neg_mul, sinSum_neg]
  have hC : ∀ u, cosSum (2 * k + 2) (-u * P) = cosSum (2 * k + 2) (u * P) := by
    intro u; simp only [neg_mul, cosSum_neg]
  rw [div_c hP.ne', pure_bind, absSign_c]
  obtain ⟨p, j, e1, e2, p0, p2⟩ := subPeriods_c (abs_nonneg (x / P))
  simp only []
  rw [e1, pure_bind]
  suffices H : ∀ b : Bool, ∃ r, ((sinFold (ofRat p) b) >>= fun f => sinHalf f.1 >>= fun h =>
      sinFinish h (ofRat P) f.2 k) = pure (ofRat (if b then -r else r)) ∧
      GoodS (fun u => sinSum (2 * k + 2) (u * P)) (fun u => cosSum (2 * k + 2) (u * P)) p r by
    obtain ⟨r, e3, g⟩ := H (decide (x / P < 0))
    rw [e3]
    have g' : GoodS (fun u => sinSum (2 * k + 2) (u * P)) (fun u => cosSum (2 * k + 2) (u * P)) (x / P)
        (if decide (x / P < 0) then -r else r) := by
      have g2 := g.add_two j
      rw [← e2] at g2
      by_cases h : x / P < 0
      · rw [decide_eq_true h, if_pos rfl]
        rw [abs_of_neg h] at g2
        have := g2.neg hS hC
        rwa [neg_neg] at this
      · rw [decide_eq_false h, if_neg (by decide)]
        rwa [abs_of_nonneg (by linarith)] at g2
    obtain ⟨m, h, a, b, c⟩ := g'
    exact ⟨m, h, a, by rw [← b, div_mul_cancel₀ _ hP.ne'], by rw [c]⟩
  intro b
  have half : ∀ (p : ℚ) (b : Bool), 0 ≤ p → p ≤ 1 → ∃ r, (sinHalf (ofRat p) >>= fun h =>
      sinFinish h (ofRat P) b k) = pure (ofRat (if b then -r else r)) ∧
      GoodS (fun u => sinSum (2 * k + 2) (u * P)) (fun u => cosSum (2 * k + 2) (u * P)) p r := by
    intro p b h0 h1
    rw [sinHalf_c, pure_bind]
    by_cases h : 1 / 2 < p
    · rw [if_pos h]
      obtain ⟨r, e, g⟩ := sinFinish_c k (by omega) P (h := 1 - p) (by linarith) (by linarith) b
      refine ⟨r, e, ?_⟩
      have := g.one_sub hS hC
      rwa [sub_sub_cancel] at this
    · rw [if_neg h]
      exact sinFinish_c k (by omega) P h0 (by linarith) b
  rw [sinFold, gt_one_c]
  by_cases h : 1 < p
  · rw [decide_eq_true h, if_pos rfl, sub_i32_mut_c _ isI32_one (by omega), pure_bind, pure_bind]
    simp only []
    obtain ⟨r, e, g⟩ := half (p - ((1 : ℤ) : ℚ)) (!b) (by push_cast; linarith) (by push_cast; linarith)
    refine ⟨-r, ?_, ?_⟩
    · rw [e]; cases b <;> simp
    · have := g.add_one
      push_cast at this
      rwa [sub_add_cancel] at this
  · rw [decide_eq_false h, if_neg (by decide), pure_bind]
    exact half p b p0 (by linarith)

theorem cos_iter_c (x : ℚ) {k : Nat} (hk : k ≤ 255) :
    ∃ (m : ℤ) (h : ℚ), |h| ≤ 1 / 4 ∧ x = (m / 2 + h) * bbpSum (2 * k + 2) ∧
      cos_iter (ofRat x) k = pure (ofRat (quarter (m + 1) (sinSum (2 * k + 2) (h * bbpSum (2 * k + 2)))
        (cosSum (2 * k + 2) (h * bbpSum (2 * k + 2))))) := by
  have hP := bbpSum_pos (2 * k + 1)
  rw [cos_iter, pi_iter_c hk, pure_bind]
  generalize bbpSum (2 * k + 2) = P at *
  have hS : ∀ u, sinSum (2 * k + 2) (-u * P) = -sinSum (2 * k + 2) (u * P) := by
    intro u; simp only [neg_mul, sinSum_neg]
  have hC : ∀ u, cosSum (2 * k + 2) (-u * P) = cosSum (2 * k + 2) (u * P) := by
    intro u; simp only [neg_mul, cosSum_neg]
  rw [div_c hP.ne', pure_bind, absSign_c]
  obtain ⟨p, j, e1, e2, p0, p2⟩ := subPeriods_c (abs_nonneg (x / P))
  simp only []
  rw [e1, pure_bind]
  suffices H : ∃ r, ((cosFold (ofRat p)) >>= fun f => cosHalf f >>= fun h =>
      cosFinish h.1 (ofRat P) h.2 k) = pure (ofRat r) ∧
      GoodC (fun u => sinSum (2 * k + 2) (u * P)) (fun u => cosSum (2 * k + 2) (u * P)) p r by
    obtain ⟨r, e3, g⟩ := H
    rw [e3]
    have g' : GoodC (fun u => sinSum (2 * k + 2) (u * P)) (fun u => cosSum (2 * k + 2) (u * P)) (x / P) r := by
      have g2 := g.add_two j
      rw [← e2] at g2
      by_cases h : x / P < 0
      · rw [abs_of_neg h] at g2
        have := g2.neg hS hC
        rwa [neg_neg] at this
      · rwa [abs_of_nonneg (by linarith)] at g2
    obtain ⟨m, h, a, b, c⟩ := g'
    exact ⟨m, h, a, by rw [← b, div_mul_cancel₀ _ hP.ne'], by rw [c]⟩
  have half : ∀ (p : ℚ), 0 ≤ p → p ≤ 1 → ∃ r, (cosHalf (ofRat p) >>= fun h =>
      cosFinish h.1 (ofRat P) h.2 k) = pure (ofRat r) ∧
      GoodC (fun u => sinSum (2 * k + 2) (u * P)) (fun u => cosSum (2 * k + 2) (u * P)) p r := by
    intro p h0 h1
    rw [cosHalf, mul_i32_c _ isI32_two (by omega), pure_bind, gt_one_c]
    have e : (1 < p * ((2 : ℤ) : ℚ)) ↔ 1 / 2 < p := by push_cast; constructor <;> intro h <;> linarith
    by_cases h : 1 / 2 < p
    · rw [decide_eq_true (e.2 h), if_pos rfl, one_c, Ratio.sub_c, pure_bind, pure_bind]
      obtain ⟨r, e, g⟩ := cosFinish_c k (by omega) P (h := 1 - p) (by linarith) (by linarith) true
      refine ⟨-r, e, ?_⟩
      have := g.one_sub hS hC
      rwa [sub_sub_cancel] at this
    · rw [decide_eq_false (fun h' => h (e.1 h')), if_neg (by decide), pure_bind]
      obtain ⟨r, e, g⟩ := cosFinish_c k (by omega) P h0 (by linarith) false
      exact ⟨r, e, g⟩
  rw [cosFold, gt_one_c]
  by_cases h : 1 < p
  · rw [decide_eq_true h, if_pos rfl, from_i32_c isI32_two (by omega), pure_bind, Ratio.sub_c, pure_bind]
    obtain ⟨r, e, g⟩ := half (((2 : ℤ) : ℚ) - p) (by push_cast; linarith) (by push_cast; linarith)
    refine ⟨r, e, ?_⟩
    have := g.two_sub hS hC
    push_cast at this
    rwa [sub_sub_cancel] at this
  · rw [decide_eq_false h, if_neg (by decide), pure_bind]
    exact half p p0 (by linarith)

/-! ## arc tangent and arc sine -/

theorem atan_iter_small {x : ℚ} (hx : |x| ≤ 1) {k : Nat} (hk : k < 500000000) :
    atan_iter (ofRat x) k = pure (ofRat (atanSum (2 * k + 2) x)) := by
  rw [atan_iter, absSign_c]
  simp only []
  rw [atanPos, gt_one_c, decide_eq_false (by linarith), if_neg (by decide), atanSeries_c _ hk, pure_bind, negIf_c]
  by_cases h : x < 0
  · rw [decide_eq_true h, if_pos rfl, abs_of_neg h, atanSum_neg, neg_neg]
  · rw [decide_eq_false h, if_neg (by decide), abs_of_nonneg (by linarith)]

theorem atan_iter_large {x : ℚ} (hx : 1 < |x|) {k : Nat} (hk : k ≤ 255) :
    atan_iter (ofRat x) k = pure (ofRat ((if x < 0 then -(bbpSum (2 * k + 2) / 2)
      else bbpSum (2 * k + 2) / 2) - atanSum (2 * k + 2) x⁻¹)) := by
  have h0 : |x| ≠ 0 := by linarith
  rw [atan_iter, absSign_c]
  simp only []
  rw [atanPos, gt_one_c, decide_eq_true hx, if_pos rfl, reci_mut, reci_c h0, pure_bind, atanSeries_c _ (by omega),
    pure_bind, pi_iter_c hk, pure_bind, div_i32_c _ isI32_two (by omega) (by omega), pure_bind, Ratio.sub_c, pure_bind,
    negIf_c]
  refine congrArg (fun q => pure (ofRat q)) ?_
  push_cast
  by_cases h : x < 0
  · rw [decide_eq_true h, if_pos rfl, if_pos h, abs_of_neg h, inv_neg, atanSum_neg]
    ring
  · rw [decide_eq_false h, if_neg (by decide), if_neg h, abs_of_nonneg (by linarith)]

theorem asin_iter_panics {x : ℚ} (hx : 1 < |x|) (k : Nat) : asin_iter (ofRat x) k = throw .explicit := by
  rw [asin_iter, gt_one_c, negate_mut_c, gt_one_c]
  by_cases h : 1 < x
  · rw [decide_eq_true h, if_pos rfl]
  · rw [decide_eq_false h, if_neg (by decide), decide_eq_true, if_pos rfl]
    by_contra h'
    exact absurd hx (not_lt.2 (abs_le.2 ⟨by linarith, by linarith⟩))

theorem asin_start {x : ℚ} (hx : |x| ≤ 1) (k : Nat) : asin_iter (ofRat x) k =
    (List.range k).foldlM (asinStep (ofRat (x * x))) (ofRat x, ofRat (1 / 6), ofRat (x * x * x)) >>=
      fun s => s.2.1.mul s.2.2 >>= fun t => s.1.add_mut t := by
  rw [abs_le] at hx
  rw [asin_iter, gt_one_c, negate_mut_c, gt_one_c, decide_eq_false (by linarith), if_neg (by decide),
    decide_eq_false (by linarith), if_neg (by decide), negate_mut_c, neg_neg,
    from_dn_i32_c (by unfold IsI32; omega) isI32_one (by omega) (by omega) (by omega), pure_bind, Ratio.mul_c, pure_bind,
    Ratio.mul_c, pure_bind]
  norm_num

theorem asin_iter_c {x : ℚ} (hx : |x| ≤ 1) {k : Nat} (hk : k ≤ 643) :
    asin_iter (ofRat x) k = pure (ofRat (asinSum (k + 2) x)) := by
  rw [asin_start hx, asinLoop_c x hk, pure_bind]
  simp only []
  rw [Ratio.mul_c, pure_bind, Ratio.add_mut_c, asinSum_succ (k + 1)]
  rfl

/-- with 644 iterations the denominator `645·645·1291·4` wraps to a negative `i32` -/
theorem asin_iter_wraps {x : ℚ} (hx : |x| ≤ 1) :
    asin_iter (ofRat x) 644 = pure (ofRat (asinSum 645 x
      + asinCoeff 644 * (2143362090 : ℤ) / (-2146614196 : ℤ) * x ^ 1291)) := by
  have e1 : asI32 ((2 * 643 + 3) * (2 * 643 + 3) * (2 * 643 + 4)) = 2143362090 := by decide
  have e2 : asI32 ((643 + 2) * (643 + 2) * (2 * 643 + 5) * 4) = -2146614196 := by decide
  rw [asin_start hx, List.range_succ, List.foldlM_append, asinLoop_c x (le_refl 643), pure_bind,
    List.foldlM_cons, asinStep, e1, e2]
  simp only [List.foldlM_nil, bind_pure]
  rw [Ratio.mul_c, pure_bind, Ratio.add_mut_c, pure_bind, mul_i32_mut_c _ (by unfold IsI32; omega) (by omega),
    pure_bind, div_i32_mut_c _ (by unfold IsI32; omega) (by omega) (by omega), pure_bind, Ratio.mul_mut_c, pure_bind,
    pure_bind]
  simp only []
  rw [Ratio.mul_c, pure_bind, Ratio.add_mut_c, asinSum_succ 644]
  refine congrArg (fun q => pure (ofRat q)) ?_
  generalize asinCoeff 644 = c
  push_cast
  ring

end Ratio
end Hmath
