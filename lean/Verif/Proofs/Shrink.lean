import Verif.Proofs.Ratio

/-!
# `Ratio::shrink`
-/

namespace Hmath
namespace Ratio

theorem sign_mul_natAbs' (x : Int) : x.sign * x.natAbs = x := Int.sign_mul_natAbs x

theorem tdiv_nat (x : Int) (b : Nat) : x.tdiv b = x.sign * (x.natAbs / b : Nat) := by
  rcases le_total 0 x with h | h
  · obtain ⟨k, rfl⟩ := Int.eq_ofNat_of_zero_le h
    rcases Nat.eq_zero_or_pos k with rfl | hk
    · simp
    · rw [Int.sign_eq_one_of_pos (by omega), one_mul, Int.natAbs_natCast,
        Int.tdiv_eq_ediv_of_nonneg h]; norm_cast
  · obtain ⟨k, rfl⟩ : ∃ k : Nat, x = -k := ⟨x.natAbs, by omega⟩
    rcases Nat.eq_zero_or_pos k with rfl | hk
    · simp
    · rw [Int.sign_eq_neg_one_of_neg (by omega), Int.natAbs_neg, Int.natAbs_natCast,
        Int.neg_tdiv, Int.tdiv_eq_ediv_of_nonneg (by omega)]
      push_cast; ring

theorem abs_sign_le (x : Int) (u : ℚ) : |(x.sign : ℚ) * u| ≤ |u| := by
  rw [abs_mul]
  have : |(x.sign : ℚ)| ≤ 1 := by
    rcases lt_trichotomy x 0 with h | h | h
    · rw [Int.sign_eq_neg_one_of_neg h]; simp
    · rw [h]; simp
    · rw [Int.sign_eq_one_of_pos h]; simp
  calc _ ≤ 1 * |u| := mul_le_mul_of_nonneg_right this (abs_nonneg u)
    _ = _ := one_mul _

theorem rat_sign (p : ℚ) : p = p.num.sign * ((p.num.natAbs : ℚ) / p.den) := by
  have : ((p.num.sign * p.num.natAbs : Int) : ℚ) = p.num := by rw [Int.sign_mul_natAbs]
  push_cast at this
  rw [← mul_div_assoc]
  have h : ((|p.num| : Int) : ℚ) = (p.num.natAbs : ℚ) := by
    rw [Int.abs_eq_natAbs]; simp
  push_cast at h
  rw [h] at this
  rw [this, Rat.num_div_den]

theorem abs_rat (p : ℚ) : |p| = (p.num.natAbs : ℚ) / p.den := by
  have hd : (0 : ℚ) ≤ p.den := by positivity
  conv_lhs => rw [← Rat.num_div_den p]
  rw [abs_div, abs_of_nonneg hd]
  congr 1
  have h : ((|p.num| : Int) : ℚ) = (p.num.natAbs : ℚ) := by
    rw [Int.abs_eq_natAbs]; simp
  push_cast at h
  exact h

/-- truncating both sides of a fraction by the same factor -/
theorem trunc_both {N D b : Nat} (hb : 0 < b) (hN : b * 2 ^ 64 ≤ N) (hD : b * 2 ^ 64 ≤ D) :
    |((N / b : Nat) : ℚ) / (D / b : Nat) - (N : ℚ) / D| * 2 ^ 64 ≤ (N : ℚ) / D := by
  have e1 := Nat.div_add_mod N b
  have e2 := Nat.div_add_mod D b
  have r1 := Nat.mod_lt N hb
  have r2 := Nat.mod_lt D hb
  have g1 : 2 ^ 64 ≤ N / b := (Nat.le_div_iff_mul_le hb).2 (by rw [mul_comm]; exact hN)
  have g2 : 2 ^ 64 ≤ D / b := (Nat.le_div_iff_mul_le hb).2 (by rw [mul_comm]; exact hD)
  generalize N / b = n at *
  generalize D / b = d at *
  generalize N % b = r at *
  generalize D % b = t at *
  have hd : (0 : ℚ) < d := by
    have : 0 < d := lt_of_lt_of_le (by norm_num) g2
    exact_mod_cast this
  have hD' : (0 : ℚ) < D := by
    have : 0 < D := lt_of_lt_of_le (by positivity) hD
    exact_mod_cast this
  have E1 : (b : ℚ) * n + r = N := by exact_mod_cast e1
  have E2 : (b : ℚ) * d + t = D := by exact_mod_cast e2
  have R1 : (r : ℚ) ≤ b := by exact_mod_cast r1.le
  have R2 : (t : ℚ) ≤ b := by exact_mod_cast r2.le
  have G1 : (2 : ℚ) ^ 64 ≤ n := by exact_mod_cast g1
  have G2 : (2 : ℚ) ^ 64 ≤ d := by exact_mod_cast g2
  have r0 : (0 : ℚ) ≤ r := by positivity
  have t0 : (0 : ℚ) ≤ t := by positivity
  have b0 : (0 : ℚ) ≤ b := by positivity
  have n0 : (0 : ℚ) ≤ n := by positivity
  have key : (n : ℚ) / d - N / D = (n * t - r * d) / (d * D) := by
    rw [div_sub_div _ _ hd.ne' hD'.ne', ← E1, ← E2]; congr 1; ring
  rw [key, abs_div, abs_of_pos (mul_pos hd hD'), div_mul_eq_mul_div, div_le_div_iff₀ (mul_pos hd hD') hD']
  have hh : |(n : ℚ) * t - r * d| * 2 ^ 64 ≤ N * d := by
    have h1 : (n : ℚ) * t * 2 ^ 64 ≤ N * d := by
      calc (n : ℚ) * t * 2 ^ 64 ≤ n * b * d := by
            apply mul_le_mul (mul_le_mul_of_nonneg_left R2 n0) G2 (by norm_num) (by positivity)
        _ ≤ N * d := mul_le_mul_of_nonneg_right (by rw [← E1]; nlinarith) hd.le
    have h2 : (r : ℚ) * d * 2 ^ 64 ≤ N * d := by
      have : (r : ℚ) * 2 ^ 64 ≤ N := by
        calc (r : ℚ) * 2 ^ 64 ≤ b * n := mul_le_mul R1 G1 (by norm_num) b0
          _ ≤ N := by rw [← E1]; linarith
      nlinarith
    rcases abs_cases ((n : ℚ) * t - r * d) with ⟨h, _⟩ | ⟨h, _⟩ <;> rw [h]
    · nlinarith [mul_nonneg r0 hd.le]
    · nlinarith [mul_nonneg n0 t0]
  calc _ ≤ (N : ℚ) * d * D := mul_le_mul_of_nonneg_right hh hD'.le
    _ = _ := by ring

/-- replacing `N/D` by `1/⌊D/N⌋` -/
theorem trunc_den {N D : Nat} (hN : 0 < N) (hD : N * 2 ^ 64 ≤ D) :
    |1 / ((D / N : Nat) : ℚ) - (N : ℚ) / D| * 2 ^ 64 ≤ (N : ℚ) / D := by
  have e1 := Nat.div_add_mod D N
  have r1 := Nat.mod_lt D hN
  have g1 : 2 ^ 64 ≤ D / N := (Nat.le_div_iff_mul_le hN).2 (by rw [mul_comm]; exact hD)
  generalize D / N = n at *
  generalize D % N = r at *
  have hn : (0 : ℚ) < n := by
    have : 0 < n := lt_of_lt_of_le (by norm_num) g1
    exact_mod_cast this
  have hD' : (0 : ℚ) < D := by
    have : 0 < D := lt_of_lt_of_le (by positivity) hD
    exact_mod_cast this
  have E1 : (N : ℚ) * n + r = D := by exact_mod_cast e1
  have R1 : (r : ℚ) ≤ N := by exact_mod_cast r1.le
  have G1 : (2 : ℚ) ^ 64 ≤ n := by exact_mod_cast g1
  have r0 : (0 : ℚ) ≤ r := by positivity
  have N0 : (0 : ℚ) ≤ N := by positivity
  have key : 1 / (n : ℚ) - N / D = r / (n * D) := by
    rw [div_sub_div _ _ hn.ne' hD'.ne', ← E1]; congr 1; ring
  rw [key, abs_of_nonneg (by positivity), div_mul_eq_mul_div, div_le_div_iff₀ (mul_pos hn hD') hD']
  calc (r : ℚ) * 2 ^ 64 * D ≤ N * n * D :=
        mul_le_mul_of_nonneg_right (mul_le_mul R1 G1 (by norm_num) N0) hD'.le
    _ = _ := by ring

/-- replacing `N/D` by `⌊N/D⌋` -/
theorem trunc_num {N D : Nat} (hD : 0 < D) (hN : D * 2 ^ 64 ≤ N) :
    |((N / D : Nat) : ℚ) - (N : ℚ) / D| * 2 ^ 64 ≤ (N : ℚ) / D := by
  have e1 := Nat.div_add_mod N D
  have r1 := Nat.mod_lt N hD
  generalize N / D = n at *
  generalize N % D = r at *
  have hD' : (0 : ℚ) < D := by exact_mod_cast hD
  have E1 : (D : ℚ) * n + r = N := by exact_mod_cast e1
  have R1 : (r : ℚ) ≤ D := by exact_mod_cast r1.le
  have hN' : (D : ℚ) * 2 ^ 64 ≤ N := by exact_mod_cast hN
  have r0 : (0 : ℚ) ≤ r := by positivity
  have key : (n : ℚ) - N / D = -(r / D) := by
    rw [← E1]; field_simp; ring
  rw [key, abs_neg, abs_of_nonneg (by positivity), div_mul_eq_mul_div, div_le_div_iff_of_pos_right hD']
  nlinarith

theorem mag_length_le_iff (x : Int) {k : Nat} (hk : 0 < k) :
    (ofInt x).mag.length ≤ k ↔ x.natAbs < B32 ^ k := by
  rw [BigI.mag_ofInt]; exact length_ofNat_le_iff hk

theorem mag_length_pos (x : Int) : 0 < (ofInt x).mag.length := by
  rw [BigI.mag_ofInt]; exact List.length_pos_of_ne_nil (valid_ofNat _).ne

theorem le_natAbs (x : Int) {k : Nat} (hk : 0 < k) (h : k < (ofInt x).mag.length) :
    B32 ^ k ≤ x.natAbs := by
  by_contra h2
  have := (mag_length_le_iff x hk).2 (by omega)
  omega

theorem natAbs_lt_len (x : Int) : x.natAbs < B32 ^ (ofInt x).mag.length :=
  (mag_length_le_iff x (mag_length_pos x)).1 le_rfl

/-- both components fit in `limit` limbs -/
def Fits (x : Ratio) (limit : Nat) : Prop :=
  x.denom.mag.length ≤ limit ∧ x.numer.mag.length ≤ limit

theorem num_natAbs_div_le {a b : Int} {q : ℚ} (hb : b ≠ 0) (hq : (a : ℚ) / b = q) :
    q.den ≤ b.natAbs ∧ q.num.natAbs ≤ a.natAbs := by
  subst hq
  constructor
  · exact Nat.le_of_dvd (by omega) (by
      have := Rat.den_dvd a b
      rw [← Rat.divInt_eq_div]
      exact Int.natCast_dvd.1 this)
  · by_cases ha : a = 0
    · subst ha; simp
    exact Nat.le_of_dvd (by omega) (by
      have := Rat.num_dvd a hb
      rw [← Rat.divInt_eq_div]
      exact Int.natAbs_dvd_natAbs.2 this)

theorem B32_sq (s : Nat) : B32 ^ (s + 2) = B32 ^ s * 2 ^ 64 := by
  rw [pow_add]; norm_num

theorem sign_scale {p u : ℚ} (hu : |u - (p.num.natAbs : ℚ) / p.den| * 2 ^ 64 ≤ (p.num.natAbs : ℚ) / p.den) :
    |(p.num.sign : ℚ) * u - p| * 2 ^ 64 ≤ |p| := by
  rw [abs_rat p]
  refine le_trans ?_ hu
  apply mul_le_mul_of_nonneg_right _ (by norm_num)
  have : (p.num.sign : ℚ) * u - p = p.num.sign * (u - (p.num.natAbs : ℚ) / p.den) := by
    rw [mul_sub, ← rat_sign p]
  rw [this]
  exact abs_sign_le _ _

theorem natAbs_len_pow {k : Nat} : 0 < B32 ^ k := by positivity

theorem shrinkDenom_c (p : ℚ) (limit : Nat) (hl : 3 ≤ limit)
    (h : (ofInt p.num).mag.length + 4 < (ofInt (p.den : Int)).mag.length) :
    ∃ q r, shrinkDenom (ofRat p) limit = pure (ofRat q, r) ∧
    |q - p| * 2 ^ 64 ≤ |p| ∧ (∀ n, r = .ok n → Fits (ofRat q) limit) := by
  have hl0 := mag_length_pos p.num
  have hlt := natAbs_lt_len p.num
  have hge := le_natAbs (p.den : Int) (k := (ofInt p.num).mag.length + 4) (by omega) h
  rw [Int.natAbs_natCast, pow_add] at hge
  have hn0 : p.num ≠ 0 := by
    intro h0
    have hp : p = 0 := by simpa using h0
    rw [hp] at h
    have : (ofInt ((0 : ℚ).den : Int)).mag.length ≤ 1 := (mag_length_le_iff _ one_pos).2 (by simp)
    omega
  have hN : p.num.natAbs * 2 ^ 64 ≤ p.den := by
    refine le_trans ?_ hge
    exact Nat.mul_le_mul hlt.le (by norm_num)
  have ht := trunc_den (by omega) hN
  have hq0 : 0 < p.den / p.num.natAbs :=
    Nat.div_pos (le_trans (Nat.le_mul_of_pos_right _ (by norm_num)) hN) (by omega)
  have hdiv : (p.den : Int).tdiv p.num = p.num.sign * (p.den / p.num.natAbs : Nat) := by
    have e : (p.den : Int).tdiv (p.num.natAbs : Int) = (p.den / p.num.natAbs : Nat) := by
      rw [Int.tdiv_eq_ediv_of_nonneg (by positivity)]; norm_cast
    rcases lt_or_gt_of_ne hn0 with h1 | h1
    · have : p.num = -(p.num.natAbs : Int) := by omega
      conv_lhs => rw [this, Int.tdiv_neg, e]
      rw [Int.sign_eq_neg_one_of_neg h1]; ring
    · have : p.num = (p.num.natAbs : Int) := by omega
      conv_lhs => rw [this, e]
      rw [Int.sign_eq_one_of_pos h1]; ring
  have hS := sign_scale ht
  have hone : ∀ z : Int, z.natAbs = 1 → (ofInt z).mag.length ≤ limit := fun z hz =>
    (mag_length_le_iff z (by omega)).2 (by rw [hz]; exact Nat.one_lt_pow (by omega) (by norm_num))
  rw [shrinkDenom, uSub_eq (by simp only [numer_ofRat]; omega), pure_bind, denom_ofRat, numer_ofRat,
    BigI.div_mut_c hn0, pure_bind, hdiv]
  generalize p.den / p.num.natAbs = d at *
  have fin : ∀ z : Int, z.natAbs = 1 → (z : ℚ) = p.num.sign → ∃ q r, (if (⟨ofInt d, ofInt z⟩ : Ratio).denom.mag.length > limit then
        (pure (⟨ofInt d, ofInt z⟩, .error ((ofInt p.num).mag.length - 1)) : M (Ratio × Except Nat Nat))
      else pure (⟨ofInt d, ofInt z⟩, .ok ((ofInt p.num).mag.length - 1))) = pure (ofRat q, r) ∧
      |q - p| * 2 ^ 64 ≤ |p| ∧ (∀ n, r = .ok n → Fits (ofRat q) limit) := by
    intro z hz hs
    have em : (⟨ofInt d, ofInt z⟩ : Ratio) = ofRat (p.num.sign * (1 / (d : ℚ))) := by
      apply mk_c (by omega)
      · rw [Int.gcd_def, hz]; simp
      · rw [hs]; push_cast; ring
    by_cases hc : (⟨ofInt d, ofInt z⟩ : Ratio).denom.mag.length > limit
    · rw [if_pos hc, em]; exact ⟨_, _, rfl, hS, by simp⟩
    · rw [if_neg hc]
      refine ⟨_, _, by rw [em], hS, fun n _ => ?_⟩
      rw [← em]; exact ⟨by simpa using hc, hone z hz⟩
  rw [BigI.is_neg_c]
  rcases lt_or_gt_of_ne hn0 with h1 | h1
  · have hc : decide (p.num.sign * (d : Int) < 0) = true := by
      rw [Int.sign_eq_neg_one_of_neg h1]; simp; omega
    rw [if_pos hc, Int.sign_eq_neg_one_of_neg h1]
    have := fin (-1) rfl (by rw [Int.sign_eq_neg_one_of_neg h1])
    rw [BigI.one_c, BigI.negate_c, BigI.abs_mut_c, neg_one_mul, abs_neg, abs_of_nonneg (by positivity)]
    exact this
  · have hc : ¬ decide (p.num.sign * (d : Int) < 0) = true := by
      rw [Int.sign_eq_one_of_pos h1]; simp
    rw [if_neg hc, Int.sign_eq_one_of_pos h1]
    have := fin 1 rfl (by rw [Int.sign_eq_one_of_pos h1])
    rw [BigI.one_c, one_mul]
    exact this

theorem shrinkNumer_c (p : ℚ) (limit : Nat) (hl : 3 ≤ limit)
    (h : (ofInt (p.den : Int)).mag.length + 4 < (ofInt p.num).mag.length) :
    ∃ q r, shrinkNumer (ofRat p) limit = pure (ofRat q, r) ∧
    |q - p| * 2 ^ 64 ≤ |p| ∧ (∀ n, r = .ok n → Fits (ofRat q) limit) := by
  have hl0 := mag_length_pos (p.den : Int)
  have hlt := natAbs_lt_len (p.den : Int)
  have hge := le_natAbs p.num (k := (ofInt (p.den : Int)).mag.length + 4) (by omega) h
  rw [Int.natAbs_natCast] at hlt
  rw [pow_add] at hge
  have hN : p.den * 2 ^ 64 ≤ p.num.natAbs := by
    refine le_trans ?_ hge
    exact Nat.mul_le_mul hlt.le (by norm_num)
  have ht := trunc_num p.den_pos hN
  have hS := sign_scale ht
  rw [shrinkNumer, uSub_eq (by simp only [denom_ofRat]; omega), pure_bind, denom_ofRat, numer_ofRat,
    BigI.div_mut_c (den_ne p), pure_bind, tdiv_nat]
  generalize p.num.natAbs / p.den = d at *
  have em : (⟨BigI.one, ofInt (p.num.sign * d)⟩ : Ratio) = ofRat (p.num.sign * (d : ℚ)) := by
    rw [BigI.one_c]
    apply mk_c (by omega)
    · simp
    · push_cast; simp
  rw [em]
  split_ifs with hc
  · exact ⟨_, _, rfl, hS, by simp⟩
  · refine ⟨_, _, rfl, hS, fun n _ => ?_⟩
    rw [← em, BigI.one_c]
    exact ⟨(mag_length_le_iff _ (by omega)).2 (by simpa using Nat.one_lt_pow (by omega) (by norm_num)), by simpa using hc⟩

theorem shrink_c (p : ℚ) (limit : Nat) : ∃ q r, shrink (ofRat p) limit = pure (ofRat q, r) ∧
    |q - p| * 2 ^ 64 ≤ |p| ∧ (∀ n, r = .ok n → 3 ≤ limit ∧ Fits (ofRat q) limit) ∧
    (Fits (ofRat p) limit → q = p ∧ (3 ≤ limit → r = .ok 0)) := by
  rw [shrink, denom_ofRat, numer_ofRat]
  simp only []
  by_cases h3 : limit < 3
  · rw [if_pos h3]
    exact ⟨p, _, rfl, by simp, by simp, fun _ => ⟨rfl, by omega⟩⟩
  rw [if_neg h3]
  obtain ⟨s, hs⟩ : ∃ s, shrinkAmount (ofRat p) limit = s := ⟨_, rfl⟩
  rw [hs]
  rw [shrinkAmount, denom_ofRat, numer_ofRat] at hs
  by_cases h0 : s = 0
  · rw [if_pos h0]
    refine ⟨p, _, rfl, by simp, fun n _ => ⟨by omega, ?_⟩, fun _ => ⟨rfl, fun _ => rfl⟩⟩
    unfold Fits; rw [denom_ofRat, numer_ofRat]; omega
  rw [if_neg h0]
  have hnf : ¬ Fits (ofRat p) limit := by
    intro hf; unfold Fits at hf; rw [denom_ofRat, numer_ofRat] at hf; omega
  by_cases h1 : s + 2 < (ofInt p.num).mag.length ∧ s + 2 < (ofInt (p.den : Int)).mag.length
  · rw [if_pos (by omega)]
    have hN := le_natAbs p.num (k := s + 2) (by omega) (by omega)
    have hD := le_natAbs (p.den : Int) (k := s + 2) (by omega) (by omega)
    rw [Int.natAbs_natCast] at hD
    rw [B32_sq] at hN hD
    have hb : 0 < B32 ^ s := by positivity
    have hd0 : p.den / B32 ^ s ≠ 0 := by
      have : 2 ^ 64 ≤ p.den / B32 ^ s := (Nat.le_div_iff_mul_le hb).2 (by rw [mul_comm]; exact hD)
      intro h; rw [h] at this; norm_num at this
    have ed : (p.den : Int).tdiv (B32 ^ s : Nat) = (p.den / B32 ^ s : Nat) := by
      rw [Int.tdiv_eq_ediv_of_nonneg (by positivity)]; norm_cast
    have hd0' : (p.den : Int).tdiv (B32 ^ s : Nat) ≠ 0 := by
      rw [ed]; exact_mod_cast hd0
    have h := sign_scale (trunc_both hb hN hD)
    have hv : ((p.num.tdiv (B32 ^ s : Nat) : Int) : ℚ) / (((p.den : Int).tdiv (B32 ^ s : Nat) : Int) : ℚ) =
        p.num.sign * (((p.num.natAbs / B32 ^ s : Nat) : ℚ) / (p.den / B32 ^ s : Nat)) := by
      rw [ed, tdiv_nat, Int.cast_mul, Int.cast_natCast, Int.cast_natCast, mul_div_assoc]
    have hlim : ∀ z : Int, (ofInt z).mag.length ≤ s + limit → (z.tdiv (B32 ^ s : Nat)).natAbs < B32 ^ limit := by
      intro z hz
      rw [← BigI.natAbs_tdiv', Int.natAbs_natCast]
      apply Nat.div_lt_of_lt_mul
      rw [← pow_add]
      exact (mag_length_le_iff z (by omega)).1 hz
    have hle := num_natAbs_div_le hd0' hv
    rw [BigI.shift_right_mut_c, BigI.shift_right_mut_c, fit_c hd0' hv, pure_bind]
    refine ⟨_, _, rfl, h, fun n _ => ⟨by omega, ?_⟩, fun hf => absurd hf hnf⟩
    refine ⟨?_, ?_⟩
    · rw [denom_ofRat, mag_length_le_iff _ (by omega), Int.natAbs_natCast]
      exact lt_of_le_of_lt hle.1 (hlim _ (by omega))
    · rw [numer_ofRat, mag_length_le_iff _ (by omega)]
      exact lt_of_le_of_lt hle.2 (hlim _ (by omega))
  rw [if_neg (by omega)]
  by_cases h2 : (ofInt p.num).mag.length + 4 < (ofInt (p.den : Int)).mag.length
  · rw [if_pos h2]
    obtain ⟨q, r, e1, e2, e3⟩ := shrinkDenom_c p limit (by omega) h2
    exact ⟨q, r, e1, e2, fun n hn => ⟨by omega, e3 n hn⟩, fun hf => absurd hf hnf⟩
  rw [if_neg h2]
  by_cases h4 : (ofInt (p.den : Int)).mag.length + 4 < (ofInt p.num).mag.length
  · rw [if_pos h4]
    obtain ⟨q, r, e1, e2, e3⟩ := shrinkNumer_c p limit (by omega) h4
    exact ⟨q, r, e1, e2, fun n hn => ⟨by omega, e3 n hn⟩, fun hf => absurd hf hnf⟩
  rw [if_neg h4]
  exact ⟨p, _, rfl, by simp, by simp, fun hf => absurd hf hnf⟩

end Ratio
end Hmath
