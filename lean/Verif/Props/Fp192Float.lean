import Verif.Proofs.Fp192Float
import Verif.Props.Fp192
import Verif.Props.Ieee

/-!
# C61: F192 and floats
-/

namespace Hmath
namespace Props

open F192 (mk' mg ulp sgn Nrm Z)

/-- Every finite float converts exactly, the others are rejected. -/
theorem C61_from_float {f m e} (h : Format f m e) {b : Nat} (hb : b < 2 ^ (m + e + 1)) :
    (∀ q, floatVal m e b = .finite q → ∃ z, F192.from_float f b = pure (.ok z) ∧ FValid z ∧ fval z = q) ∧
    (∀ neg, floatVal m e b = .inf neg → F192.from_float f b = pure (.error (if neg then .negInfinity else .infinity))) ∧
    (floatVal m e b = .nan → F192.from_float f b = pure (.error .notANumber)) := by
  cases h
  · exact F192.from_float_c Ratio.f32_ok hb
  · exact F192.from_float_c Ratio.f64_ok hb

/-- the bit patterns of `-1.25` and of the smallest subnormal number -/
example : (∃ z, F192.from_float Ratio.f32 3214934016 = pure (.ok z) ∧ FValid z ∧ fval z = -5 / 4) ∧
    ∃ z, F192.from_float Ratio.f32 1 = pure (.ok z) ∧ FValid z ∧ fval z = 1 / 2 ^ 149 := by
  refine ⟨(C61_from_float .single (b := 3214934016) (by norm_num)).1 _ ?_,
    (C61_from_float .single (b := 1) (by norm_num)).1 _ ?_⟩ <;>
  norm_num [floatVal, floatBias]

private theorem ok {f m e} (h : Format f m e) : Ratio.FmtOk f m e := by
  cases h
  · exact Ratio.f32_ok
  · exact Ratio.f64_ok

private theorem bits_lt {m e k R : Nat} {s : Bool} (hk : k < 2 ^ e) (hR : R < 2 ^ m) :
    (if s then 2 ^ (m + e) else 0) + k * 2 ^ m + R < 2 ^ (m + e + 1) := by
  have h1 : k * 2 ^ m + 2 ^ m ≤ 2 ^ (m + e) := by
    rw [pow_add, mul_comm (2 ^ m)]
    calc k * 2 ^ m + 2 ^ m = (k + 1) * 2 ^ m := by ring
      _ ≤ _ := Nat.mul_le_mul_right _ hk
  rw [pow_succ]
  split_ifs <;> omega

/-- the value of the sign bit -/
private theorem sign_err {x v : ℚ} {ε : ℚ} (h : |v - (|x|)| ≤ ε) : |(if decide (x < 0) then -1 else 1) * v - x| ≤ ε := by
  by_cases hx : x < 0
  · rw [if_pos (decide_eq_true hx)]
    rw [abs_of_neg hx] at h
    rwa [neg_one_mul, ← neg_add', abs_neg, ← sub_neg_eq_add]
  · rw [if_neg (by simpa using hx), one_mul]
    rwa [abs_of_nonneg (not_lt.1 hx)] at h

private theorem expo_of {q : ℚ} (h : 0 < q) : ∃ E : Int, 2 ^ E ≤ q ∧ q < 2 ^ (E + 1) :=
  exists_mem_Ico_zpow h (by norm_num)

private theorem zlt {a b : Int} (h : (2 : ℚ) ^ a < 2 ^ b) : a < b := (zpow_lt_zpow_iff_right₀ (by norm_num)).1 h

/-- an exponent below `2^63`, for values below `2^(2^62)` -/
private theorem exp_lt {x : F192} (hx : FValid x) {E : Int} (h1 : 2 ^ E ≤ |fval x|) (h2 : |fval x| < 2 ^ (E + 1)) (hE : E ≤ 4000) :
    x.exp < 2 ^ 63 := by
  obtain ⟨s, D, E', hD, hE1, hz, rfl, hv⟩ := F192.mk_of_not_zero hx (fun hc => by
    rw [hc, abs_zero] at h1
    exact absurd h1 (not_le.2 (by positivity)))
  rw [F192.abs_fval hD hz] at h1 h2
  have := F192.binade hD h1 h2
  show E' < 2 ^ 63
  omega

/-- In the range of normalised floats the result is off by at most half a unit. -/
theorem C61_to_float_partial {f m e} (h : Format f m e) {x : F192} (hx : FValid x) {E : Int}
    (h1 : 2 ^ E ≤ |fval x|) (h2 : |fval x| < 2 ^ (E + 1)) (hE : 1 - (floatBias e : Int) ≤ E)
    (hE' : E < floatBias e ∨ E = floatBias e ∧ |fval x| < (2 - 2 ^ (-(m : ℤ) - 1)) * 2 ^ E) :
    ∃ b v, F192.to_float f x = pure b ∧ b < 2 ^ (m + e + 1) ∧ floatVal m e b = .finite v ∧
      |v - fval x| ≤ 2 ^ (E - m - 1 : ℤ) := by
  have ho := ok h
  obtain ⟨hb1, hb2, hb3⟩ := ho.bias_le
  have hcast : ((2 : Int) ^ e) = 2 * floatBias e + 2 := by exact_mod_cast hb3.symm
  obtain ⟨F, R, hR, hF, hf⟩ := F192.to_float_val ho hx (exp_lt hx h1 h2 (by rcases hE' with h | h <;> omega)) h1 h2
  have hFb : 0 < F ∧ F < 2 ^ e - 1 := by
    rcases hF with ⟨r1, -⟩ | ⟨r1, r2, r3⟩
    · omega
    · rcases hE' with h | ⟨h3, h4⟩
      · omega
      · exfalso
        rw [sub_mul, ← zpow_add₀ (by norm_num), ← zpow_one_add₀ (by norm_num), show -(m : ℤ) - 1 + E = E - m - 1 by ring,
          add_comm 1 E] at h4
        linarith
  obtain ⟨k, rfl⟩ : ∃ k : Nat, F = k := ⟨F.toNat, by omega⟩
  rw [if_neg (by omega), if_neg (by omega), Int.toNat_natCast] at hf
  have hk : k < 2 ^ e := by omega
  refine ⟨_, (if decide (fval x < 0) then -1 else 1) * ((2 ^ m + R) * 2 ^ ((k : ℤ) - floatBias e - m : ℤ)), hf, bits_lt hk hR, ?_, ?_⟩
  · rw [Ratio.floatVal_fields hk hR, if_neg (by omega), if_neg (by omega), mul_assoc]
  · apply sign_err
    rcases hF with ⟨r1, r2, r3⟩ | ⟨r1, r2, r3⟩
    · rw [show (k : ℤ) - floatBias e - m = E - m by omega]
      exact abs_le.2 ⟨r2.le, r3⟩
    · have h1 : (2 ^ m + (R : ℚ)) * (2 : ℚ) ^ ((k : ℤ) - floatBias e - m) = 2 ^ (E + 1) := by
        rw [r2, Nat.cast_zero, add_zero, ← zpow_natCast, ← zpow_add₀ (by norm_num)]
        exact congrArg _ (by omega)
      rw [h1, abs_of_pos (by linarith)]
      exact r3

/-- `4/3` -/
example : ∃ b v, F192.to_float Ratio.f64 ⟨56713727820156410577229101238628035243, 2 ^ 48 - 127⟩ = pure b ∧
    floatVal 52 11 b = .finite v ∧ |v - fval ⟨56713727820156410577229101238628035243, 2 ^ 48 - 127⟩| ≤ 2 ^ (-53 : ℤ) := by
  have hv : fval ⟨56713727820156410577229101238628035243, 2 ^ 48 - 127⟩ = 226854911280625642308916404954512140971 / 2 ^ 127 := by
    refine (F192.fval_mk (s := false) (m := 226854911280625642308916404954512140971) (e := 281474976710656 - 127)
      ⟨by norm_num, by norm_num⟩ (F192.nz_exp (by norm_num))).trans ?_
    rw [F192.mg_coeff_sub (by norm_num), F192.sgn_false, one_mul]; norm_num
  obtain ⟨b, v, h1, -, h2, h3⟩ := C61_to_float_partial .double (x := ⟨56713727820156410577229101238628035243, 2 ^ 48 - 127⟩)
    (by decide) (E := 0) (by rw [hv, abs_of_pos (by norm_num)]; norm_num) (by rw [hv, abs_of_pos (by norm_num)]; norm_num)
    (by decide) (Or.inl (by decide))
  exact ⟨b, v, h1, h2, h3.trans (by norm_num)⟩

private instance : DecidableEq (M Nat) := inferInstanceAs (DecidableEq (Option (Except Panic Nat)))

/-- Zero. -/
theorem C61_to_float_zero {f m e} (h : Format f m e) : F192.to_float f F192.ZERO = pure 0 ∧ floatVal m e 0 = .finite 0 := by
  have ho := ok h
  obtain ⟨hb1, hb2, hb3⟩ := ho.bias_le
  constructor
  · obtain ⟨F, R, hR, hF, hf⟩ := F192.to_float_c ho (s := false) (D := 2 ^ 127) (E := 0) ⟨by norm_num, by norm_num⟩ (by norm_num)
    rw [if_pos (by omega)] at hf
    exact hf
  · cases h <;> norm_num [floatVal]

example : F192.to_float Ratio.f64 F192.ZERO = pure 0 := (C61_to_float_zero .double).1

/-- Numbers that round to the power of two above the range become infinite. -/
theorem C61_round_to_infinity {f m e} (h : Format f m e) {x : F192} (hx : FValid x)
    (h1 : (2 - 2 ^ (-(m : ℤ) - 1)) * 2 ^ (floatBias e : ℤ) ≤ |fval x|) (h2 : |fval x| < 2 ^ (floatBias e + 1 : ℤ)) :
    ∃ b, F192.to_float f x = pure b ∧ b < 2 ^ (m + e + 1) ∧ floatVal m e b = .inf (decide (fval x < 0)) := by
  have ho := ok h
  obtain ⟨hb1, hb2, hb3⟩ := ho.bias_le
  have hcast : ((2 : Int) ^ e) = 2 * floatBias e + 2 := by exact_mod_cast hb3.symm
  have hle : (2 : ℚ) ^ (floatBias e : ℤ) ≤ |fval x| := by
    refine le_trans (le_mul_of_one_le_left (by positivity) ?_) h1
    have : (2 : ℚ) ^ (-(m : ℤ) - 1) ≤ 2 ^ (0 : ℤ) := zpow_le_zpow_right₀ (by norm_num) (by omega)
    rw [zpow_zero] at this
    linarith
  obtain ⟨F, R, hR, hF, hf⟩ := F192.to_float_val ho hx (exp_lt hx hle h2 (by omega)) hle h2
  rcases hF with ⟨r1, r2, r3⟩ | ⟨r1, r2, r3⟩
  · exfalso
    have hR' : (R : ℚ) + 1 ≤ 2 ^ m := by exact_mod_cast hR
    have hp : (0 : ℚ) < 2 ^ ((floatBias e : ℤ) - m) := by positivity
    have e1 : (2 : ℚ) ^ m * 2 ^ ((floatBias e : ℤ) - m) = 2 ^ (floatBias e : ℤ) := by
      rw [← zpow_natCast, ← zpow_add₀ (by norm_num)]; exact congrArg _ (by omega)
    have e2 : (2 : ℚ) ^ ((floatBias e : ℤ) - m) = 2 * 2 ^ ((floatBias e : ℤ) - m - 1) := by
      rw [← zpow_one_add₀ (by norm_num)]; exact congrArg _ (by omega)
    rw [sub_mul, ← zpow_add₀ (by norm_num), show -(m : ℤ) - 1 + floatBias e = floatBias e - m - 1 by ring] at h1
    have := mul_le_mul_of_nonneg_right hR' hp.le
    rw [add_mul] at this r2
    linarith
  · obtain rfl : F = 2 ^ e - 1 := by omega
    rw [if_neg (by omega), if_neg (by omega)] at hf
    have ht : ((2 : Int) ^ e - 1).toNat = 2 ^ e - 1 := by
      rw [← Nat.cast_two (R := Int), ← Nat.cast_pow, ← Nat.cast_one, ← Nat.cast_sub (by omega), Int.toNat_natCast]
    rw [ht] at hf
    have hk : 2 ^ e - 1 < 2 ^ e := by omega
    exact ⟨_, hf, bits_lt hk hR, by rw [Ratio.floatVal_fields hk hR, if_pos rfl, if_pos r2]⟩

private theorem fval_pow {x : F192} (hx : x.digits = 0) {k : Int} (hk : (x.exp : Int) = k + 281474976710656 - 127) (h0 : x.exp ≠ 0) :
    fval x = 2 ^ k := by
  unfold fval
  rw [if_neg (fun h => h0 h.2), hx, if_neg (by norm_num), Nat.zero_mod, one_mul, add_zero, Nat.cast_pow, Nat.cast_ofNat,
    ← zpow_natCast, ← zpow_add₀ (by norm_num), hk]
  exact congrArg _ (by norm_num; omega)

/-- the largest value below `2^128` -/
example : ∃ b, F192.to_float Ratio.f32 ⟨2 ^ 127 - 1, 2 ^ 48⟩ = pure b ∧ floatVal 23 8 b = .inf false := by
  have hv : fval ⟨2 ^ 127 - 1, 2 ^ 48⟩ = 2 ^ 128 - 1 := by
    refine (F192.fval_mk (s := false) (m := 340282366920938463463374607431768211455) (e := 281474976710656 - 0)
      ⟨by norm_num, by norm_num⟩ (F192.nz_exp (by norm_num))).trans ?_
    rw [F192.mg_coeff_sub (by norm_num), F192.sgn_false, one_mul]; norm_num
  obtain ⟨b, h1, -, h2⟩ := C61_round_to_infinity .single (x := ⟨2 ^ 127 - 1, 2 ^ 48⟩) (by decide)
    (by rw [hv, abs_of_pos (by norm_num)]; norm_num [floatBias]) (by rw [hv, abs_of_pos (by norm_num)]; norm_num [floatBias])
  exact ⟨b, h1, by rw [h2, hv]; norm_num⟩

/-- Beyond twice the range the result is infinite. -/
theorem C61_infinity_partial {f m e} (h : Format f m e) {x : F192} (hx : FValid x) (hx' : x.exp < 2 ^ 63)
    (h1 : 2 ^ (floatBias e + 2) ≤ |fval x|) :
    ∃ b, F192.to_float f x = pure b ∧ b < 2 ^ (m + e + 1) ∧ floatVal m e b = .inf (decide (fval x < 0)) := by
  have ho := ok h
  obtain ⟨hb1, hb2, hb3⟩ := ho.bias_le
  have hcast : ((2 : Int) ^ e) = 2 * floatBias e + 2 := by exact_mod_cast hb3.symm
  obtain ⟨E, e1, e2⟩ := expo_of (lt_of_lt_of_le (by positivity) h1)
  obtain ⟨F, R, hR, hF, hf⟩ := F192.to_float_val ho hx hx' e1 e2
  rw [← zpow_natCast] at h1
  have hE := zlt (lt_of_le_of_lt h1 e2)
  push_cast at hE
  rw [if_neg (by omega), if_pos (by omega)] at hf
  have hk : 2 ^ e - 1 < 2 ^ e := by omega
  have h0 : 0 < 2 ^ m := by positivity
  have := Ratio.floatVal_fields (s := decide (fval x < 0)) hk h0
  have hl := bits_lt (s := decide (fval x < 0)) hk h0
  rw [add_zero] at this hl
  exact ⟨_, hf, hl, by rw [this, if_pos rfl, if_pos rfl]⟩

example : ∃ b, F192.to_float Ratio.f32 ⟨0, 2 ^ 48 + 73⟩ = pure b ∧ floatVal 23 8 b = .inf false := by
  have hv : fval ⟨0, 2 ^ 48 + 73⟩ = 2 ^ (200 : ℤ) := fval_pow rfl (by norm_num) (by norm_num)
  obtain ⟨b, h1, -, h2⟩ := C61_infinity_partial .single (x := ⟨0, 2 ^ 48 + 73⟩) (by decide) (by norm_num)
    (by rw [hv, abs_of_pos (by positivity)]; norm_num [floatBias])
  refine ⟨b, h1, ?_⟩
  rw [h2, hv, decide_eq_false (not_lt.2 (by positivity))]

/-- The restriction on the exponent is needed: the largest number converts to zero, `2^(2^63 - 2^48 + 127)` panics. -/
theorem C61_infinity_counterexample : F192.to_float Ratio.f32 F192.MAX = pure 0 ∧ F192.to_float Ratio.f64 F192.MAX = pure 0 ∧
    Panics (F192.to_float Ratio.f32 ⟨0, 2 ^ 63⟩) ∧ Panics (F192.to_float Ratio.f64 ⟨0, 2 ^ 63⟩) := by
  refine ⟨by decide +kernel, by decide +kernel, ⟨.overflow, by decide +kernel⟩, ⟨.overflow, by decide +kernel⟩⟩

/-- In between the result is infinite or not a number. -/
theorem C61_overflow_partial {f m e} (h : Format f m e) {x : F192} (hx : FValid x)
    (h1 : 2 ^ (floatBias e + 1 : ℤ) ≤ |fval x|) (h2 : |fval x| < 2 ^ (floatBias e + 2 : ℤ)) :
    ∃ b, F192.to_float f x = pure b ∧ b < 2 ^ (m + e + 1) ∧
      (floatVal m e b = .inf (decide (fval x < 0)) ∨ floatVal m e b = .nan) := by
  have ho := ok h
  obtain ⟨hb1, hb2, hb3⟩ := ho.bias_le
  have hcast : ((2 : Int) ^ e) = 2 * floatBias e + 2 := by exact_mod_cast hb3.symm
  rw [show (floatBias e + 2 : ℤ) = floatBias e + 1 + 1 by ring] at h2
  obtain ⟨F, R, hR, hF, hf⟩ := F192.to_float_val ho hx (exp_lt hx h1 h2 (by omega)) h1 h2
  have hk : 2 ^ e - 1 < 2 ^ e := by omega
  rcases hF with ⟨r1, -⟩ | ⟨r1, r2, -⟩
  · obtain rfl : F = 2 ^ e - 1 := by omega
    rw [if_neg (by omega), if_neg (by omega)] at hf
    have ht : ((2 : Int) ^ e - 1).toNat = 2 ^ e - 1 := by
      rw [← Nat.cast_two (R := Int), ← Nat.cast_pow, ← Nat.cast_one, ← Nat.cast_sub (by omega), Int.toNat_natCast]
    rw [ht] at hf
    refine ⟨_, hf, bits_lt hk hR, ?_⟩
    rw [Ratio.floatVal_fields hk hR, if_pos rfl]
    split_ifs
    · exact Or.inl rfl
    · exact Or.inr rfl
  · rw [if_neg (by omega), if_pos (by omega)] at hf
    have h0 : 0 < 2 ^ m := by positivity
    have := Ratio.floatVal_fields (s := decide (fval x < 0)) hk h0
    have hl := bits_lt (s := decide (fval x < 0)) hk h0
    rw [add_zero] at this hl
    exact ⟨_, hf, hl, by rw [this, if_pos rfl, if_pos rfl]; exact Or.inl rfl⟩

/-- `1.5 · 2^128` and `-1.5 · 2^1024` are converted to a NaN. -/
theorem C61_overflow_counterexample :
    fval ⟨2 ^ 126, 2 ^ 48 + 1⟩ = 3 * 2 ^ 127 ∧ F192.to_float Ratio.f32 ⟨2 ^ 126, 2 ^ 48 + 1⟩ = pure 2143289344 ∧
      floatVal 23 8 2143289344 = .nan ∧
    (fval ⟨2 ^ 127 + 2 ^ 126, 2 ^ 48 + 897⟩ < 0 ∧ F192.to_float Ratio.f64 ⟨2 ^ 127 + 2 ^ 126, 2 ^ 48 + 897⟩ = pure 18444492273895866368 ∧
      floatVal 52 11 18444492273895866368 = .nan) := by
  refine ⟨?_, by decide +kernel, by norm_num [floatVal], ?_, by decide +kernel, by norm_num [floatVal]⟩
  · norm_num [fval]
  · unfold fval
    rw [if_neg (by norm_num), if_pos (by norm_num), neg_one_mul, neg_mul]
    exact neg_lt_zero.2 (by positivity)

example : ∃ b, F192.to_float Ratio.f32 ⟨2 ^ 126, 2 ^ 48 + 1⟩ = pure b ∧
    (floatVal 23 8 b = .inf (decide (fval ⟨2 ^ 126, 2 ^ 48 + 1⟩ < 0)) ∨ floatVal 23 8 b = .nan) := by
  have hv := C61_overflow_counterexample.1
  obtain ⟨b, h1, -, h2⟩ := C61_overflow_partial .single (x := ⟨2 ^ 126, 2 ^ 48 + 1⟩) (by decide)
    (by rw [hv, abs_of_pos (by norm_num)]; norm_num [floatBias]) (by rw [hv, abs_of_pos (by norm_num)]; norm_num [floatBias])
  exact ⟨b, h1, h2⟩

/-- Below the normal range the error is bounded by half the smallest normal number (the nearest float would be
`2^m` times closer). -/
theorem C61_small_partial {f m e} (h : Format f m e) {x : F192} (hx : FValid x) (h1 : |fval x| < 2 ^ (1 - floatBias e : ℤ)) :
    ∃ b v, F192.to_float f x = pure b ∧ b < 2 ^ (m + e + 1) ∧ floatVal m e b = .finite v ∧
      |v - fval x| ≤ 2 ^ (-floatBias e : ℤ) + 2 ^ (-floatBias e - m - 1 : ℤ) := by
  have ho := ok h
  obtain ⟨hb1, hb2, hb3⟩ := ho.bias_le
  have hcast : ((2 : Int) ^ e) = 2 * floatBias e + 2 := by exact_mod_cast hb3.symm
  have hpos : (0 : ℚ) < 2 ^ (-floatBias e - m - 1 : ℤ) := by positivity
  have hpos' : (0 : ℚ) < 2 ^ (-floatBias e : ℤ) := by positivity
  have hzero : floatVal m e 0 = .finite 0 := (C61_to_float_zero h).2
  by_cases h0 : fval x = 0
  · obtain rfl : x = F192.ZERO := by
      by_contra hc
      obtain ⟨d, n⟩ := x
      have hne : ¬(d = 0 ∧ n = 0) := fun ⟨p, q⟩ => hc (by rw [p, q]; rfl)
      unfold fval at h0
      rw [if_neg hne] at h0
      refine absurd h0 (mul_ne_zero (mul_ne_zero ?_ ?_) (by positivity))
      · split_ifs <;> norm_num
      · exact Nat.cast_ne_zero.2 (by positivity)
    refine ⟨0, 0, (C61_to_float_zero h).1, by positivity, hzero, ?_⟩
    rw [h0, sub_zero, abs_zero]
    positivity
  obtain ⟨E, e1, e2⟩ := expo_of (abs_pos.2 h0)
  have hE := zlt (lt_of_le_of_lt e1 h1)
  obtain ⟨F, R, hR, hF, hf⟩ := F192.to_float_val ho hx (exp_lt hx e1 e2 (by omega)) e1 e2
  by_cases hF0 : F < 0
  · rw [if_pos hF0] at hf
    refine ⟨0, 0, hf, by positivity, hzero, ?_⟩
    rw [zero_sub, abs_neg]
    have : (2 : ℚ) ^ (E + 1) ≤ 2 ^ (-floatBias e : ℤ) := zpow_le_zpow_right₀ (by norm_num) (by omega)
    linarith
  rw [if_neg hF0, if_neg (by omega)] at hf
  obtain ⟨k, rfl⟩ : ∃ k : Nat, F = k := ⟨F.toNat, by omega⟩
  rw [Int.toNat_natCast] at hf
  have hk : k < 2 ^ e := by omega
  by_cases hk0 : k = 0
  · subst hk0
    refine ⟨_, (if decide (fval x < 0) then -1 else 1) * (R * 2 ^ (1 - (floatBias e : ℤ) - m : ℤ)), hf, bits_lt hk hR, ?_, ?_⟩
    · rw [Ratio.floatVal_fields hk hR, if_neg (by omega), if_pos rfl, mul_assoc]
    · apply sign_err
      rcases hF with ⟨r1, r2, r3⟩ | ⟨r1, r2, r3⟩
      · obtain rfl : E = -floatBias e := by push_cast at r1; omega
        have hR' : (R : ℚ) ≤ 2 ^ m := by exact_mod_cast hR.le
        have a1 : (2 : ℚ) ^ (1 - (floatBias e : ℤ) - m) = 2 * 2 ^ (-(floatBias e : ℤ) - m) := by
          rw [← zpow_one_add₀ (by norm_num)]; exact congrArg _ (by omega)
        have a2 : (2 : ℚ) ^ m * 2 ^ (-(floatBias e : ℤ) - m) = 2 ^ (-(floatBias e : ℤ)) := by
          rw [← zpow_natCast, ← zpow_add₀ (by norm_num)]; exact congrArg _ (by omega)
        have hp : (0 : ℚ) < 2 ^ (-(floatBias e : ℤ) - m) := by positivity
        have a3 := mul_le_mul_of_nonneg_right hR' hp.le
        have a4 : (0 : ℚ) ≤ R * 2 ^ (-(floatBias e : ℤ) - m) := by positivity
        rw [add_mul] at r2 r3
        rw [a1, abs_le]
        constructor <;> linarith
      · rw [r2, Nat.cast_zero, zero_mul, zero_sub, abs_neg, abs_abs]
        have : (2 : ℚ) ^ (E + 1) ≤ 2 ^ (-floatBias e : ℤ) := zpow_le_zpow_right₀ (by norm_num) (by push_cast at r1; omega)
        linarith
  · rcases hF with ⟨r1, -⟩ | ⟨r1, r2, r3⟩
    · omega
    obtain rfl : k = 1 := by omega
    refine ⟨_, (if decide (fval x < 0) then -1 else 1) * 2 ^ (E + 1), hf, bits_lt hk hR, ?_, ?_⟩
    · rw [Ratio.floatVal_fields hk hR, if_neg (by omega), if_neg (by omega), r2, Nat.cast_zero, add_zero, mul_assoc,
        ← zpow_natCast, ← zpow_add₀ (by norm_num), show (m : ℤ) + (((1 : Nat) : ℤ) - floatBias e - m) = E + 1 by push_cast; omega]
    · apply sign_err
      rw [abs_of_pos (by linarith)]
      rw [show E - m - 1 = -(floatBias e : ℤ) - m - 1 by omega] at r3
      linarith

/-- `2^-127` is a single precision number, but it is converted to zero. -/
theorem C61_small_counterexample : fval ⟨0, 2 ^ 48 - 254⟩ = 2 ^ (-127 : ℤ) ∧ floatVal 23 8 4194304 = .finite (2 ^ (-127 : ℤ)) ∧
    F192.to_float Ratio.f32 ⟨0, 2 ^ 48 - 254⟩ = pure 0 := by
  refine ⟨fval_pow rfl (by norm_num) (by norm_num), ?_, by decide +kernel⟩
  norm_num [floatVal, floatBias]

example : ∃ b v, F192.to_float Ratio.f32 ⟨0, 2 ^ 48 - 254⟩ = pure b ∧ floatVal 23 8 b = .finite v ∧
    |v - fval ⟨0, 2 ^ 48 - 254⟩| ≤ 2 ^ (-127 : ℤ) + 2 ^ (-151 : ℤ) := by
  have hv := C61_small_counterexample.1
  obtain ⟨b, v, h1, -, h2, h3⟩ := C61_small_partial .single (x := ⟨0, 2 ^ 48 - 254⟩) (by decide)
    (by rw [hv, abs_of_pos (by positivity)]; norm_num [floatBias])
  exact ⟨b, v, h1, h2, h3⟩

/-- Converting a normalised float and back gives the same bits. -/
theorem C61_round_trip {f m e} (h : Format f m e) {b : Nat} (hb : b < 2 ^ (m + e + 1)) {q : ℚ}
    (hq : floatVal m e b = .finite q) (hn : 2 ^ (1 - floatBias e : ℤ) ≤ |q|) :
    ∃ z, F192.from_float f b = pure (.ok z) ∧ F192.to_float f z = pure b := by
  have ho := ok h
  obtain ⟨hb1, hb2, hb3⟩ := ho.bias_le
  have hm' := ho.hm'
  have hcast : ((2 : Int) ^ e) = 2 * floatBias e + 2 := by exact_mod_cast hb3.symm
  obtain ⟨s, F, R, hF, hR, rfl⟩ : ∃ (s : Bool) (F R : Nat), F < 2 ^ e ∧ R < 2 ^ m ∧
      b = (if s then 2 ^ (m + e) else 0) + F * 2 ^ m + R := by
    have h1 := Nat.div_add_mod b (2 ^ m)
    have h2 := Nat.div_add_mod (b / 2 ^ m) (2 ^ e)
    have h3 : b / 2 ^ m / 2 ^ e < 2 := by
      rw [Nat.div_div_eq_div_mul, ← pow_add]
      exact Nat.div_lt_of_lt_mul (by rw [← pow_succ]; exact hb)
    have h5 : b / 2 ^ m / 2 ^ e = 0 ∨ b / 2 ^ m / 2 ^ e = 1 := by
      generalize b / 2 ^ m / 2 ^ e = t at h3
      omega
    refine ⟨decide (b / 2 ^ m / 2 ^ e = 1), b / 2 ^ m % 2 ^ e, b % 2 ^ m, Nat.mod_lt _ (by positivity),
      Nat.mod_lt _ (by positivity), ?_⟩
    have h4 : (if decide (b / 2 ^ m / 2 ^ e = 1) then 2 ^ (m + e) else 0) = 2 ^ m * (2 ^ e * (b / 2 ^ m / 2 ^ e)) := by
      rcases h5 with h | h <;> rw [h]
      · rw [if_neg (by decide), mul_zero, mul_zero]
      · rw [if_pos (by decide), mul_one, pow_add]
    rw [h4, mul_comm (b / 2 ^ m % 2 ^ e), ← mul_add, h2, h1]
  rw [Ratio.floatVal_fields hF hR] at hq
  by_cases c1 : F = 2 ^ e - 1
  · rw [if_pos c1] at hq
    split_ifs at hq
  rw [if_neg c1] at hq
  by_cases c3 : F = 0
  · exfalso
    rw [if_pos c3] at hq
    obtain rfl := Float'.finite.inj hq
    have hR' : (R : ℚ) < 2 ^ m := by exact_mod_cast hR
    have hp : (0 : ℚ) < 2 ^ (1 - (floatBias e : ℤ) - m) := by positivity
    have a2 : (2 : ℚ) ^ m * 2 ^ (1 - (floatBias e : ℤ) - m) = 2 ^ (1 - (floatBias e : ℤ)) := by
      rw [← zpow_natCast, ← zpow_add₀ (by norm_num)]; exact congrArg _ (by omega)
    have a3 : |(if s = true then (-1 : ℚ) else 1) * R * 2 ^ (1 - (floatBias e : ℤ) - m)| = R * 2 ^ (1 - (floatBias e : ℤ) - m) := by
      rw [abs_mul, abs_mul, abs_of_pos hp, abs_of_nonneg (Nat.cast_nonneg (α := ℚ) R)]
      cases s <;> norm_num
    rw [a3, ← a2] at hn
    exact absurd (lt_of_mul_lt_mul_right (lt_of_le_of_lt hn (mul_lt_mul_of_pos_right hR' hp)) hp.le) (lt_irrefl _)
  · obtain ⟨hN, hz⟩ := F192.from_float_normal ho (s := s) (F := F) (R := R) (by omega) (by omega) hR
    refine ⟨_, hz, ?_⟩
    obtain ⟨F', R', hR', hF', hf⟩ := F192.to_float_c ho (s := s) hN
      (E := ((F : Int) - floatBias e + 281474976710656 - 127).toNat) (by omega)
    rw [F192.fround_exact (by omega)] at hF'
    rcases hF' with ⟨r1, r2⟩ | ⟨r1, r2, r3⟩
    · rw [hf, r2, show F' = F by omega, if_neg (by omega), if_neg (by omega), Int.toNat_natCast]
    · omega

/-- the bit pattern of `-1.25` -/
example : ∃ z, F192.from_float Ratio.f32 3214934016 = pure (.ok z) ∧ F192.to_float Ratio.f32 z = pure 3214934016 :=
  C61_round_trip .single (by norm_num) (q := -5 / 4) (by norm_num [floatVal, floatBias])
    (by rw [abs_of_neg (by norm_num)]; norm_num [floatBias])

end Props
end Hmath
