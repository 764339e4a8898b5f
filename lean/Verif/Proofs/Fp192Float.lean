import Verif.Proofs.Fp192Trunc
import Verif.Proofs.IeeeTo

/-!
# Floats and 192-bit floating point numbers
-/

namespace Hmath
namespace Ratio

section
variable {f : Fmt} {m e : Nat} (h : FmtOk f m e)
include h

/-- what `inspect` finds in a bit pattern -/
theorem inspect_c {b : Nat} (hb : b < 2 ^ (m + e + 1)) :
    (∀ q, floatVal m e b = .finite q → (q = 0 ∧ inspect f b = pure (.ok (false, -2147483648, 0))) ∨
      ∃ (s : Bool) (x : Int) (R : Nat), R < 2 ^ m ∧ -1100 ≤ x ∧ x ≤ 1100 ∧ inspect f b = pure (.ok (s, x, R)) ∧
        q = (if s then -1 else 1) * (2 ^ m + R) * 2 ^ (x - m : ℤ)) ∧
    (∀ neg, floatVal m e b = .inf neg → inspect f b = pure (.error (if neg then .negInfinity else .infinity))) ∧
    (floatVal m e b = .nan → inspect f b = pure (.error .notANumber)) := by
  obtain ⟨hb1, hb2, hb3⟩ := h.bias_le
  have hq : b / 2 ^ (m + e) < 2 := by
    rw [Nat.div_lt_iff_lt_mul (by positivity)]
    rw [pow_succ] at hb
    omega
  have hfl : b / 2 ^ m % 2 ^ e < 2 ^ e := Nat.mod_lt _ (by positivity)
  have hfr : b % 2 ^ m < 2 ^ m := Nat.mod_lt _ (by positivity)
  have hneg : ¬(b / 2 ^ m % 2 ^ e = 0 ∧ b % 2 ^ m = 0) →
      (decide (b > 2 ^ (m + e)) = decide (b / 2 ^ (m + e) % 2 = 1)) := by
    intro hz
    rw [decide_eq_decide]
    constructor
    · intro h1
      have : 1 ≤ b / 2 ^ (m + e) := by
        rw [Nat.le_div_iff_mul_le (by positivity), one_mul]; exact h1.le
      generalize b / 2 ^ (m + e) = q at *
      omega
    · intro h1
      have h2 : 2 ^ (m + e) ≤ b := by
        have : 1 ≤ b / 2 ^ (m + e) := by
          generalize b / 2 ^ (m + e) = q at *
          omega
        rw [Nat.le_div_iff_mul_le (by positivity), one_mul] at this
        exact this
      refine lt_of_le_of_ne h2 ?_
      intro h3
      apply hz
      rw [← h3]
      constructor
      · rw [pow_add, Nat.mul_div_cancel_left _ (by positivity), Nat.mod_self]
      · rw [pow_add, Nat.mul_mod_right]
  unfold inspect
  rw [h.mant, h.bits, h.expMod, h.bias, Nat.add_sub_cancel]
  rw [floatVal]
  simp only []
  generalize hF : b / 2 ^ m % 2 ^ e = F at *
  generalize hR : b % 2 ^ m = R at *
  by_cases h0 : F = 0
  · subst h0
    have hne : ¬ (0 = 2 ^ e - 1) := by omega
    rw [if_neg hne, if_pos rfl, if_pos (show ((0 : Nat) : Int) - floatBias e = -floatBias e by simp)]
    by_cases hr : R = 0
    · subst hr
      rw [if_pos rfl]
      refine ⟨fun q hq => Or.inl ⟨?_, rfl⟩, fun _ hc => (by cases hc), fun hc => (by cases hc)⟩
      injection hq with hq
      rw [← hq]; push_cast; rw [mul_zero, zero_mul]
    · rw [if_neg hr, hneg (by tauto), renorm, h.mant, h.bits, if_pos hfr]
      have hl := Nat.log2_self_le hr
      have hl2 : R < 2 ^ (Nat.log2 R + 1) := Nat.lt_log2_self
      have hlm : Nat.log2 R < m := (Nat.log2_lt hr).2 hfr
      obtain ⟨s, hs⟩ : ∃ s, m = Nat.log2 R + s := ⟨m - Nat.log2 R, by omega⟩
      have hs' : m - Nat.log2 R = s := by omega
      have h1 : 2 ^ m ≤ R * 2 ^ s := by
        calc 2 ^ m = 2 ^ Nat.log2 R * 2 ^ s := by rw [← pow_add, ← hs]
          _ ≤ _ := Nat.mul_le_mul_right _ hl
      have h2 : R * 2 ^ s < 2 ^ (m + 1) := by
        calc R * 2 ^ s < 2 ^ (Nat.log2 R + 1) * 2 ^ s := Nat.mul_lt_mul_of_pos_right hl2 (by positivity)
          _ = 2 ^ (m + 1) := by rw [← pow_add]; congr 1; omega
      have h3 : R * 2 ^ s < 2 ^ (m + e + 1) := lt_of_lt_of_le h2 (Nat.pow_le_pow_right (by omega) (by omega))
      have hm' := h.hm'
      rw [uSub_eq hlm.le, pure_bind, hs', uShl_eq (by omega), pure_bind, Nat.mod_eq_of_lt h3, uSub_eq h1,
        pure_bind, pure_bind]
      simp only []
      refine ⟨fun q hq => Or.inr ⟨_, _, _, ?_, ?_, ?_, rfl, ?_⟩, fun _ hc => (by cases hc), fun hc => (by cases hc)⟩
      · rw [pow_succ] at h2; omega
      · omega
      · omega
      · injection hq with hq
        rw [← hq, Nat.cast_sub h1]
        simp only [decide_eq_true_eq]
        push_cast
        rw [add_sub_cancel, mul_assoc, mul_assoc, mul_assoc]
        congr 2
        rw [← zpow_natCast, ← zpow_add₀ (by norm_num)]
        congr 1
        ring
  · rw [if_neg (show ¬(F : Int) - floatBias e = -floatBias e by omega)]
    by_cases hM : F = 2 ^ e - 1
    · rw [if_pos (show (F : Int) - floatBias e = floatBias e + 1 by omega), if_pos hM]
      by_cases hr : R = 0
      · rw [if_pos hr, if_pos hr, hneg (by tauto)]
        refine ⟨fun _ hc => (by cases hc), fun neg hc => ?_, fun hc => (by cases hc)⟩
        injection hc with hc
        rw [← hc]
        by_cases hn : b / 2 ^ (m + e) % 2 = 1
        · simp only [hn, decide_true, if_true]
        · simp only [hn, decide_false, if_false, Bool.false_eq_true]
      · rw [if_neg hr, if_neg hr]
        exact ⟨fun _ hc => (by cases hc), fun _ hc => (by cases hc), fun _ => rfl⟩
    · rw [if_neg (show ¬(F : Int) - floatBias e = floatBias e + 1 by omega), if_neg hM, if_neg h0, hneg (by tauto)]
      refine ⟨fun q hq => Or.inr ⟨_, _, _, hfr, ?_, ?_, rfl, ?_⟩, fun _ hc => (by cases hc), fun hc => (by cases hc)⟩
      · omega
      · omega
      · injection hq with hq
        rw [← hq]
        simp only [decide_eq_true_eq]

end
end Ratio

namespace F192

open Ratio (FmtOk)

section
variable {f : Ratio.Fmt} {m e : Nat} (h : FmtOk f m e)
include h

/-- the last step of `from_float` -/
theorem from_float_pack {s : Bool} {x : Int} {R : Nat} (hR : R < 2 ^ m) (h1 : -1100 ≤ x) (h2 : x ≤ 1100) :
    ∃ z, (do
      let d ← uShl 128 R (127 - f.mant)
      let e ← i64Chk (x + EXP_COEFF)
      let e ← uSub (asU64 e) 127
      pure (.ok ⟨d ||| signBit s, e⟩) : M (Except ConvErr F192)) = pure (.ok z) ∧
      (Nrm (R * 2 ^ (127 - m) + S127) ∧ z = mk' s (R * 2 ^ (127 - m) + S127) (x + 281474976710656 - 127).toNat) ∧ FValid z ∧
      fval z = (if s then -1 else 1) * (2 ^ m + R) * 2 ^ (x - m : ℤ) := by
  have hm' := h.hm'
  obtain ⟨k, hk⟩ : ∃ k, 127 = m + k := ⟨127 - m, by omega⟩
  have hlt : R * 2 ^ k < S127 := by
    have : S127 = 2 ^ m * 2 ^ k := by rw [← pow_add, ← hk]; norm_num
    rw [this]
    exact Nat.mul_lt_mul_of_pos_right hR (by positivity)
  have hn : Nrm (R * 2 ^ k + S127) := ⟨by omega, by omega⟩
  obtain ⟨E, hE⟩ : ∃ E : Nat, x + 281474976710656 - 127 = E := ⟨(x + 281474976710656 - 127).toNat, by omega⟩
  refine ⟨mk' s (R * 2 ^ k + S127) E, ?_, ⟨by rw [show 127 - m = k by omega]; exact hn,
    by rw [hE, Int.toNat_natCast, show 127 - m = k by omega]⟩, valid_mk hn (by omega), ?_⟩
  · rw [h.mant, show 127 - m = k by omega, uShl_eq (by omega), pure_bind,
      Nat.mod_eq_of_lt (by omega), show EXP_COEFF = 281474976710656 from rfl, i64Chk, if_pos (by push_cast; omega),
      pure_bind]
    have hu : asU64 (x + (281474976710656 : Nat)) = E + 127 := by
      unfold asU64; push_cast; omega
    rw [hu, uSub_eq (by omega), pure_bind, Nat.add_sub_cancel]
    have := pack_mk (s := s) (e := E) hn (d := R * 2 ^ k) (by omega)
    rw [show LOW_MASK = 2 ^ 127 - 1 by decide, Nat.and_two_pow_sub_one_eq_mod, Nat.mod_eq_of_lt (by omega)] at this
    rw [this]
  · rw [fval_mk hn (nz_exp (by omega)), mg_eq]
    have hu : ulp E = 2 ^ (x - 127 : ℤ) := by
      unfold ulp
      congr 1
      push_cast
      omega
    have h127 : (2 : ℚ) ^ m * 2 ^ k = 170141183460469231731687303715884105728 := by
      rw [← pow_add, ← hk]; norm_num
    have hz : (2 : ℚ) ^ (x - m : ℤ) = 2 ^ k * 2 ^ (x - 127 : ℤ) := by
      rw [← zpow_natCast, ← zpow_add₀ (by norm_num)]
      congr 1
      omega
    rw [hu, hz, sgn]
    push_cast
    rw [← h127]
    ring

/-- `from_float` -/
theorem from_float_c {b : Nat} (hb : b < 2 ^ (m + e + 1)) :
    (∀ q, floatVal m e b = .finite q → ∃ z, from_float f b = pure (.ok z) ∧ FValid z ∧ fval z = q) ∧
    (∀ neg, floatVal m e b = .inf neg → from_float f b = pure (.error (if neg then .negInfinity else .infinity))) ∧
    (floatVal m e b = .nan → from_float f b = pure (.error .notANumber)) := by
  obtain ⟨k1, k2, k3⟩ := Ratio.inspect_c h hb
  refine ⟨fun q hq => ?_, fun neg hq => ?_, fun hq => ?_⟩
  · rcases k1 q hq with ⟨rfl, hi⟩ | ⟨s, x, R, hR, h1, h2, hi, rfl⟩
    · refine ⟨ZERO, ?_, by decide, fval_zero⟩
      rw [from_float, hi, pure_bind]
      simp only []
      rw [if_pos ⟨trivial, trivial, trivial⟩]
    · obtain ⟨z, z1, -, z2⟩ := from_float_pack h (s := s) hR h1 h2
      refine ⟨z, ?_, z2⟩
      rw [from_float, hi, pure_bind]
      simp only []
      rw [if_neg (by omega)]
      exact z1
  · rw [from_float, k2 neg hq, pure_bind]
  · rw [from_float, k3 hq, pure_bind]

end

/-- a normalised float -/
theorem from_float_normal {f : Ratio.Fmt} {m e : Nat} (h : FmtOk f m e) {s : Bool} {F R : Nat} (hF0 : 0 < F) (hF : F < 2 ^ e - 1)
    (hR : R < 2 ^ m) : Nrm (R * 2 ^ (127 - m) + S127) ∧
    from_float f ((if s then 2 ^ (m + e) else 0) + F * 2 ^ m + R) =
      pure (.ok (mk' s (R * 2 ^ (127 - m) + S127) ((F : Int) - floatBias e + 281474976710656 - 127).toNat)) := by
  obtain ⟨hb1, hb2, hb3⟩ := h.bias_le
  have hlt : F * 2 ^ m + R < 2 ^ (m + e) := by
    rw [pow_add, mul_comm (2 ^ m)]
    calc F * 2 ^ m + R < F * 2 ^ m + 2 ^ m := by omega
      _ = (F + 1) * 2 ^ m := by ring
      _ ≤ _ := Nat.mul_le_mul_right _ (by omega)
  have hgt : 0 < F * 2 ^ m := by positivity
  obtain ⟨-, f2, f3⟩ := Ratio.bits_fields (m := m) (e := e) (s := s) (F := F) (R := R) (by omega) hR
  have hs : decide ((if s then 2 ^ (m + e) else 0) + F * 2 ^ m + R > 2 ^ (m + e)) = s := by
    cases s
    · rw [if_neg (by decide)]; exact decide_eq_false (by omega)
    · rw [if_pos rfl]; exact decide_eq_true (by omega)
  have hi : Ratio.inspect f ((if s then 2 ^ (m + e) else 0) + F * 2 ^ m + R) = pure (.ok (s, (F : Int) - floatBias e, R)) := by
    unfold Ratio.inspect
    rw [h.mant, h.bits, h.expMod, h.bias, Nat.add_sub_cancel, f2, f3, hs]
    dsimp only
    rw [if_neg (by omega), if_neg (by omega)]
  obtain ⟨z, z1, ⟨z2, z3⟩, -⟩ := from_float_pack h (s := s) (x := (F : Int) - floatBias e) hR (by omega) (by omega)
  refine ⟨z2, ?_⟩
  rw [from_float, hi, pure_bind]
  simp only []
  rw [if_neg (by omega), ← z3]
  exact z1

/-! ### to floats -/

/-- the mantissa without its leading bit, rounded to `m` bits -/
def fround (m M : Nat) : Nat := ((M - S127) / 2 ^ (126 - m) + 1) / 2

theorem fround_err {m M : Nat} (hm : m ≤ 126) (h : Nrm M) :
    -2 ^ (126 - m) < ((2 ^ m + fround m M : Nat) : ℚ) * 2 ^ (127 - m) - M ∧
      ((2 ^ m + fround m M : Nat) : ℚ) * 2 ^ (127 - m) - M ≤ 2 ^ (126 - m) := by
  obtain ⟨k, hk⟩ : ∃ k, 126 = m + k := ⟨126 - m, by omega⟩
  rw [show 126 - m = k by omega, show 127 - m = k + 1 by omega, fround, show 126 - m = k by omega]
  obtain ⟨d, rfl⟩ : ∃ d, M = S127 + d := ⟨M - S127, by have := h.1; omega⟩
  rw [Nat.add_sub_cancel_left]
  have hS : S127 = 2 ^ m * 2 ^ (k + 1) := by rw [← pow_add, show m + (k + 1) = 127 by omega]; norm_num
  have h1 := Nat.div_add_mod d (2 ^ k)
  have h2 := Nat.mod_lt d (show 0 < 2 ^ k by positivity)
  generalize d / 2 ^ k = q at *
  generalize d % 2 ^ k = r at *
  have h3 := Nat.div_add_mod (q + 1) 2
  have h4 := Nat.mod_lt (q + 1) (show 0 < 2 by norm_num)
  generalize (q + 1) / 2 = a at *
  generalize (q + 1) % 2 = c at *
  have g1 : (2 : ℚ) ^ k * q + r = d := by exact_mod_cast h1
  have g3 : (2 : ℚ) * a + c = q + 1 := by exact_mod_cast h3
  have g2 : (r : ℚ) < 2 ^ k := by exact_mod_cast h2
  have g2' : (0 : ℚ) ≤ r := by positivity
  have g4 : (c : ℚ) ≤ 1 := by exact_mod_cast (by omega : c ≤ 1)
  have g4' : (0 : ℚ) ≤ c := by positivity
  have gS : ((S127 : Nat) : ℚ) = 2 ^ m * 2 ^ (k + 1) := by exact_mod_cast hS
  have gp : (0 : ℚ) < 2 ^ k := by positivity
  push_cast at gS ⊢
  rw [gS, ← g1, pow_succ]
  have : (2 ^ m + (a : ℚ)) * (2 ^ k * 2) - (2 ^ m * (2 ^ k * 2) + (2 ^ k * q + r)) = 2 ^ k * (1 - c) - r := by
    have : (q : ℚ) = 2 * a + c - 1 := by linarith
    rw [this]; ring
  rw [this]
  constructor <;> nlinarith

theorem fround_le {m M : Nat} (hm : m ≤ 126) (h : Nrm M) : fround m M ≤ 2 ^ m := by
  obtain ⟨k, hk⟩ : ∃ k, 126 = m + k := ⟨126 - m, by omega⟩
  have : (M - S127) / 2 ^ (126 - m) < 2 ^ (m + 1) := by
    rw [Nat.div_lt_iff_lt_mul (by positivity), ← pow_add, show m + 1 + (126 - m) = 127 by omega]
    have := h.1; have := h.2; omega
  unfold fround
  rw [pow_succ] at this
  generalize (M - S127) / 2 ^ (126 - m) = q at *
  omega

theorem fround_exact {m R : Nat} (hm : m ≤ 126) : fround m (R * 2 ^ (127 - m) + S127) = R := by
  unfold fround
  rw [Nat.add_sub_cancel, show 127 - m = 126 - m + 1 by omega, pow_succ, mul_comm (2 ^ (126 - m)), ← mul_assoc,
    Nat.mul_div_cancel _ (by positivity)]
  omega

/-- the code's way of rounding -/
theorem floatDigits_c {s : Bool} {m M E : Nat} (hm : m ≤ 52) (h : Nrm M) :
    (mk' s M E).digits / 2 ^ (122 - m) &&& (2 ^ (m + 5) - 1) = (M - S127) / 2 ^ (122 - m) := by
  rw [Nat.and_two_pow_sub_one_eq_mod, mk_digits]
  have hlt : (M - S127) / 2 ^ (122 - m) < 2 ^ (m + 5) := by
    rw [Nat.div_lt_iff_lt_mul (by positivity), ← pow_add, show m + 5 + (122 - m) = 127 by omega]
    have := h.1; have := h.2; omega
  cases s
  · rw [dg_false, Nat.mod_eq_of_lt hlt]
  · rw [dg_true]
    have hS : S127 = 2 ^ (122 - m) * 2 ^ (m + 5) := by
      rw [← pow_add, show 122 - m + (m + 5) = 127 by omega]; norm_num
    conv_lhs => rw [hS]
    rw [Nat.mul_add_div (by positivity), ← hS, Nat.add_mod_left, Nat.mod_eq_of_lt hlt]

theorem fround_code {m M : Nat} (hm : m ≤ 52) :
    fround m M = if ((M - S127) / 2 ^ (122 - m)) % 32 > 15 then (M - S127) / 2 ^ (122 - m) / 32 + 1
      else (M - S127) / 2 ^ (122 - m) / 32 := by
  unfold fround
  rw [show 126 - m = 122 - m + 4 by omega, pow_add, ← Nat.div_div_eq_div_mul]
  generalize (M - S127) / 2 ^ (122 - m) = q
  split_ifs <;> omega

section
variable {f : Ratio.Fmt} {m e : Nat} (h : FmtOk f m e)
include h

/-- exponent field and mantissa after rounding -/
theorem to_float_c {s : Bool} {D E : Nat} (hM : Nrm D) (hE : E < 9223372036854775808) :
    ∃ (F : Int) (R : Nat), R < 2 ^ m ∧
      ((F = (E : Int) - 281474976710656 + (floatBias e + 127) ∧ R = fround m D) ∨
        (F = (E : Int) - 281474976710656 + (floatBias e + 127) + 1 ∧ R = 0 ∧ fround m D = 2 ^ m)) ∧
      to_float f (mk' s D E) = pure (if F < 0 then 0 else if F > 2 ^ e - 1 then
        (if s then 2 ^ (m + e) else 0) + (2 ^ e - 1) * 2 ^ m
        else (if s then 2 ^ (m + e) else 0) + F.toNat * 2 ^ m + R) := by
  have hm' := h.hm'
  obtain ⟨hb1, hb2, hb3⟩ := h.bias_le
  have hle := fround_le (m := m) (by omega) hM
  have hcode := fround_code (m := m) (M := D) hm'
  have hexp : expI64 (mk' s D E) = pure ((E : Int) - 281474976710656) := expI64_c hE
  have hcast : ((2 : Int) ^ e) = 2 * floatBias e + 2 := by exact_mod_cast hb3.symm
  rw [to_float]
  rw [h.mant, floatDigits_c hm' hM, hexp, pure_bind, i64Chk, if_pos (by rw [h.bias]; omega), pure_bind, floatRound,
    show (31 : Nat) = 2 ^ 5 - 1 by norm_num, Nat.and_two_pow_sub_one_eq_mod, show (2 : Nat) ^ 5 = 32 by norm_num]
  rw [h.mant, h.bias, h.bits, h.expMod, Nat.add_sub_cancel, is_neg_mk hM]
  have ht : (D - S127) / 2 ^ (122 - m) < 32 * 2 ^ m := by
    rw [Nat.div_lt_iff_lt_mul (by positivity), show 32 * 2 ^ m * 2 ^ (122 - m) = 2 ^ (5 + m + (122 - m)) by
      rw [pow_add, pow_add]; norm_num, show 5 + m + (122 - m) = 127 by omega]
    have := hM.1; have := hM.2; omega
  generalize (D - S127) / 2 ^ (122 - m) = t at *
  have fin : ∀ (F : Int) (R : Nat), R < 2 ^ m →
      (if F < 0 then pure 0 else if F > ((2 ^ e : Nat) : Int) - 1 then
        pure ((if s = true then 2 ^ (m + e) else 0) + (2 ^ e - 1) * 2 ^ m)
        else pure ((if s = true then 2 ^ (m + e) else 0) ||| (F.toNat &&& (2 ^ e - 1)) * 2 ^ m % 2 ^ (m + e + 1) |||
          R % 2 ^ (m + e + 1)) : M Nat) = pure (if F < 0 then 0 else if F > 2 ^ e - 1 then
        (if s then 2 ^ (m + e) else 0) + (2 ^ e - 1) * 2 ^ m
        else (if s then 2 ^ (m + e) else 0) + F.toNat * 2 ^ m + R) := by
    intro F R hR
    push_cast
    by_cases c1 : F < 0
    · rw [if_pos c1, if_pos c1]
    · rw [if_neg c1, if_neg c1]
      by_cases c2 : F > 2 ^ e - 1
      · rw [if_pos c2, if_pos c2]
      · rw [if_neg c2, if_neg c2]
        obtain ⟨k, rfl⟩ : ∃ k : Nat, F = k := ⟨F.toNat, by omega⟩
        have hk : k < 2 ^ e := by omega
        have hlt : k * 2 ^ m < 2 ^ (m + e) := by
          rw [pow_add, mul_comm (2 ^ m)]
          exact Nat.mul_lt_mul_of_pos_right hk (by positivity)
        have hR' : R < 2 ^ (m + e) := lt_of_lt_of_le hR (Nat.pow_le_pow_right (by omega) (by omega))
        have hpw : 2 ^ (m + e) < 2 ^ (m + e + 1) := Nat.pow_lt_pow_right (by omega) (by omega)
        rw [Int.toNat_natCast, Nat.and_two_pow_sub_one_eq_mod, Nat.mod_eq_of_lt hk,
          Nat.mod_eq_of_lt (lt_trans hlt hpw), Nat.mod_eq_of_lt (lt_trans hR' hpw), Nat.or_assoc,
          Ratio.or_sign (Nat.or_lt_two_pow hlt hR'), Ratio.or_frac hR, add_assoc]
  by_cases hr : t % 32 > 15
  · rw [if_pos hr] at hcode
    rw [if_pos hr]
    by_cases hc : t / 32 + 1 = 2 ^ m
    · rw [if_pos hc, i64Chk, if_pos (by omega), pure_bind, pure_bind]
      refine ⟨(E : Int) - 281474976710656 + (floatBias e + 127) + 1, 0, by positivity, Or.inr ⟨rfl, rfl, by omega⟩, ?_⟩
      rw [← fin _ _ (by positivity)]
    · rw [if_neg hc, pure_bind]
      refine ⟨(E : Int) - 281474976710656 + (floatBias e + 127), fround m D, by omega, Or.inl ⟨rfl, rfl⟩, ?_⟩
      rw [← fin _ _ (by omega), hcode]
  · rw [if_neg hr] at hcode
    rw [if_neg hr, pure_bind]
    have hlt : t / 32 < 2 ^ m := by omega
    refine ⟨(E : Int) - 281474976710656 + (floatBias e + 127), fround m D, by omega, Or.inl ⟨rfl, rfl⟩, ?_⟩
    rw [← fin _ _ (by omega), hcode]

end
/-- the exponent of a number is the exponent of its binade -/
theorem binade {D E : Nat} (h : Nrm D) {x : Int} (h1 : 2 ^ x ≤ mg D E) (h2 : mg D E < 2 ^ (x + 1)) :
    x = (E : Int) - 281474976710656 + 127 := by
  have a1 : (2 : ℚ) ^ ((E : Int) - 281474976710656 + 127) ≤ mg D E := by
    rw [F192.mg_eq, zpow_add₀ (by norm_num), mul_comm]
    apply mul_le_mul_of_nonneg_right _ (F192.ulp_pos E).le
    refine le_trans (le_of_eq ?_) (Nat.cast_le.2 h.1)
    norm_num
  have a2 : mg D E < (2 : ℚ) ^ ((E : Int) - 281474976710656 + 127 + 1) := by
    rw [F192.mg_eq, add_assoc, zpow_add₀ (by norm_num), mul_comm (2 ^ _)]
    apply mul_lt_mul_of_pos_right _ (F192.ulp_pos E)
    refine lt_of_lt_of_le (Nat.cast_lt.2 h.2) (le_of_eq ?_)
    norm_num
  exact Ratio.expo_unique h1 h2 a1 a2

/-- scaling the rounding error -/
theorem val_err {D E m : Nat} (hm : m ≤ 126) (h : Nrm D) {x : Int} (hx : x = (E : Int) - 281474976710656 + 127) :
    -2 ^ (x - m - 1 : ℤ) < (2 ^ m + (fround m D : ℚ)) * 2 ^ (x - m : ℤ) - mg D E ∧
      (2 ^ m + (fround m D : ℚ)) * 2 ^ (x - m : ℤ) - mg D E ≤ 2 ^ (x - m - 1 : ℤ) := by
  obtain ⟨e1, e2⟩ := fround_err hm h
  have hu : ulp E = 2 ^ (x - 127 : ℤ) := by
    rw [hx, add_sub_cancel_right]; rfl
  have hp : (0 : ℚ) < 2 ^ (x - 127 : ℤ) := by positivity
  have h1 : (2 : ℚ) ^ (x - m : ℤ) = 2 ^ (127 - m) * 2 ^ (x - 127 : ℤ) := by
    rw [← zpow_natCast, ← zpow_add₀ (by norm_num)]; exact congrArg _ (by omega)
  have h2 : (2 : ℚ) ^ (x - m - 1 : ℤ) = 2 ^ (126 - m) * 2 ^ (x - 127 : ℤ) := by
    rw [← zpow_natCast, ← zpow_add₀ (by norm_num)]; exact congrArg _ (by omega)
  have h3 : (2 ^ m + (fround m D : ℚ)) * 2 ^ (x - m : ℤ) - mg D E =
      (((2 ^ m + fround m D : Nat) : ℚ) * 2 ^ (127 - m) - D) * 2 ^ (x - 127 : ℤ) := by
    rw [h1, mg_eq, hu]; push_cast; ring
  rw [h3, h2, ← neg_mul]
  exact ⟨mul_lt_mul_of_pos_right e1 hp, mul_le_mul_of_nonneg_right e2 hp.le⟩

/-- `to_float` in terms of values: the exponent field `F` and the fraction `R` -/
theorem to_float_val {f : Ratio.Fmt} {m e : Nat} (h : FmtOk f m e) {x : F192} (hx : FValid x) (hx' : x.exp < 2 ^ 63) {E : Int}
    (h1 : 2 ^ E ≤ |fval x|) (h2 : |fval x| < 2 ^ (E + 1)) :
    ∃ (F : Int) (R : Nat), R < 2 ^ m ∧
      ((F = E + floatBias e ∧ -2 ^ (E - m - 1 : ℤ) < (2 ^ m + (R : ℚ)) * 2 ^ (E - m : ℤ) - |fval x| ∧
          (2 ^ m + (R : ℚ)) * 2 ^ (E - m : ℤ) - |fval x| ≤ 2 ^ (E - m - 1 : ℤ)) ∨
        (F = E + floatBias e + 1 ∧ R = 0 ∧ 2 ^ (E + 1) - |fval x| ≤ 2 ^ (E - m - 1 : ℤ))) ∧
      to_float f x = pure (if F < 0 then 0 else if F > 2 ^ e - 1 then
        (if decide (fval x < 0) then 2 ^ (m + e) else 0) + (2 ^ e - 1) * 2 ^ m else
        (if decide (fval x < 0) then 2 ^ (m + e) else 0) + F.toNat * 2 ^ m + R) := by
  have hm' := h.hm'
  obtain ⟨s, D, E', hD, hE1, hz, rfl, hv⟩ := mk_of_not_zero hx (fun hc => by
    rw [hc, _root_.abs_zero] at h1
    exact absurd h1 (not_le.2 (by positivity)))
  have hp := mg_pos (e := E') hD
  have hs : decide (fval (mk' s D E') < 0) = s := by
    rw [hv]
    cases s
    · rw [sgn_false, one_mul]; exact decide_eq_false (not_lt.2 hp.le)
    · rw [sgn_true, neg_one_mul]; exact decide_eq_true (neg_lt_zero.2 hp)
  have ha : |fval (mk' s D E')| = mg D E' := by rw [hv, abs_mul, abs_sgn, one_mul, abs_of_pos hp]
  rw [ha] at h1 h2
  have hb := binade hD h1 h2
  obtain ⟨F, R, hR, hF, hf⟩ := to_float_c h (s := s) hD (E := E') (by exact hx')
  obtain ⟨e1, e2⟩ := val_err (m := m) (by omega) hD hb
  refine ⟨F, R, hR, ?_, by rw [hs]; exact hf⟩
  rw [ha]
  rcases hF with ⟨r1, r2⟩ | ⟨r1, r2, r3⟩
  · left
    rw [r2]
    exact ⟨by omega, e1, e2⟩
  · right
    refine ⟨by omega, r2, ?_⟩
    rw [r3] at e2
    have : (2 ^ m + ((2 ^ m : Nat) : ℚ)) * 2 ^ (E - m : ℤ) = 2 ^ (E + 1) := by
      push_cast
      rw [← two_mul, mul_assoc, ← zpow_natCast, ← zpow_add₀ (by norm_num), ← zpow_one_add₀ (by norm_num)]
      exact congrArg _ (by omega)
    rw [this] at e2
    exact e2

end F192
end Hmath
