import Verif.Proofs.Fp192Small
import Verif.Proofs.IeeeTo

/-!
# 192-bit floating point numbers: conversion from and to rationals, subtraction
-/

namespace Hmath
namespace F192

scoped notation "Q127" => (170141183460469231731687303715884105728 : ℚ)
scoped notation "Q128" => (340282366920938463463374607431768211456 : ℚ)

theorem rfrom_u128 {n : Nat} (h : n < B128) : Ratio.from_u128 n = ofRat n := by
  rw [Ratio.from_u128, UBig.from_u128_eq h, BigI.from_ubi_nat, Ratio.from_bi_c]
  norm_cast

theorem ulp_succ (e : Nat) : ulp (e + 1) = ulp e * 2 := by rw [ulp_add, pow_one]
theorem ulp_lt_iff {e f : Nat} : ulp e < ulp f ↔ e < f := by
  unfold ulp
  rw [zpow_lt_zpow_iff_right₀ (by norm_num)]
  omega

theorem scaleUp_c {p : ℚ} (hp : Q127 * ulp 0 ≤ p) : ∀ (e : Nat) (n : ℚ), n * ulp e = p → 0 < n →
    ∃ n' e', scaleUp (ofRat Q127) (ofRat n) e = pure (ofRat n', e') ∧ n' * ulp e' = p ∧ Q127 ≤ n' ∧ e' ≤ e := by
  intro e
  induction e with
  | zero =>
    intro n h h0
    have : Q127 ≤ n := by
      rw [← h] at hp
      exact le_of_mul_le_mul_right hp (ulp_pos 0)
    refine ⟨n, 0, ?_, h, this, le_refl _⟩
    rw [scaleUp, Ratio.lt_c, pure_bind, decide_eq_false (not_lt.2 this)]
    rfl
  | succ e ih =>
    intro n h h0
    rw [scaleUp, Ratio.lt_c, pure_bind]
    by_cases hn : n < Q127
    · rw [decide_eq_true hn, if_pos rfl, Ratio.mul_i32_mut_c n (by unfold IsI32; omega) (by norm_num), pure_bind,
        uSub_eq (by omega), pure_bind]
      obtain ⟨n', e', a1, a2, a3, a4⟩ := ih (n * ((2 : Int) : ℚ)) (by rw [← h, ulp_succ]; push_cast; ring) (by
        push_cast; linarith)
      exact ⟨n', e', a1, a2, a3, by omega⟩
    · refine ⟨n, e + 1, ?_, h, not_lt.1 hn, le_refl _⟩
      rw [decide_eq_false hn]
      rfl

theorem scaleDown_c {p : ℚ} (hp : p < Q128 * ulp 18446744073709551615) : ∀ (k e : Nat) (n : ℚ), n * ulp e = p →
    Q127 ≤ n → e + k = 18446744073709551615 →
    ∃ n' e', scaleDown (ofRat Q128) (ofRat n) e = pure (ofRat n', e') ∧ n' * ulp e' = p ∧ Q127 ≤ n' ∧ n' < Q128 ∧
      e ≤ e' ∧ e' < B64 := by
  intro k
  induction k with
  | zero =>
    intro e n h h0 he
    have : n < Q128 := by
      rw [← h, show e = 18446744073709551615 by omega] at hp
      exact lt_of_mul_lt_mul_right hp (le_of_lt (ulp_pos _))
    refine ⟨n, e, ?_, h, h0, this, le_refl _, by omega⟩
    rw [scaleDown, Ratio.geq_c, pure_bind, decide_eq_false (not_le.2 this)]
    rfl
  | succ k ih =>
    intro e n h h0 he
    rw [scaleDown, Ratio.geq_c, pure_bind]
    by_cases hn : Q128 ≤ n
    · rw [decide_eq_true hn, if_pos rfl, Ratio.div_i32_mut_c n (by unfold IsI32; omega) (by norm_num) (by norm_num),
        pure_bind, u64Add, uAdd_eq (by omega), pure_bind]
      obtain ⟨n', e', a1, a2, a3, a4, a5, a6⟩ := ih (e + 1) (n / ((2 : Int) : ℚ)) (by
        rw [← h, ulp_succ]; push_cast; ring) (by push_cast; linarith) (by omega)
      exact ⟨n', e', a1, a2, a3, a4, by omega, a6⟩
    · refine ⟨n, e, ?_, h, h0, not_le.1 hn, le_refl _, by omega⟩
      rw [decide_eq_false hn]
      rfl

theorem qtrunc_floor {q : ℚ} (h : 0 ≤ q) : Ratio.qtrunc q = ⌊q⌋ := Ratio.qtrunc_nonneg q h

theorem bto_u32 {z : Int} (h0 : 0 ≤ z) (h : z < 4294967296) : BigI.to_u32 (ofInt z) = pure (.ok z) := by
  rw [BigI.to_u32, BigI.to_i64_c, if_pos ⟨by omega, by omega⟩, pure_bind, UBig.tryInto, if_pos ⟨h0, by omega⟩]

theorem bto_u128 {z : Int} (h0 : 0 ≤ z) (h : z < B128) : BigI.to_u128 (ofInt z) = pure (.ok z) := by
  rw [BigI.to_u128, BigI.is_neg, BigI.neg_ofInt, BigI.mag_ofInt, UBig.to_u128_c, pure_bind,
    if_neg (by simpa using h0), if_pos (by omega)]
  exact congrArg (fun x => pure (Except.ok x)) (by omega)

theorem ratioRem_c {n : ℚ} (h0 : 0 ≤ n) (h : n < Q128) : ratioRem (ofRat n) = pure (⌊n * 32⌋ % 32) := by
  have h1 : (0 : ℚ) ≤ n * ((32 : Int) : ℚ) := by push_cast; linarith
  have h2 : 0 ≤ ⌊n * ((32 : Int) : ℚ)⌋ := Int.floor_nonneg.2 h1
  have h3 : ⌊n * ((32 : Int) : ℚ)⌋ < 2 ^ 160 := by
    rw [Int.floor_lt]; push_cast; linarith
  rw [ratioRem, Ratio.mul_i32_c n (by unfold IsI32; omega) (by norm_num), pure_bind, Ratio.truncate_bi_c, pure_bind,
    qtrunc_floor h1, BigI.rem_i32_c (by unfold IsI32; omega) (by norm_num) (by norm_num), pure_bind, Int.tmod_eq_emod_of_nonneg h2,
    bto_u32 (by omega) (by omega), pure_bind]
  · push_cast; rfl
  · rw [BigI.mag_ofInt]
    exact le_trans ((length_ofNat_le_iff (k := 5) (by norm_num)).2 (by omega)) (by norm_num)

theorem ratioDigits_c {n : ℚ} (h0 : Q127 ≤ n) (h : n < Q128) :
    ratioDigits (ofRat n) (ofRat Q127) = pure (⌊n⌋ - S127).toNat := by
  have h1 : (0 : ℚ) ≤ n - Q127 := by linarith
  have h2 : S127 ≤ ⌊n⌋ := by rw [Int.le_floor]; push_cast; exact h0
  have h3 : ⌊n⌋ < B128 := by rw [Int.floor_lt]; push_cast; exact h
  have h4 : ⌊n - Q127⌋ = ⌊n⌋ - S127 := by
    have := Int.floor_sub_intCast n S127
    rw [← this]; norm_num
  rw [ratioDigits, Ratio.sub_mut_c, pure_bind, Ratio.truncate_bi_c, pure_bind, qtrunc_floor h1, h4,
    bto_u128 (by omega) (by omega), pure_bind, unwrapR, pure_bind]

/-- rounding to the nearest integer, halves up -/
theorem rem_half {n : ℚ} : (⌊n * 32⌋ % 32 > 15) ↔ ⌊n + 1 / 2⌋ = ⌊n⌋ + 1 := by
  have a1 := Int.floor_le n
  have a2 := Int.lt_floor_add_one n
  generalize hz : ⌊n⌋ = z at *
  have b1 := Int.floor_le (n * 32)
  have b2 := Int.lt_floor_add_one (n * 32)
  generalize ⌊n * 32⌋ = w at *
  have c1 : z * 32 ≤ w := by
    have : ((z * 32 : Int) : ℚ) < ((w + 1 : Int) : ℚ) := by push_cast; linarith
    have : z * 32 < w + 1 := by exact_mod_cast this
    omega
  have c2 : w < z * 32 + 32 := by
    have : ((w : Int) : ℚ) < ((z * 32 + 32 : Int) : ℚ) := by push_cast; linarith
    exact_mod_cast this
  rw [Int.floor_eq_iff]
  constructor
  · intro h
    have : z * 32 + 16 ≤ w := by omega
    have : ((z * 32 + 16 : Int) : ℚ) ≤ w := by exact_mod_cast this
    push_cast at this ⊢
    constructor <;> linarith
  · rintro ⟨h, -⟩
    push_cast at h
    have : ((z * 32 + 15 : Int) : ℚ) < w := by push_cast; linarith
    have : z * 32 + 15 < w := by exact_mod_cast this
    omega

theorem rem_half' {n : ℚ} (h : ¬⌊n * 32⌋ % 32 > 15) : ⌊n + 1 / 2⌋ = ⌊n⌋ := by
  rw [rem_half] at h
  have a1 := Int.floor_le n
  have a2 := Int.lt_floor_add_one n
  have h1 : ⌊n⌋ ≤ ⌊n + 1 / 2⌋ := Int.floor_mono (by linarith)
  have h2 : ⌊n + 1 / 2⌋ < ⌊n⌋ + 2 := by rw [Int.floor_lt]; push_cast; linarith
  omega

theorem round_bounds {n : ℚ} (h0 : Q127 ≤ n) (h : n < Q128) : S127 ≤ ⌊n + 1 / 2⌋ ∧ ⌊n + 1 / 2⌋ ≤ B128 := by
  constructor
  · rw [Int.le_floor]; push_cast; linarith
  · have : ⌊n + 1 / 2⌋ < B128 + 1 := by rw [Int.floor_lt]; push_cast; linarith
    omega

theorem ratioRound_c {n : ℚ} {e : Nat} (h0 : Q127 ≤ n) (h : n < Q128) :
    ratioRound (⌊n * 32⌋ % 32) (⌊n⌋ - S127).toNat e = pure ((⌊n + 1 / 2⌋ - S127).toNat, e) := by
  have h2 : S127 ≤ ⌊n⌋ := by rw [Int.le_floor]; push_cast; exact h0
  have h3 : ⌊n⌋ < B128 := by rw [Int.floor_lt]; push_cast; exact h
  rw [ratioRound]
  by_cases hr : ⌊n * 32⌋ % 32 > 15
  · rw [if_pos hr, if_pos (by omega), u128Add, uAdd_eq (by omega), pure_bind, rem_half.1 hr]
    have : (⌊n⌋ - S127).toNat + 1 = (⌊n⌋ + 1 - S127).toNat := by omega
    rw [this]
  · rw [if_neg hr, rem_half' hr]

/-- the number `from_ratio` returns for `± n * ulp e` -/
def roundMk (s : Bool) (n : ℚ) (e : Nat) : F192 :=
  if ⌊n + 1 / 2⌋ = B128 then mk' true S127 e else mk' s ⌊n + 1 / 2⌋.toNat e

theorem pack_round {s : Bool} {n : ℚ} {e : Nat} (h0 : Q127 ≤ n) (h : n < Q128) :
    (⟨(⌊n + 1 / 2⌋ - S127).toNat ||| signBit s, e⟩ : F192) = roundMk s n e := by
  obtain ⟨h1, h2⟩ := round_bounds h0 h
  rw [roundMk]
  generalize ⌊n + 1 / 2⌋ = z at *
  by_cases hc : z = B128
  · rw [if_pos hc, hc]
    have : ((B128 : Int) - S127).toNat ||| signBit s = dg true S127 := by cases s <;> decide
    rw [this]; rfl
  · rw [if_neg hc]
    have hn : Nrm z.toNat := ⟨by omega, by omega⟩
    have hz : (z - S127).toNat = z.toNat - S127 := by omega
    rw [hz, ← pack_mk (s := s) (e := e) hn (d := z.toNat - S127) (by have := hn.1; have := hn.2; omega)]
    have : z.toNat - S127 &&& LOW_MASK = z.toNat - S127 := by
      rw [show LOW_MASK = 2 ^ 127 - 1 by decide, Nat.and_two_pow_sub_one_eq_mod]
      exact Nat.mod_eq_of_lt (by omega)
    rw [this]

theorem from_ratio_c {q : ℚ} (h0 : q ≠ 0) (hlo : Q127 * ulp 0 ≤ |q|) (hhi : |q| < Q128 * ulp 18446744073709551615) :
    ∃ n e, Q127 ≤ n ∧ n < Q128 ∧ e < B64 ∧ |q| = n * ulp e ∧
      from_ratio (ofRat q) = pure (roundMk (decide (q < 0)) n e) := by
  have hS : Ratio.from_u128 SIGN_MASK = ofRat Q127 := by
    rw [SIGN_MASK, rfrom_u128 (by norm_num)]; norm_num
  obtain ⟨n1, e1, a1, a2, a3, a4⟩ := scaleUp_c hlo 281474976710656 |q| (by rw [ulp_coeff, mul_one]) (abs_pos.2 h0)
  obtain ⟨n, e, b1, b2, b3, b4, b5, b6⟩ := scaleDown_c hhi (18446744073709551615 - e1) e1 n1 a2 a3 (by omega)
  refine ⟨n, e, b3, b4, b6, b2.symm, ?_⟩
  rw [from_ratio, Ratio.is_zero_c, if_neg (by simpa using h0), hS, Ratio.abs_c]
  dsimp only
  rw [Ratio.mul_i32_c _ (by unfold IsI32; omega) (by norm_num), pure_bind,
    show Q127 * ((2 : Int) : ℚ) = Q128 by norm_num, show EXP_COEFF = 281474976710656 from rfl, a1, pure_bind]
  dsimp only
  rw [b1, pure_bind]
  dsimp only
  rw [ratioRem_c (by linarith) b4, pure_bind, ratioDigits_c b3 b4, pure_bind, ratioRound_c b3 b4, pure_bind,
    Ratio.is_neg_c]
  dsimp only
  rw [pack_round b3 b4]

/-! ### to rationals -/

theorem asI64_small {e : Nat} (h : e < 9223372036854775808) : asI64 e = e := by unfold asI64; omega
theorem expI64_c {s : Bool} {m e : Nat} (h : e < 9223372036854775808) :
    expI64 (mk' s m e) = pure ((e : Int) - 281474976710656) := by
  rw [expI64, mk_exp, asI64_small h, i64Chk, if_pos (by unfold EXP_COEFF; omega)]
  rfl

theorem scale_pow {m k : Nat} {e : Int} (hk : k = e.natAbs) (hm : m < B128) :
    ratioScale (Ratio.from_u128 m) (ofInt (2 ^ k)) e = pure (ofRat (m * 2 ^ e)) := by
  rw [ratioScale, rfrom_u128 hm]
  by_cases he : e < 0
  · rw [if_pos he, Ratio.div_bi_mut_c _ (by positivity)]
    congr 2
    rw [div_eq_mul_inv]
    congr 1
    rw [show e = -(k : Int) by omega, zpow_neg, zpow_natCast]
    push_cast; rfl
  · rw [if_neg he, Ratio.mul_bi_mut_c]
    congr 2
    congr 1
    rw [show e = (k : Int) by omega, zpow_natCast]
    push_cast; rfl

theorem to_ratio_gen {s : Bool} {m e : Nat} (h : Nrm m) (he : e < 9223372036854775808) :
    ∃ q, to_ratio (mk' s m e) = pure (ofRat q) := by
  by_cases h0 : Z s m e
  · obtain ⟨rfl, rfl, rfl⟩ := h0
    exact ⟨0, by rw [mk_zero]; exact congrArg pure Ratio.zero_c⟩
  · rw [to_ratio, is_zero_mk h, if_neg (by simpa [Z] using h0), or_mk h, expI64_c he]
    dsimp only
    rw [pure_bind, absU32, if_neg (by omega), pure_bind, BigI.one_c, BigI.mul_pow2_c, pure_bind, one_mul, is_neg_mk h]
    generalize ((e : Int) - 281474976710656).natAbs % 4294967296 = k
    rw [ratioScale, rfrom_u128 h.2]
    have : ∃ q, (if (e : Int) - 281474976710656 < 0 then Ratio.div_bi_mut (ofRat m) (ofInt (2 ^ k))
        else Ratio.mul_bi_mut (ofRat m) (ofInt (2 ^ k))) = pure (ofRat q) := by
      split_ifs
      · exact ⟨_, Ratio.div_bi_mut_c _ (by positivity)⟩
      · exact ⟨_, Ratio.mul_bi_mut_c _ _⟩
    obtain ⟨q, hq⟩ := this
    rw [hq, pure_bind]
    cases s
    · exact ⟨q, rfl⟩
    · exact ⟨-q, by rw [if_pos rfl, Ratio.negate_mut_c]⟩

theorem to_ratio_c {s : Bool} {m e : Nat} (h : Nrm m) (h0 : ¬Z s m e) (h1 : 281474976710656 < e + 4294967296)
    (h2 : e < 281474976710656 + 4294967296) : to_ratio (mk' s m e) = pure (ofRat (sgn s * mg m e)) := by
  rw [to_ratio, is_zero_mk h, if_neg (by simpa [Z] using h0), or_mk h, expI64_c (by omega)]
  dsimp only
  rw [pure_bind, absU32, if_neg (by omega), pure_bind, BigI.one_c, BigI.mul_pow2_c, pure_bind, one_mul, is_neg_mk h,
    scale_pow (by omega) h.2, pure_bind]
  have : (m : ℚ) * 2 ^ ((e : ℤ) - 281474976710656) = mg m e := rfl
  rw [this]
  cases s
  · rw [sgn_false, one_mul]; rfl
  · rw [if_pos rfl, Ratio.negate_mut_c, sgn_true, neg_one_mul]

/-! ### subtraction -/

/-- `|x| < 2^(2^32 + 128)` and `|x| > 2^(127 - 2^32)`, or so -/
def Mid (e : Nat) : Prop := 281474976710656 < e + 4294967296 ∧ e < 281474976710656 + 4294967296

theorem sub_same {s : Bool} {m₁ e₁ m₂ e₂ : Nat} (h1 : Nrm m₁) (h2 : Nrm m₂) (b1 : Mid e₁) (b2 : Mid e₂) :
    sub (mk' s m₁ e₁) (mk' s m₂ e₂) = from_ratio (ofRat (sgn s * mg m₁ e₁ - sgn s * mg m₂ e₂)) := by
  have z1 : ¬Z s m₁ e₁ := nz_exp (by have := b1.1; omega)
  have z2 : ¬Z s m₂ e₂ := nz_exp (by have := b2.1; omega)
  rw [sub, is_neg_mk h1, is_neg_mk h2, is_zero_mk h1, is_zero_mk h2, if_neg (by simp),
    if_neg (by simpa [Z] using z1), if_neg (by simpa [Z] using z2), to_ratio_c h1 z1 b1.1 b1.2, pure_bind,
    to_ratio_c h2 z2 b2.1 b2.2, pure_bind, Ratio.sub_c, pure_bind]

theorem from_ratio_zero : from_ratio (ofRat 0) = pure ZERO := by
  rw [from_ratio, Ratio.is_zero_c]; rfl

end F192
end Hmath
