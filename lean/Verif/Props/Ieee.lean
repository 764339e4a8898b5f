import Verif.Proofs.IeeeTo
import Verif.Props.Convert
import Verif.Spec.RatioStr

/-!
# Floats (C29, C30) and scientific notation of `Ratio` (C58)
-/

namespace Hmath
namespace Props
open Ratio

/-- the two formats: the code for it, the bits of its mantissa and of its exponent -/
inductive Format : Ratio.Fmt → Nat → Nat → Prop
  | single : Format Ratio.f32 23 8
  | double : Format Ratio.f64 52 11

private theorem Format.ok {f m e} (h : Format f m e) : FmtOk f m e := by
  cases h
  · exact f32_ok
  · exact f64_ok

/-! ## C29: floats to numbers -/

/-- Every bit pattern converts to exactly the number it stands for; infinities and NaNs are rejected. -/
theorem C29_from {f m e} (h : Format f m e) {b : Nat} (hb : b < 2 ^ (m + e + 1)) :
    (∀ q, floatVal m e b = .finite q → ∃ r, from_ieee754 f b = pure (.ok r) ∧ RValid r ∧ rval r = q) ∧
    (∀ neg, floatVal m e b = .inf neg →
      from_ieee754 f b = pure (.error (if neg then .negInfinity else .infinity))) ∧
    (floatVal m e b = .nan → from_ieee754 f b = pure (.error .notANumber)) := by
  have key := from_c h.ok hb
  refine ⟨fun q hq => ?_, fun neg hq => ?_, fun hq => ?_⟩ <;> rw [hq] at key
  · exact ⟨_, key, rvalid_ofRat _, rval_ofRat _⟩
  · exact key
  · exact key

/-- the bit pattern of `-1.25` -/
example : ∃ r, from_ieee754 f32 3214934016 = pure (.ok r) ∧ RValid r ∧ rval r = -5 / 4 := by
  refine (C29_from .single (b := 3214934016) (by norm_num)).1 _ ?_
  norm_num [floatVal, floatBias]
example : from_ieee754 f64 (2 ^ 64 - 2 ^ 52) = pure (.error .negInfinity) := by
  have := (C29_from .double (b := 2 ^ 64 - 2 ^ 52) (by norm_num)).2.1 true (by norm_num [floatVal, floatBias])
  exact this

/-- `BigInt::try_from` of a float truncates towards zero. -/
theorem C29_bigint {f m e} (h : Format f m e) {b : Nat} (hb : b < 2 ^ (m + e + 1)) :
    (∀ q, floatVal m e b = .finite q →
      ∃ z, BigI.from_float f b = pure (.ok z) ∧ IValid z ∧ ival z = truncQ q) ∧
    ((∀ q, floatVal m e b ≠ .finite q) → ∃ err, BigI.from_float f b = pure (.error err)) := by
  obtain ⟨k1, k2, k3⟩ := C29_from h hb
  refine ⟨fun q hq => ?_, fun hq => ?_⟩
  · obtain ⟨r, h1, h2, h3⟩ := k1 q hq
    obtain ⟨z, z1, z2, z3⟩ := (C55_big h2).1
    have z1' : truncate_bi r = pure z := z1
    refine ⟨z, ?_, z2, by rw [z3, h3]⟩
    rw [BigI.from_float, h1, pure_bind]
    show (truncate_bi r >>= fun b => pure (Except.ok b)) = _
    rw [z1', pure_bind]
  · cases hf : floatVal m e b with
    | finite q => exact absurd hf (hq q)
    | inf neg => exact ⟨_, by rw [BigI.from_float, k2 neg hf, pure_bind]⟩
    | nan => exact ⟨_, by rw [BigI.from_float, k3 hf, pure_bind]⟩

example : ∃ z, BigI.from_float f32 3214934016 = pure (.ok z) ∧ IValid z ∧ ival z = -1 := by
  have := (C29_bigint .single (b := 3214934016) (by norm_num)).1 (-5 / 4) (by norm_num [floatVal, floatBias])
  rw [show truncQ (-5 / 4) = -1 by decide +kernel] at this
  exact this

/-- `UBigInt::try_from` of a float truncates towards zero and rejects what is then negative. -/
theorem C29_ubigint {f m e} (h : Format f m e) {b : Nat} (hb : b < 2 ^ (m + e + 1)) :
    (∀ q, floatVal m e b = .finite q → 0 ≤ truncQ q →
      ∃ z, UBig.from_float f b = pure (.ok z) ∧ Valid z ∧ val z = truncQ q) ∧
    (∀ q, floatVal m e b = .finite q → truncQ q < 0 → ∃ err, UBig.from_float f b = pure (.error err)) ∧
    ((∀ q, floatVal m e b ≠ .finite q) → ∃ err, UBig.from_float f b = pure (.error err)) := by
  obtain ⟨k1, k2, k3⟩ := C29_from h hb
  refine ⟨fun q hq h0 => ?_, fun q hq h0 => ?_, fun hq => ?_⟩
  · obtain ⟨r, h1, h2, h3⟩ := k1 q hq
    rw [← h3] at h0 ⊢
    obtain ⟨z, z1, z2⟩ := (C55_big h2).2.1 h0
    refine ⟨z, ?_, z2⟩
    rw [UBig.from_float, h1, pure_bind]
    exact z1
  · obtain ⟨r, h1, h2, h3⟩ := k1 q hq
    rw [← h3] at h0
    obtain ⟨z, z1⟩ := (C55_big h2).2.2 h0
    refine ⟨z, ?_⟩
    rw [UBig.from_float, h1, pure_bind]
    exact z1
  · cases hf : floatVal m e b with
    | finite q => exact absurd hf (hq q)
    | inf neg => exact ⟨_, by rw [UBig.from_float, k2 neg hf, pure_bind]⟩
    | nan => exact ⟨_, by rw [UBig.from_float, k3 hf, pure_bind]⟩

/-- `-0.75` truncates to 0, which is accepted; `-1.25` is rejected -/
example : (∃ z, UBig.from_float f32 3208642560 = pure (.ok z) ∧ Valid z ∧ val z = truncQ (-3 / 4)) ∧
    ∃ err, UBig.from_float f32 3214934016 = pure (.error err) :=
  ⟨(C29_ubigint .single (b := 3208642560) (by norm_num)).1 (-3 / 4) (by norm_num [floatVal, floatBias]) (by decide +kernel),
   (C29_ubigint .single (b := 3214934016) (by norm_num)).2.1 (-5 / 4) (by norm_num [floatVal, floatBias]) (by decide +kernel)⟩

/-! ## C30: numbers to floats -/

/-- The conversion returns the bit pattern of a finite float `v`. -/
def ToFloat (f : Ratio.Fmt) (m e : Nat) (r : Ratio) (v : ℚ) : Prop :=
  ∃ b, b < 2 ^ (m + e + 1) ∧ to_ieee754 f r = pure (.ok b) ∧ floatVal m e b = .finite v

private theorem lens {r : Ratio} (hr : RValid r) {k l : Nat} (hn : r.numer.mag.length ≤ k) (hd : r.denom.mag.length ≤ l) :
    (ofNat (rval r).num.natAbs).length ≤ k ∧ (ofNat (rval r).den).length ≤ l := by
  have e := hr.eq_ofRat
  rw [e, numer_ofRat, BigI.mag_ofInt] at hn
  rw [e, denom_ofRat, BigI.mag_ofInt, Int.natAbs_natCast] at hd
  exact ⟨hn, hd⟩

private theorem no_carry {m : Nat} {x : ℚ} {E : Int} (h1 : 2 ^ E ≤ x) (h2 : x ≤ (2 - 2 ^ (-(m : ℤ) - 1)) * 2 ^ E) :
    x < 2 ^ (E + 1) ∧ rhd ((x / 2 ^ E - 1) * 2 ^ m) < 2 ^ m := by
  have hz : (0 : ℚ) < 2 ^ E := zpow_pos (by norm_num) _
  have hw : (0 : ℚ) < 2 ^ (-(m : ℤ) - 1) := zpow_pos (by norm_num) _
  have hlt : x < 2 ^ (E + 1) := by
    rw [zpow_add₀ (by norm_num), zpow_one]
    nlinarith
  refine ⟨hlt, rhd_lt (mant_range h1 hlt).1 ?_ (by positivity)⟩
  push_cast
  have hm : (0 : ℚ) < 2 ^ m := by positivity
  have e1 : (2 : ℚ) ^ (-(m : ℤ) - 1) * 2 ^ m = 1 / 2 := by
    rw [← zpow_natCast, ← zpow_add₀ (by norm_num)]
    rw [show -(m : ℤ) - 1 + m = -1 by ring]
    norm_num
  have h3 : x / 2 ^ E ≤ 2 - 2 ^ (-(m : ℤ) - 1) := by rw [div_le_iff₀ hz]; exact h2
  have := mul_le_mul_of_nonneg_right h3 hm.le
  linarith

private theorem carry {m : Nat} {x : ℚ} {E : Int} (h1 : (2 - 2 ^ (-(m : ℤ) - 1)) * 2 ^ E < x) (h2 : x < 2 ^ (E + 1)) :
    2 ^ E ≤ x ∧ rhd ((x / 2 ^ E - 1) * 2 ^ m) = 2 ^ m := by
  have hz : (0 : ℚ) < 2 ^ E := zpow_pos (by norm_num) _
  have hw : (2 : ℚ) ^ (-(m : ℤ) - 1) ≤ 1 := zpow_le_one_of_nonpos₀ (by norm_num) (by omega)
  have hle : 2 ^ E ≤ x := by nlinarith
  obtain ⟨r1, r2⟩ := mant_range (m := m) hle h2
  refine ⟨hle, rhd_top r1 ?_ r2⟩
  push_cast
  have hm : (0 : ℚ) < 2 ^ m := by positivity
  have e1 : (2 : ℚ) ^ (-(m : ℤ) - 1) * 2 ^ m = 1 / 2 := by
    rw [← zpow_natCast, ← zpow_add₀ (by norm_num)]
    rw [show -(m : ℤ) - 1 + m = -1 by ring]
    norm_num
  have h3 : 2 - 2 ^ (-(m : ℤ) - 1) < x / 2 ^ E := by rw [lt_div_iff₀ hz]; exact h1
  have := mul_lt_mul_of_pos_right h3 hm
  linarith

/-- Normal range: a number of the binade `2^E` goes to a float at most half a unit of this binade away.
Left out are the numbers that are closer than half a unit to the next power of two, see
`C30_carry_partial` and `C30_carry_wrong`. -/
theorem C30_normal_partial {f m e} (h : Format f m e) {r : Ratio} (hr : RValid r)
    (hn : r.numer.mag.length ≤ 2 ^ 58) (hd : r.denom.mag.length ≤ 2 ^ 26) {E : Int}
    (h1 : 2 ^ E ≤ |rval r|) (h2 : |rval r| ≤ (2 - 2 ^ (-(m : ℤ) - 1)) * 2 ^ E)
    (hE : 1 - (floatBias e : Int) ≤ E) (hE' : E ≤ floatBias e) :
    ∃ v, ToFloat f m e r v ∧ |v - rval r| ≤ 2 ^ (E - m - 1 : ℤ) := by
  obtain ⟨l1, l2⟩ := lens hr hn hd
  have h0 : rval r ≠ 0 := by
    intro h0
    rw [h0, abs_zero] at h1
    exact absurd h1 (not_le.2 (zpow_pos (by norm_num) _))
  obtain ⟨g1, g2⟩ := no_carry h1 h2
  obtain ⟨k1, k2⟩ := to_normal h.ok h0 l1 l2 h1 g1 hE hE' g2
  refine ⟨_, ⟨_, ?_, ?_, k2⟩, normal_err h1 g1⟩
  · obtain ⟨hb1, hb2, hb3⟩ := h.ok.bias_le
    have e1 : ((E + floatBias e).toNat + 1) * 2 ^ m ≤ 2 ^ e * 2 ^ m := Nat.mul_le_mul_right _ (by omega)
    rw [← pow_add, add_comm e, add_mul, one_mul] at e1
    have e2 : 2 ^ (m + e + 1) = 2 * 2 ^ (m + e) := pow_succ' _ _
    split_ifs <;> omega
  · rw [← k1]
    exact congrArg _ hr.eq_ofRat

/-- one third -/
example : ∃ v, ToFloat f32 23 8 ⟨⟨[3], false⟩, ⟨[1], false⟩⟩ v ∧ |v - 1 / 3| ≤ 2 ^ (-26 : ℤ) := by
  have hv : rval ⟨⟨[3], false⟩, ⟨[1], false⟩⟩ = 1 / 3 := by decide +kernel
  have := C30_normal_partial .single (r := ⟨⟨[3], false⟩, ⟨[1], false⟩⟩) (by decide) (by norm_num) (by norm_num) (E := -2)
    (by rw [hv]; norm_num) (by rw [hv]; norm_num) (by decide) (by decide)
  rw [hv] at this
  exact this

/-- The carry into the exponent is right when `E` is odd (that is, when the exponent field is even). -/
theorem C30_carry_partial {f m e} (h : Format f m e) {r : Ratio} (hr : RValid r)
    (hn : r.numer.mag.length ≤ 2 ^ 58) (hd : r.denom.mag.length ≤ 2 ^ 26) {E : Int}
    (h1 : (2 - 2 ^ (-(m : ℤ) - 1)) * 2 ^ E < |rval r|) (h2 : |rval r| < 2 ^ (E + 1))
    (hE : 1 - (floatBias e : Int) ≤ E) (hE' : E < floatBias e) (ho : E % 2 = 1) :
    ∃ v, ToFloat f m e r v ∧ |v - rval r| ≤ 2 ^ (E - m - 1 : ℤ) := by
  obtain ⟨l1, l2⟩ := lens hr hn hd
  obtain ⟨g1, g2⟩ := carry h1 h2
  have h0 : rval r ≠ 0 := by
    intro h0
    rw [h0, abs_zero] at g1
    exact absurd g1 (not_le.2 (zpow_pos (by norm_num) _))
  obtain ⟨b, k1, k2, k3, -, -⟩ := to_carry h.ok h0 l1 l2 g1 h2 hE hE'.le g2
  refine ⟨_, ⟨b, k1, ?_, k3 (by omega) hE'⟩, ?_⟩
  · rw [← k2]
    exact congrArg _ hr.eq_ofRat
  · conv_lhs => enter [1, 2]; rw [← sgn_mul_abs (rval r)]
    rw [← mul_sub, abs_mul, sgn_abs, one_mul, abs_of_pos (by linarith)]
    have e1 : (2 : ℚ) ^ (E - m - 1 : ℤ) = 2 ^ (-(m : ℤ) - 1) * 2 ^ E := by
      rw [← zpow_add₀ (by norm_num)]
      congr 1
      ring
    rw [e1, zpow_add₀ (by norm_num), zpow_one]
    linarith

/-- `4 - 2^-24` is rounded to 4 -/
example : ∃ v, ToFloat f32 23 8 ⟨⟨[16777216], false⟩, ⟨[67108863], false⟩⟩ v ∧
    |v - rval ⟨⟨[16777216], false⟩, ⟨[67108863], false⟩⟩| ≤ 2 ^ (1 - (23 : ℕ) - 1 : ℤ) := by
  have hv : rval ⟨⟨[16777216], false⟩, ⟨[67108863], false⟩⟩ = 67108863 / 16777216 := by decide +kernel
  exact C30_carry_partial .single (r := ⟨⟨[16777216], false⟩, ⟨[67108863], false⟩⟩) (by decide) (by norm_num) (by norm_num)
    (E := 1) (by rw [hv]; norm_num [abs_of_pos]) (by rw [hv]; norm_num [abs_of_pos]) (by decide) (by decide) (by decide)

/-- When `E` is even the carry is lost: every number just below `2^(E+1)` converts to `2^E`, half of it. -/
theorem C30_carry_wrong {f m e} (h : Format f m e) {r : Ratio} (hr : RValid r)
    (hn : r.numer.mag.length ≤ 2 ^ 58) (hd : r.denom.mag.length ≤ 2 ^ 26) {E : Int}
    (h1 : (2 - 2 ^ (-(m : ℤ) - 1)) * 2 ^ E < |rval r|) (h2 : |rval r| < 2 ^ (E + 1))
    (hE : 1 - (floatBias e : Int) ≤ E) (hE' : E ≤ floatBias e) (ho : E % 2 = 0) :
    ToFloat f m e r (if rval r < 0 then -2 ^ E else 2 ^ E) := by
  obtain ⟨l1, l2⟩ := lens hr hn hd
  obtain ⟨g1, g2⟩ := carry h1 h2
  have h0 : rval r ≠ 0 := by
    intro h0
    rw [h0, abs_zero] at g1
    exact absurd g1 (not_le.2 (zpow_pos (by norm_num) _))
  obtain ⟨b, k1, k2, -, -, k3⟩ := to_carry h.ok h0 l1 l2 g1 h2 hE hE' g2
  refine ⟨b, k1, ?_, ?_⟩
  · rw [← k2]
    exact congrArg _ hr.eq_ofRat
  · rw [k3 ho]
    simp only [decide_eq_true_eq]
    split_ifs
    · rw [neg_one_mul]
    · rw [one_mul]

/-- the largest number below 2 with 26 binary digits comes out as 1 -/
example : ToFloat f32 23 8 ⟨⟨[33554432], false⟩, ⟨[67108863], false⟩⟩ 1 := by
  have hv : rval ⟨⟨[33554432], false⟩, ⟨[67108863], false⟩⟩ = 67108863 / 33554432 := by decide +kernel
  have := C30_carry_wrong .single (r := ⟨⟨[33554432], false⟩, ⟨[67108863], false⟩⟩) (by decide) (by norm_num) (by norm_num)
    (E := 0) (by rw [hv]; norm_num [abs_of_pos]) (by rw [hv]; norm_num [abs_of_pos]) (by decide) (by decide) (by decide)
  rw [hv] at this
  norm_num at this
  exact this

/-- `2 - 2^-25` converts to `1.0` -/
theorem C30_carry_counterexample : RValid ⟨⟨[33554432], false⟩, ⟨[67108863], false⟩⟩ ∧
    rval ⟨⟨[33554432], false⟩, ⟨[67108863], false⟩⟩ = 2 - 1 / 2 ^ 25 ∧
    ToFloat f32 23 8 ⟨⟨[33554432], false⟩, ⟨[67108863], false⟩⟩ 1 := by
  have hv : rval ⟨⟨[33554432], false⟩, ⟨[67108863], false⟩⟩ = 67108863 / 33554432 := by decide +kernel
  refine ⟨by decide, by rw [hv]; norm_num, ?_⟩
  have := C30_carry_wrong .single (r := ⟨⟨[33554432], false⟩, ⟨[67108863], false⟩⟩) (by decide) (by norm_num) (by norm_num)
    (E := 0) (by rw [hv]; norm_num [abs_of_pos]) (by rw [hv]; norm_num [abs_of_pos]) (by decide) (by decide) (by decide)
  rw [hv, if_neg (by norm_num), zpow_zero] at this
  exact this

/-- Below the normal range the result is at most 3/4 of the smallest float away (the mantissa is rounded
twice); in particular zero is only returned for numbers of at most this size. -/
theorem C30_subnormal {f m e} (h : Format f m e) {r : Ratio} (hr : RValid r)
    (hn : r.numer.mag.length ≤ 2 ^ 58) (hd : r.denom.mag.length ≤ 2 ^ 26)
    (h0 : rval r ≠ 0) (h1 : |rval r| < 2 ^ (1 - floatBias e : ℤ)) :
    ∃ v, ToFloat f m e r v ∧ |v - rval r| ≤ 3 / 4 * 2 ^ (1 - floatBias e - m : ℤ) := by
  obtain ⟨l1, l2⟩ := lens hr hn hd
  obtain ⟨a1, a2⟩ := alog_bounds h0
  obtain ⟨E, e1, e2⟩ : ∃ E : Int, 2 ^ E ≤ |rval r| ∧ |rval r| < 2 ^ (E + 1) := by
    rcases lt_or_ge |rval r| (2 ^ alog (rval r)) with hc | hc
    · exact ⟨alog (rval r) - 1, a1.le, by rw [sub_add_cancel]; exact hc⟩
    · exact ⟨_, hc, a2⟩
  have hE := (zpow_lt_zpow_iff_right₀ (by norm_num : (1 : ℚ) < 2)).1 (lt_of_le_of_lt e1 h1)
  obtain ⟨b, v, k1, k2, k3, k4⟩ := to_sub_err h.ok h0 l1 l2 e1 e2 (by omega)
  refine ⟨v, ⟨b, k1, ?_, k3⟩, k4⟩
  rw [← k2]
  exact congrArg _ hr.eq_ofRat

/-- `2^-140 + 2^-160`: the mantissa needs more bits than there are left -/
example : ∃ v, ToFloat f32 23 8 ⟨⟨[0, 0, 0, 0, 0, 1], false⟩, ⟨[1048577], false⟩⟩ v ∧
    |v - 1048577 / 2 ^ 160| ≤ 3 / 4 * 2 ^ (-149 : ℤ) := by
  have hv : rval ⟨⟨[0, 0, 0, 0, 0, 1], false⟩, ⟨[1048577], false⟩⟩ = 1048577 / 2 ^ 160 := by decide +kernel
  have := C30_subnormal .single (r := ⟨⟨[0, 0, 0, 0, 0, 1], false⟩, ⟨[1048577], false⟩⟩) (by decide) (by norm_num) (by norm_num)
    (by rw [hv]; norm_num) (by rw [hv]; norm_num [floatBias, abs_of_pos])
  rw [hv] at this
  exact this

/-- Below the normal range the result need not be the nearest float: `67108869 / 2^153`, which is 4194304.3125 times the smallest
float, converts to 4194305 times the smallest float. -/
theorem C30_subnormal_counterexample : ∃ r, RValid r ∧ rval r = (4194304 + 5 / 16) * 2 ^ (-149 : ℤ) ∧
    ToFloat f32 23 8 r (4194305 * 2 ^ (-149 : ℤ)) ∧ (∃ r', RValid r' ∧ ToFloat f32 23 8 r' (4194304 * 2 ^ (-149 : ℤ))) := by
  have key : ∀ {q : ℚ} (n : Int) (d : Nat), q.num = n → q.den = d → 2 ^ (-127 : ℤ) ≤ q → q < 2 ^ (-126 : ℤ) →
      n.natAbs < 2 ^ 200 → d < 2 ^ 200 →
      to_ieee754 f32 (ofRat q) = encode f32 (ofRat q) false (-127) (rhd ((q / 2 ^ (-127 : ℤ) - 1) * 2 ^ 23)) := by
    intro q n d hn hd h1 h2 b1 b2
    have hp : 0 < q := lt_of_lt_of_le (by norm_num) h1
    have l1 : (ofNat q.num.natAbs).length ≤ 2 ^ 26 := (length_ofNat_le_iff (by norm_num)).2 (by
      rw [hn]; exact lt_of_lt_of_le b1 (by rw [show B32 = 2 ^ 32 from rfl, ← pow_mul]; exact Nat.pow_le_pow_right (by norm_num) (by norm_num)))
    have l2 : (ofNat q.den).length ≤ 2 ^ 26 := (length_ofNat_le_iff (by norm_num)).2 (by
      rw [hd]; exact lt_of_lt_of_le b2 (by rw [show B32 = 2 ^ 32 from rfl, ← pow_mul]; exact Nat.pow_le_pow_right (by norm_num) (by norm_num)))
    have a1 : (2 : ℚ) ^ (-127 : ℤ) ≤ |q| := by rwa [abs_of_pos hp]
    have a2 : |q| < (2 : ℚ) ^ (-127 + 1 : ℤ) := by rw [abs_of_pos hp]; exact h2
    have := to_encode Format.single.ok hp.ne' (l1.trans (by norm_num)) l2 a1 a2
      ((alog_range hp.ne' a1 a2).2.trans (by decide))
    rwa [abs_of_pos hp, decide_eq_false (not_lt.2 hp.le)] at this
  have hr : ∀ b : Nat, b < 2 ^ 23 → floatVal 23 8 b = .finite (b * 2 ^ (-149 : ℤ)) := by
    intro b hb
    have := floatVal_sub (m := 23) (e := 8) (s := false) (r := b) (by norm_num) hb.le
    simp only [Bool.false_eq_true, if_false, zero_add, one_mul] at this
    exact this
  refine ⟨ofRat ((4194304 + 5 / 16) * 2 ^ (-149 : ℤ)), rvalid_ofRat _, rval_ofRat _,
    ⟨4194305, by norm_num, ?_, by rw [hr _ (by norm_num)]; norm_num⟩, ofRat (4194304 * 2 ^ (-149 : ℤ)), rvalid_ofRat _, ⟨4194304, by norm_num, ?_, by rw [hr _ (by norm_num)]; norm_num⟩⟩
  · rw [key 67108869 (2 ^ 153) (by decide +kernel) (by decide +kernel) (by norm_num) (by norm_num) (by norm_num) (Nat.pow_lt_pow_right (by norm_num) (by norm_num)),
      show rhd _ = 1 by decide +kernel]
    rfl
  · rw [key 1 (2 ^ 127) (by decide +kernel) (by decide +kernel) (by norm_num) (by norm_num) (by norm_num) (Nat.pow_lt_pow_right (by norm_num) (by norm_num)),
      show rhd _ = 0 by decide +kernel]
    rfl

/-- Numbers of at least `2^(bias+2)` are rejected. -/
theorem C30_too_big_partial {f m e} (h : Format f m e) {r : Ratio} (hr : RValid r)
    (hn : r.numer.mag.length ≤ 2 ^ 27) (hd : r.denom.mag.length ≤ 2 ^ 26)
    (h1 : 2 ^ (floatBias e + 2) ≤ |rval r|) : to_ieee754 f r = pure (.error .notInRange) := by
  obtain ⟨l1, l2⟩ := lens hr hn hd
  have h0 : rval r ≠ 0 := by
    intro h0
    rw [h0, abs_zero] at h1
    exact absurd h1 (not_le.2 (by positivity))
  obtain ⟨a1, a2⟩ := alog_bounds h0
  rw [← zpow_natCast] at h1
  have := (zpow_lt_zpow_iff_right₀ (by norm_num : (1 : ℚ) < 2)).1 (lt_of_le_of_lt h1 a2)
  rw [← to_big h.ok h0 l1 l2 (by push_cast at this; omega)]
  exact congrArg _ hr.eq_ofRat

/-- `2^160` -/
example : to_ieee754 f32 ⟨⟨[1], false⟩, ⟨[0, 0, 0, 0, 0, 1], false⟩⟩ = pure (.error .notInRange) := by
  have hv : rval ⟨⟨[1], false⟩, ⟨[0, 0, 0, 0, 0, 1], false⟩⟩ = 2 ^ 160 := by decide +kernel
  exact C30_too_big_partial .single (r := ⟨⟨[1], false⟩, ⟨[0, 0, 0, 0, 0, 1], false⟩⟩) (by decide) (by norm_num) (by norm_num)
    (by rw [hv]; norm_num [floatBias])

/-- In the binade above the largest finite float the answer is an error, or a bit pattern that stands for an
infinity or a NaN. -/
theorem C30_overflow_returned {f m e} (h : Format f m e) {r : Ratio} (hr : RValid r)
    (hn : r.numer.mag.length ≤ 2 ^ 27) (hd : r.denom.mag.length ≤ 2 ^ 26)
    (h1 : 2 ^ (floatBias e + 1) ≤ |rval r|) (h2 : |rval r| < 2 ^ (floatBias e + 2)) :
    to_ieee754 f r = pure (.error .notInRange) ∨
      ∃ b, b < 2 ^ (m + e + 1) ∧ to_ieee754 f r = pure (.ok b) ∧
        (floatVal m e b = .inf (decide (rval r < 0)) ∨ floatVal m e b = .nan) := by
  obtain ⟨l1, l2⟩ := lens hr hn hd
  have h0 : rval r ≠ 0 := by
    intro h0
    rw [h0, abs_zero] at h1
    exact absurd h1 (not_le.2 (by positivity))
  have er : to_ieee754 f r = to_ieee754 f (ofRat (rval r)) := congrArg _ hr.eq_ofRat
  rw [er]
  rcases lt_or_ge ((floatBias e : Int) + 1) (alog (rval r)) with hc | hc
  · exact .inl (to_big h.ok h0 l1 l2 hc)
  · exact .inr (to_above h.ok h0 (le_trans l1 (by norm_num)) l2 h1 h2 hc)

/-- `2^128` -/
example : to_ieee754 f32 ⟨⟨[1], false⟩, ⟨[0, 0, 0, 0, 1], false⟩⟩ = pure (.error .notInRange) ∨
    ∃ b, b < 2 ^ (23 + 8 + 1) ∧ to_ieee754 f32 ⟨⟨[1], false⟩, ⟨[0, 0, 0, 0, 1], false⟩⟩ = pure (.ok b) ∧
      (floatVal 23 8 b = .inf (decide (rval ⟨⟨[1], false⟩, ⟨[0, 0, 0, 0, 1], false⟩⟩ < 0)) ∨ floatVal 23 8 b = .nan) := by
  have hv : rval ⟨⟨[1], false⟩, ⟨[0, 0, 0, 0, 1], false⟩⟩ = 2 ^ 128 := by decide +kernel
  exact C30_overflow_returned .single (r := ⟨⟨[1], false⟩, ⟨[0, 0, 0, 0, 1], false⟩⟩) (by decide) (by norm_num) (by norm_num)
    (by rw [hv]; norm_num [floatBias]) (by rw [hv]; norm_num [floatBias, abs_of_pos])

/-- `2^128`, beyond the range of `f32`, does not convert to an error but to an infinity or a NaN. -/
theorem C30_overflow_counterexample : RValid ⟨⟨[1], false⟩, ⟨[0, 0, 0, 0, 1], false⟩⟩ ∧
    rval ⟨⟨[1], false⟩, ⟨[0, 0, 0, 0, 1], false⟩⟩ = 2 ^ 128 ∧
    ∃ b, to_ieee754 f32 ⟨⟨[1], false⟩, ⟨[0, 0, 0, 0, 1], false⟩⟩ = pure (.ok b) ∧ ∀ q, floatVal 23 8 b ≠ .finite q := by
  have hv : rval ⟨⟨[1], false⟩, ⟨[0, 0, 0, 0, 1], false⟩⟩ = 2 ^ 128 := by decide +kernel
  have hr : RValid ⟨⟨[1], false⟩, ⟨[0, 0, 0, 0, 1], false⟩⟩ := by decide
  obtain ⟨l1, l2⟩ := lens hr (k := 5) (l := 1) (by decide) (by decide)
  refine ⟨hr, hv, ?_⟩
  have hal : alog (rval ⟨⟨[1], false⟩, ⟨[0, 0, 0, 0, 1], false⟩⟩) = 128 := by decide +kernel
  obtain ⟨b, k1, k2, k3⟩ := to_above f32_ok (q := rval ⟨⟨[1], false⟩, ⟨[0, 0, 0, 0, 1], false⟩⟩) (by rw [hv]; norm_num)
    (le_trans l1 (by norm_num)) (le_trans l2 (by norm_num)) (by rw [hv]; norm_num [floatBias])
    (by rw [hv]; norm_num [floatBias]) (by rw [hal]; decide)
  refine ⟨b, ?_, ?_⟩
  · rw [← k2]
    exact congrArg _ hr.eq_ofRat
  · intro q hq
    rw [hq] at k3
    rcases k3 with k3 | k3 <;> cases k3

/-- The largest binade: numbers that round up to `2^(bias+1)` convert to an infinity. -/
theorem C30_round_to_infinity {f m e} (h : Format f m e) {r : Ratio} (hr : RValid r)
    (hn : r.numer.mag.length ≤ 2 ^ 58) (hd : r.denom.mag.length ≤ 2 ^ 26)
    (h1 : (2 - 2 ^ (-(m : ℤ) - 1)) * 2 ^ floatBias e < |rval r|) (h2 : |rval r| < 2 ^ (floatBias e + 1)) :
    ∃ b, to_ieee754 f r = pure (.ok b) ∧ floatVal m e b = .inf (decide (rval r < 0)) := by
  obtain ⟨l1, l2⟩ := lens hr hn hd
  have h1' : (2 - 2 ^ (-(m : ℤ) - 1)) * (2 : ℚ) ^ (floatBias e : Int) < |rval r| := by rw [zpow_natCast]; exact h1
  have h2' : |rval r| < (2 : ℚ) ^ ((floatBias e : Int) + 1) := by
    rw [show (floatBias e : Int) + 1 = ((floatBias e + 1 : Nat) : Int) by push_cast; ring, zpow_natCast]; exact h2
  obtain ⟨g1, g2⟩ := carry h1' h2'
  have h0 : rval r ≠ 0 := by
    intro h0
    rw [h0, abs_zero] at g1
    exact absurd g1 (not_le.2 (zpow_pos (by norm_num) _))
  obtain ⟨hb1, -, -⟩ := h.ok.bias_le
  obtain ⟨b, -, k2, -, k3, -⟩ := to_carry h.ok h0 l1 l2 g1 h2' (by omega) le_rfl g2
  refine ⟨b, ?_, k3 rfl⟩
  rw [← k2]
  exact congrArg _ hr.eq_ofRat

/-- `2^128 - 1` -/
example : ∃ b, to_ieee754 f32 ⟨⟨[1], false⟩, ⟨[U32MAX, U32MAX, U32MAX, U32MAX], false⟩⟩ = pure (.ok b) ∧
    floatVal 23 8 b = .inf false := by
  have hv : rval ⟨⟨[1], false⟩, ⟨[U32MAX, U32MAX, U32MAX, U32MAX], false⟩⟩ = 2 ^ 128 - 1 := by decide +kernel
  have := C30_round_to_infinity .single (r := ⟨⟨[1], false⟩, ⟨[U32MAX, U32MAX, U32MAX, U32MAX], false⟩⟩) (by decide)
    (by norm_num) (by norm_num) (by rw [hv]; norm_num [floatBias, abs_of_pos]) (by rw [hv]; norm_num [floatBias, abs_of_pos])
  rw [hv, decide_eq_false (by norm_num)] at this
  exact this

/-- Zero. -/
theorem C30_zero {f m e} (_ : Format f m e) : to_ieee754 f ⟨⟨[1], false⟩, ⟨[0], false⟩⟩ = pure (.ok 0) := rfl

private theorem small_len {n : Nat} (h : n < 2 ^ 2048) : (ofNat n).length ≤ 2 ^ 26 := by
  have : (ofNat n).length ≤ 64 := by
    rw [length_ofNat_le_iff (by norm_num)]
    refine lt_of_lt_of_le h (le_of_eq ?_)
    rw [show B32 = 2 ^ 32 by norm_num, ← pow_mul]
  exact le_trans this (by norm_num)

private theorem float_lens {q : ℚ} {k : Nat} {z : Int} {s : Bool} (hq : q = (if s = true then -1 else 1) * k * 2 ^ z) (hk : k < 2 ^ 54)
    (h1 : -1900 ≤ z) (h2 : z ≤ 1900) : (ofNat q.num.natAbs).length ≤ 2 ^ 26 ∧ (ofNat q.den).length ≤ 2 ^ 26 := by
  obtain ⟨c, hc⟩ : ∃ c : Int, c = if s = true then -1 else 1 := ⟨_, rfl⟩
  have hcq : ((c : Int) : ℚ) = if s = true then -1 else 1 := by rw [hc]; split_ifs <;> norm_num
  have hcn : c.natAbs = 1 := by rw [hc]; split_ifs <;> rfl
  rw [← hcq] at hq
  rcases le_or_gt 0 z with hz | hz
  · obtain ⟨j, rfl⟩ := Int.eq_ofNat_of_zero_le hz
    have e : q = ((c * k * 2 ^ j : Int) : ℚ) := by rw [hq, zpow_natCast]; push_cast; rfl
    have hp : 2 ^ j ≤ 2 ^ 1900 := Nat.pow_le_pow_right (by norm_num) (by omega)
    rw [e, Rat.num_intCast, Rat.den_intCast]
    refine ⟨small_len ?_, small_len (Nat.one_lt_two_pow (by norm_num))⟩
    rw [Int.natAbs_mul, Int.natAbs_mul, hcn, Int.natAbs_natCast, Int.natAbs_pow, one_mul, show (2 : Int).natAbs = 2 from rfl]
    calc k * 2 ^ j ≤ 2 ^ 54 * 2 ^ 1900 := Nat.mul_le_mul hk.le hp
      _ = 2 ^ (54 + 1900) := (pow_add _ _ _).symm
      _ < 2 ^ 2048 := Nat.pow_lt_pow_right (by norm_num) (by norm_num)
  · obtain ⟨j, hj⟩ : ∃ j : Nat, z = -(j : Int) := ⟨z.natAbs, by omega⟩
    have hp : 2 ^ j ≤ 2 ^ 1900 := Nat.pow_le_pow_right (by norm_num) (by omega)
    have e : q = Rat.divInt (c * k) (2 ^ j) := by
      rw [Rat.divInt_eq_div, hq, hj, zpow_neg, zpow_natCast]
      push_cast
      rw [div_eq_mul_inv]
    constructor
    · by_cases h0 : c * (k : Int) = 0
      · rw [e, h0, Rat.zero_divInt]
        exact small_len (by positivity)
      · refine small_len ?_
        have : q.num ∣ c * k := by rw [e]; exact Rat.num_dvd _ (by positivity)
        have := Nat.le_of_dvd (by omega) (Int.natAbs_dvd_natAbs.2 this)
        rw [Int.natAbs_mul, hcn, one_mul, Int.natAbs_natCast] at this
        exact lt_of_le_of_lt this (lt_trans hk (Nat.pow_lt_pow_right (by norm_num) (by norm_num)))
    · refine small_len ?_
      have : (q.den : Int) ∣ ((2 ^ j : Nat) : Int) := by rw [e]; push_cast; exact Rat.den_dvd _ _
      have := Nat.le_of_dvd (by positivity) (Int.natCast_dvd_natCast.1 this)
      exact lt_of_le_of_lt this (lt_of_le_of_lt hp (Nat.pow_lt_pow_right (by norm_num) (by norm_num)))

/-- Every finite float survives the way to a `Ratio` and back, except `-0`, which comes back as `0`. -/
theorem C30_round_trip {f m e} (h : Format f m e) {b : Nat} (hb : b < 2 ^ (m + e + 1)) {q : ℚ}
    (hq : floatVal m e b = .finite q) :
    ∃ r, from_ieee754 f b = pure (.ok r) ∧ to_ieee754 f r = pure (.ok (if b = 2 ^ (m + e) then 0 else b)) := by
  refine ⟨ofRat q, by rw [from_c h.ok hb, hq]; rfl, ?_⟩
  obtain ⟨hb1, hb2, hb3⟩ := h.ok.bias_le
  have hm' := h.ok.hm'
  obtain ⟨s, F, R, hF, hR, hbe⟩ : ∃ (s : Bool) (F R : Nat), F < 2 ^ e ∧ R < 2 ^ m ∧
      b = (if s then 2 ^ (m + e) else 0) + F * 2 ^ m + R := by
    refine ⟨decide (2 ^ (m + e) ≤ b), b % 2 ^ (m + e) / 2 ^ m, b % 2 ^ m, ?_, Nat.mod_lt _ (by positivity), ?_⟩
    · rw [Nat.div_lt_iff_lt_mul (by positivity), ← pow_add, add_comm e]
      exact Nat.mod_lt _ (by positivity)
    · have e1 : b % 2 ^ (m + e) % 2 ^ m = b % 2 ^ m := Nat.mod_mod_of_dvd _ (pow_dvd_pow 2 (by omega))
      have e2 := Nat.div_add_mod (b % 2 ^ (m + e)) (2 ^ m)
      rw [e1, mul_comm] at e2
      rw [add_assoc, e2]
      rw [pow_succ] at hb
      by_cases hc : 2 ^ (m + e) ≤ b
      · rw [if_pos (by simpa using hc), Nat.mod_eq_sub_mod hc, Nat.mod_eq_of_lt (by omega)]
        omega
      · rw [if_neg (by simpa using hc), Nat.mod_eq_of_lt (by omega), zero_add]
  have hv := floatVal_fields (s := s) hF hR
  rw [← hbe, hq] at hv
  have h2e : 2 ^ (m + e) = 2 ^ m * 2 ^ e := pow_add _ _ _
  by_cases hF1 : F = 2 ^ e - 1
  · rw [if_pos hF1] at hv
    split_ifs at hv
  · rw [if_neg hF1] at hv
    by_cases hF0 : F = 0
    · rw [if_pos hF0, Float'.finite.injEq] at hv
      rw [hF0, zero_mul, add_zero] at hbe
      by_cases hR0 : R = 0
      · rw [hR0, Nat.cast_zero, mul_zero, zero_mul] at hv
        have hbz : (if b = 2 ^ (m + e) then 0 else b) = 0 := by
          rw [hbe, hR0, add_zero]
          have : 0 < 2 ^ (m + e) := by positivity
          split_ifs <;> omega
        rw [hbz, hv, to_ieee754, is_zero_c, if_pos (by simp)]
      · obtain ⟨L1, L2⟩ := float_lens hv (lt_trans hR (Nat.pow_lt_pow_right (by norm_num) (by omega)))
          (by omega) (by omega)
        rw [to_from_sub h.ok hR0 hR hv (le_trans L1 (by norm_num)) L2, ← hbe, if_neg]
        rw [hbe]
        have : 2 ^ m ≤ 2 ^ (m + e) := Nat.pow_le_pow_right (by norm_num) (by omega)
        split_ifs <;> omega
    · rw [if_neg hF0, Float'.finite.injEq] at hv
      have hv' : q = (if s = true then -1 else 1) * ((2 ^ m + R : Nat) : ℚ) * 2 ^ (F - floatBias e - m : ℤ) := by
        rw [hv]; push_cast; rfl
      have h52 : 2 ^ m ≤ 2 ^ 52 := Nat.pow_le_pow_right (by norm_num) hm'
      obtain ⟨L1, L2⟩ := float_lens hv' (by omega) (by omega) (by omega)
      rw [to_from_normal h.ok (by omega) hF0 hR hv (le_trans L1 (by norm_num)) L2, ← hbe, if_neg]
      rw [hbe]
      have h3 : 1 * 2 ^ m ≤ F * 2 ^ m := Nat.mul_le_mul_right _ (by omega)
      have h4 : F * 2 ^ m + 2 ^ m ≤ 2 ^ e * 2 ^ m := by
        have := Nat.mul_le_mul_right (2 ^ m) (show F + 1 ≤ 2 ^ e by omega)
        rwa [add_mul, one_mul] at this
      rw [mul_comm] at h2e
      have h5 : 0 < 2 ^ m := by positivity
      split_ifs <;> omega

/-- the smallest positive `f64` -/
example : ∃ r, from_ieee754 f64 1 = pure (.ok r) ∧ to_ieee754 f64 r = pure (.ok 1) := by
  have := C30_round_trip .double (b := 1) (by norm_num) (q := 2 ^ (-1074 : ℤ)) (by
    have := floatVal_sub (m := 52) (e := 11) (s := false) (r := 1) (by norm_num) (Nat.one_le_two_pow)
    simp only [Bool.false_eq_true, if_false, zero_add] at this
    rw [this]
    norm_num [floatBias])
  exact this

/-- A number that is a finite float converts to exactly this float; zero to `+0`. -/
theorem C30_exact {f m e} (h : Format f m e) {b : Nat} (hb : b < 2 ^ (m + e + 1)) {r : Ratio} (hr : RValid r)
    (hq : floatVal m e b = .finite (rval r)) : to_ieee754 f r = pure (.ok (if b = 2 ^ (m + e) then 0 else b)) := by
  obtain ⟨r', h1, h2⟩ := C30_round_trip h hb hq
  obtain ⟨r'', h3, h4, h5⟩ := (C29_from h hb).1 _ hq
  obtain rfl : r' = r'' := by
    rw [h1] at h3
    injection h3 with h3
    injection h3 with h3
    injection h3
  rwa [h4.eq_ofRat, h5, ← hr.eq_ofRat] at h2

/-- `-5/4` converts to the `f32` with the bits `0xbfa00000` -/
example : to_ieee754 f32 ⟨⟨[4], false⟩, ⟨[5], true⟩⟩ = pure (.ok 3214934016) := by
  have := C30_exact .single (b := 3214934016) (by norm_num) (r := ⟨⟨[4], false⟩, ⟨[5], true⟩⟩) (by decide) (by
    rw [show rval ⟨⟨[4], false⟩, ⟨[5], true⟩⟩ = -5 / 4 by decide +kernel]
    norm_num [floatVal, floatBias])
  exact this

/-- The conversion never panics. -/
theorem C30_total {f m e} (h : Format f m e) {r : Ratio} (hr : RValid r)
    (hn : r.numer.mag.length ≤ 2 ^ 27) (hd : r.denom.mag.length ≤ 2 ^ 26) : ∃ x, to_ieee754 f r = pure x := by
  obtain ⟨l1, l2⟩ := lens hr hn hd
  obtain ⟨hb1, hb2, hb3⟩ := h.ok.bias_le
  have er : to_ieee754 f r = to_ieee754 f (ofRat (rval r)) := congrArg _ hr.eq_ofRat
  rw [er]
  by_cases h0 : rval r = 0
  · exact ⟨.ok 0, by rw [h0, to_ieee754, is_zero_c, if_pos (by simp)]⟩
  rcases lt_or_ge ((floatBias e : Int) + 1) (alog (rval r)) with hc | hc
  · exact ⟨_, to_big h.ok h0 l1 l2 hc⟩
  · obtain ⟨a1, a2⟩ := alog_bounds h0
    obtain ⟨E, e1, e2⟩ : ∃ E : Int, 2 ^ E ≤ |rval r| ∧ |rval r| < 2 ^ (E + 1) := by
      rcases lt_or_ge |rval r| (2 ^ alog (rval r)) with hc | hc
      · exact ⟨alog (rval r) - 1, a1.le, by rw [sub_add_cancel]; exact hc⟩
      · exact ⟨_, hc, a2⟩
    have hE := (alog_range h0 e1 e2).1
    have l1' := le_trans l1 (show 2 ^ 27 ≤ 2 ^ 58 by norm_num)
    rw [to_encode h.ok h0 l1' l2 e1 e2 hc]
    have hF := rhd_le (mant_range (m := m) e1 e2).2 (by positivity)
    rcases le_or_gt (1 - (floatBias e : Int)) E with hb | hb
    · exact ⟨_, encode_normal h.ok _ _ hb (by omega) hF⟩
    · obtain ⟨x, -, -, k⟩ := encode_sub h.ok (ofRat (rval r)) (decide (rval r < 0)) (E := E) (by omega) hF
      exact ⟨_, k⟩

example : ∃ x, to_ieee754 f64 ⟨⟨[7], false⟩, ⟨[4, 1], true⟩⟩ = pure x :=
  C30_total .double (by decide) (by norm_num) (by norm_num)

/-- `f32::try_from(&BigInt)`, `f64::try_from(&BigInt)` convert the `Ratio` of the same value. -/
theorem C30_bigint (f : Ratio.Fmt) {a : BigI} (ha : IValid a) {r : Ratio} (hr : RValid r) (hv : rval r = ival a) :
    BigI.to_float f a = to_ieee754 f r := by
  rw [BigI.to_float, ha.eq_ofInt, from_bi_c, hr.eq_ofRat, hv]

example : BigI.to_float f32 ⟨[6], true⟩ = to_ieee754 f32 ⟨⟨[1], false⟩, ⟨[6], true⟩⟩ :=
  C30_bigint f32 (by decide) (by decide) (by decide +kernel)

/-! ## C58: scientific notation -/

/-- `to_scientific_notation` prints the leading digits of `N · 10^X`, cut off, where `N` has 16 to 19 digits and
`N · 10^X` is the number up to a relative error of `1/(4 · 10^15)`.  When numerator or denominator is below `2^128`
the digits are those of the number itself. -/
theorem C58_to_scientific_notation {r : Ratio} (hr : RValid r) (h0 : rval r ≠ 0)
    (hn : r.numer.mag.length ≤ 2 ^ 27) (hd : r.denom.mag.length ≤ 2 ^ 27) :
    ∃ (N : Nat) (X : Int), 5 * 10 ^ 15 ≤ N ∧ N < 2 * 10 ^ 18 ∧
      |(N : ℚ) * 10 ^ X - (|rval r|)| ≤ |rval r| / (4 * 10 ^ 15) ∧
      (r.numer.mag.length ≤ 4 ∨ r.denom.mag.length ≤ 4 → N * 10 ^ X ≤ |rval r| ∧ |rval r| < (N + 1) * 10 ^ X) ∧
      ∀ k, 1 ≤ k → to_scientific_notation r k = pure (sciRat (rval r < 0) N X k) := by
  obtain ⟨l1, l2⟩ := lens hr hn hd
  obtain ⟨c, X, c1, c2, c3, c4, c5, c6⟩ := sci_c h0 l1 l2
  have hq : 0 < |rval r| := abs_pos.2 h0
  have hz : (0 : ℚ) < 10 ^ X := zpow_pos (by norm_num) _
  obtain ⟨N, hN⟩ : ∃ N, N = ⌊c / 10 ^ X⌋₊ := ⟨_, rfl⟩
  have hlo : 5 * 10 ^ 15 ≤ N := by
    rw [hN, Nat.le_floor_iff (by positivity)]
    push_cast
    linarith
  have hhi : N < 2 * 10 ^ 18 := by
    rw [hN, Nat.floor_lt (by positivity)]
    push_cast
    linarith
  have f1 : (N : ℚ) * 10 ^ X ≤ c := by
    rw [← le_div_iff₀ hz, hN]; exact Nat.floor_le (by positivity)
  have f2 : c < (N + 1) * 10 ^ X := by
    rw [← div_lt_iff₀ hz, hN]; exact Nat.lt_floor_add_one _
  rw [lt_div_iff₀ hz] at c4
  rw [← hN] at c6
  refine ⟨N, X, hlo, hhi, ?_, fun hs => ?_, fun k hk => ?_⟩
  · rw [abs_le] at c2 ⊢
    norm_num at c2 c4
    constructor <;> norm_num <;> linarith [c2.1, c2.2]
  · have e : c = |rval r| := by
      apply c3
      have hB : B32 ^ 4 = 2 ^ 128 := by norm_num
      rw [← hB]
      rcases hs with hs | hs
      · exact .inl ((length_ofNat_le_iff (by norm_num)).1 (lens hr hs hd).1)
      · exact .inr ((length_ofNat_le_iff (by norm_num)).1 (lens hr hn hs).2)
    rw [← e]
    exact ⟨f1, f2⟩
  · have key := c6 k
    rw [UBig.sciOf_eq N k (by omega) hk] at key
    have er : to_scientific_notation r k = to_scientific_notation (ofRat (rval r)) k :=
      congrArg (fun r => to_scientific_notation r k) hr.eq_ofRat
    rw [er, key, sciRat, UBig.log_eq_length N (by omega)]
    rfl

/-- `-2/3` is `-6.6666e-1` -/
example : to_scientific_notation ⟨⟨[3], false⟩, ⟨[2], true⟩⟩ 5 = pure "-6.6666e-1".toList := by
  have hv : rval ⟨⟨[3], false⟩, ⟨[2], true⟩⟩ = -(2 / 3) := by decide +kernel
  have ha : |rval ⟨⟨[3], false⟩, ⟨[2], true⟩⟩| = 2 / 3 := by rw [hv, abs_neg, abs_of_pos (by norm_num)]
  obtain ⟨N, X, n1, n2, -, n3, n4⟩ := C58_to_scientific_notation (r := ⟨⟨[3], false⟩, ⟨[2], true⟩⟩) (by decide)
    (by rw [hv]; norm_num) (by norm_num) (by norm_num)
  obtain ⟨n5, n6⟩ := n3 (.inl (by norm_num))
  rw [n4 5 (by norm_num), hv]
  rw [ha] at n5 n6
  have hz : (0 : ℚ) < 10 ^ X := zpow_pos (by norm_num) _
  have n1' : (5 * 10 ^ 15 : ℚ) ≤ N := by exact_mod_cast n1
  have n2' : (N : ℚ) + 1 ≤ 2 * 10 ^ 18 := by exact_mod_cast n2
  have x1 : (10 : ℚ) ^ X < 10 ^ (-15 : ℤ) := by
    have : (5 * 10 ^ 15 : ℚ) * 10 ^ X ≤ 2 / 3 := le_trans (mul_le_mul_of_nonneg_right n1' hz.le) n5
    norm_num at this ⊢; linarith
  have x2 : (10 : ℚ) ^ (-19 : ℤ) < 10 ^ X := by
    have : 2 / 3 < (2 * 10 ^ 18 : ℚ) * 10 ^ X := lt_of_lt_of_le n6 (mul_le_mul_of_nonneg_right n2' hz.le)
    norm_num at this ⊢; linarith
  have x1' := (zpow_lt_zpow_iff_right₀ (by norm_num : (1 : ℚ) < 10)).1 x1
  have x2' := (zpow_lt_zpow_iff_right₀ (by norm_num : (1 : ℚ) < 10)).1 x2
  have hcase : X = -18 ∨ X = -17 ∨ X = -16 := by omega
  have key : ∀ d : Nat, X = -(d : Int) → (N : ℚ) ≤ 2 / 3 * 10 ^ d ∧ 2 / 3 * 10 ^ d < (N : ℚ) + 1 := by
    intro d hd
    rw [hd, zpow_neg, zpow_natCast, ← div_eq_mul_inv] at n5 n6
    rw [div_le_iff₀ (by positivity)] at n5
    rw [lt_div_iff₀ (by positivity)] at n6
    exact ⟨n5, n6⟩
  rcases hcase with h | h | h
  · obtain ⟨k1, k2⟩ := key 18 (by rw [h]; rfl)
    have k1' : (N : ℚ) < 666666666666666667 := by norm_num at k1; linarith
    have k2' : (666666666666666665 : ℚ) < N := by norm_num at k2; linarith
    have a1 : N < 666666666666666667 := by exact_mod_cast k1'
    have a2 : 666666666666666665 < N := by exact_mod_cast k2'
    obtain rfl : N = 666666666666666666 := by omega
    have : Nat.log 10 666666666666666666 = 17 := (Nat.log_eq_iff (.inl (by decide))).2 ⟨by decide, by decide⟩
    unfold sciRat
    rw [this, h, if_pos (by norm_num)]
    exact congrArg pure (by decide)
  · obtain ⟨k1, k2⟩ := key 17 (by rw [h]; rfl)
    have k1' : (N : ℚ) < 66666666666666667 := by norm_num at k1; linarith
    have k2' : (66666666666666665 : ℚ) < N := by norm_num at k2; linarith
    have a1 : N < 66666666666666667 := by exact_mod_cast k1'
    have a2 : 66666666666666665 < N := by exact_mod_cast k2'
    obtain rfl : N = 66666666666666666 := by omega
    have : Nat.log 10 66666666666666666 = 16 := (Nat.log_eq_iff (.inl (by decide))).2 ⟨by decide, by decide⟩
    unfold sciRat
    rw [this, h, if_pos (by norm_num)]
    exact congrArg pure (by decide)
  · obtain ⟨k1, k2⟩ := key 16 (by rw [h]; rfl)
    have k1' : (N : ℚ) < 6666666666666667 := by norm_num at k1; linarith
    have k2' : (6666666666666665 : ℚ) < N := by norm_num at k2; linarith
    have a1 : N < 6666666666666667 := by exact_mod_cast k1'
    have a2 : 6666666666666665 < N := by exact_mod_cast k2'
    obtain rfl : N = 6666666666666666 := by omega
    have : Nat.log 10 6666666666666666 = 15 := (Nat.log_eq_iff (.inl (by decide))).2 ⟨by decide, by decide⟩
    unfold sciRat
    rw [this, h, if_pos (by norm_num)]
    exact congrArg pure (by decide)

/-- Zero is printed as `0e-17` (as `0e0` by `UBigInt` and `BigInt`). -/
theorem C58_zero (k : Nat) : to_scientific_notation ⟨⟨[1], false⟩, ⟨[0], false⟩⟩ k = pure "0e-17".toList := by
  have h3 : UBig.sciOf 0 k = (['0'], 0) := by
    unfold UBig.sciOf
    rw [UBig.sciLoop]
    rfl
  have h0 : (⟨⟨[1], false⟩, ⟨[0], false⟩⟩ : Ratio) = ofRat 0 := by
    rw [(show RValid ⟨⟨[1], false⟩, ⟨[0], false⟩⟩ by decide).eq_ofRat]
    exact congrArg _ (by decide +kernel)
  have hc : sciClone (ofRat 0) = pure (ofRat 0) := by rw [← h0]; rfl
  have hl0 : BigI.log2_accurate (ofInt 0) = pure (ofInt 0) := by
    rw [BigI.log2_accurate, show (ofInt 0).mag = [0] by rw [BigI.mag_ofInt]; exact ofNat_zero, UBig.log2_accurate_zero, pure_bind, ← ofNat_zero,
      BigI.from_ubi_c (z := 0) (by simp) (by simp)]
  have hl1 : BigI.log2_accurate (ofInt 1) = pure (ofInt 0) := by
    obtain ⟨T, hT⟩ : ∃ T : Nat, T = 2 ^ 32 := ⟨_, rfl⟩
    obtain ⟨r, r1, -, r2, -⟩ := bi_log2_c hT 1 (by norm_num) (one_lt_pow₀ (by norm_num) (by omega))
    rw [show (1 : Int).natAbs = 1 from rfl, one_pow] at r2
    have : r = 0 := by
      by_contra hr
      have := Nat.one_lt_two_pow hr
      omega
    rw [r1, this]; rfl
  have hap : sciApprox (ofRat 0) = pure 0 := by
    rw [sciApprox, numer_ofRat, denom_ofRat, Rat.num_zero, Rat.den_zero, hl0, pure_bind, Nat.cast_one, hl1, pure_bind,
      BigI.sub_c, pure_bind, BigI.mul_i32_c (by unfold IsI32; omega) (by omega), pure_bind,
      BigI.div_i32_c (by unfold IsI32; omega) (by omega) (by omega), pure_bind, BigI.shift_right_c, pow_one,
      show (((0 - 0 : Int) * 21306).tdiv 70777).tdiv (B32 : Nat) = 0 by decide, BigI.to_i64_c, pure_bind, if_pos (by omega)]
    rfl
  have hsc : sciScale (ofRat 0) 0 = pure (-17, 0) := by
    rw [sciScale, BigI.from_i32_c (by unfold IsI32; omega) (by omega), pure_bind, if_pos (by norm_num),
      BigI.pow_u32_c (by norm_num), pure_bind, numer_ofRat, denom_ofRat, BigI.mul_c, pure_bind,
      BigI.div_c (den_ne 0), pure_bind, BigI.to_i64_c, pure_bind, Rat.num_zero, zero_mul, Int.zero_tdiv, if_pos (by norm_num)]
    rfl
  rw [h0, to_scientific_notation, hc, pure_bind, hap, pure_bind, hsc, pure_bind]
  simp only [Int.toNat_zero, h3]
  exact congrArg pure (by decide +kernel)

end Props
end Hmath
