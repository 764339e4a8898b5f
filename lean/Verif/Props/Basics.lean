import Verif.Model.Basics
import Verif.Spec.Ratio
import Verif.Proofs.Ratio
import Verif.Proofs.Fp192Ops

/-!
# C81, C82: the extreme numbers of `F192`; raw parts, default values and validity
-/

namespace Hmath
namespace Props

open F192 (mk' mg sgn Nrm ZERO MAX MIN MIN_POSITIVE)

/-- **C81.**  `MAX` is the greatest and `MIN` the least number, and `MIN_POSITIVE` the least one above zero;
no other bit pattern stands for any of them. -/
theorem C81_extremes {x : F192} (hx : FValid x) :
    (FValid MAX ∧ fval x ≤ fval MAX ∧ (fval x = fval MAX → x = MAX)) ∧
    (FValid MIN ∧ fval MIN ≤ fval x ∧ (fval x = fval MIN → x = MIN)) ∧
    (FValid MIN_POSITIVE ∧ 0 < fval MIN_POSITIVE ∧ (0 < fval x → fval MIN_POSITIVE ≤ fval x) ∧
      (fval x = fval MIN_POSITIVE → x = MIN_POSITIVE)) ∧
    fval MIN = -fval MAX := by
  have hN : Nrm 340282366920938463463374607431768211455 := ⟨by norm_num, by norm_num⟩
  have hP : Nrm 170141183460469231731687303715884105729 := ⟨by norm_num, by norm_num⟩
  have eM : MAX = mk' false 340282366920938463463374607431768211455 18446744073709551615 := by decide
  have em : MIN = mk' true 340282366920938463463374607431768211455 18446744073709551615 := by decide
  have ep : MIN_POSITIVE = mk' false 170141183460469231731687303715884105729 0 := by decide
  have vM : FValid MAX := by decide
  have vm : FValid MIN := by decide
  have vp : FValid MIN_POSITIVE := by decide
  have fM : fval MAX = mg 340282366920938463463374607431768211455 18446744073709551615 := by
    rw [eM, F192.fval_mk hN (F192.nz_exp (by norm_num)), F192.sgn_false, one_mul]
  have fm : fval MIN = -mg 340282366920938463463374607431768211455 18446744073709551615 := by
    rw [em, F192.fval_neg hN]
  have fp : fval MIN_POSITIVE = mg 170141183460469231731687303715884105729 0 := by
    rw [ep, F192.fval_mk hP (by rintro ⟨-, h, -⟩; revert h; norm_num), F192.sgn_false, one_mul]
  have pM := F192.mg_pos (e := 18446744073709551615) hN
  have pP := F192.mg_pos (e := 0) hP
  have hle : |fval x| ≤ mg 340282366920938463463374607431768211455 18446744073709551615 := by
    by_cases h0 : fval x = 0
    · rw [h0, abs_zero]; exact pM.le
    · obtain ⟨s, m, e, hm, he, -, -, hv⟩ := F192.mk_of_not_zero hx h0
      rw [hv, abs_mul, F192.abs_sgn, one_mul, abs_of_pos (F192.mg_pos hm)]
      by_contra hc
      rw [not_le, F192.mg_lt_iff hN hm] at hc
      have := hm.2
      omega
  obtain ⟨l, u⟩ := abs_le.1 hle
  refine ⟨⟨vM, by rwa [fM], fun h => F192.fval_inj hx vM h⟩, ⟨vm, by rwa [fm], fun h => F192.fval_inj hx vm h⟩,
    ⟨vp, by rwa [fp], fun h0 => ?_, fun h => F192.fval_inj hx vp h⟩, by rw [fm, fM]⟩
  obtain ⟨s, m, e, hm, he, hz, -, hv⟩ := F192.mk_of_not_zero hx h0.ne'
  have hp := F192.mg_pos (e := e) hm
  rw [fp]
  cases s
  · rw [hv, F192.sgn_false, one_mul]
    by_contra hc
    rw [not_le, F192.mg_lt_iff hm hP] at hc
    have := hm.1
    exact hz ⟨rfl, by omega, by omega⟩
  · rw [hv, F192.sgn_true] at h0
    linarith

/-- the number after one -/
example : fval MIN ≤ fval ⟨1, 2 ^ 48 - 127⟩ ∧ fval ⟨1, 2 ^ 48 - 127⟩ ≤ fval MAX :=
  ⟨(C81_extremes (x := ⟨1, 2 ^ 48 - 127⟩) (by decide)).2.1.2.1, (C81_extremes (x := ⟨1, 2 ^ 48 - 127⟩) (by decide)).1.2.1⟩

/-- **C81, size.** -/
theorem C81_values : fval MAX = (2 ^ 128 - 1) * 2 ^ ((2 ^ 64 - 1 - 2 ^ 48 : ℕ) : ℤ) ∧
    fval MIN_POSITIVE = (2 ^ 127 + 1) * 2 ^ (-2 ^ 48 : ℤ) := by
  have hN : Nrm 340282366920938463463374607431768211455 := ⟨by norm_num, by norm_num⟩
  have hP : Nrm 170141183460469231731687303715884105729 := ⟨by norm_num, by norm_num⟩
  constructor
  · rw [show MAX = mk' false 340282366920938463463374607431768211455 18446744073709551615 by decide,
      F192.fval_mk hN (F192.nz_exp (by norm_num)), F192.sgn_false, one_mul, F192.mg]
    have h1 : ((18446744073709551615 : ℕ) : ℤ) - 2 ^ 48 = ((2 ^ 64 - 1 - 2 ^ 48 : ℕ) : ℤ) := by norm_num
    rw [h1]
    generalize ((2 ^ 64 - 1 - 2 ^ 48 : ℕ) : ℤ) = k
    norm_num
  · rw [show MIN_POSITIVE = mk' false 170141183460469231731687303715884105729 0 by decide,
      F192.fval_mk hP (by rintro ⟨-, h, -⟩; revert h; norm_num), F192.sgn_false, one_mul, F192.mg]
    have h1 : ((0 : ℕ) : ℤ) - 2 ^ 48 = (-2 ^ 48 : ℤ) := by norm_num
    rw [h1]
    generalize (-2 ^ 48 : ℤ) = k
    norm_num

/-- **C82, validity.**  The checks of the library's own tests accept exactly the vectors in the form all theorems ask for. -/
theorem C82_is_valid {a : UBig} (ha : ∀ d ∈ a, d < 2 ^ 32) {b : BigI} (hb : ∀ d ∈ b.mag, d < 2 ^ 32) :
    (UBig.is_valid a = true ↔ Valid a) ∧ (BigI.is_valid b = true ↔ IValid b) := by
  have key : ∀ a : UBig, (∀ d ∈ a, d < 2 ^ 32) → (UBig.is_valid a = true ↔ Valid a) := by
    intro a ha
    unfold UBig.is_valid
    constructor
    · intro h
      have hne : a ≠ [] := by rintro rfl; simp at h
      refine ⟨hne, ha, fun hl ht => ?_⟩
      have hd : a.getD (a.length - 1) 0 = 0 := by
        rw [List.getLast?_eq_getElem?] at ht
        rw [List.getD_eq_getElem?_getD, ht]; rfl
      rw [if_neg (by simpa using hne), if_pos ⟨hl, hd⟩] at h
      exact Bool.noConfusion h
    · intro h
      rw [if_neg (by simpa using h.ne), if_neg]
      rintro ⟨hl, h0⟩
      apply h.top hl
      rw [List.getLast?_eq_getElem?]
      rw [List.getD_eq_getElem?_getD, List.getElem?_eq_getElem (by omega)] at h0
      rw [List.getElem?_eq_getElem (by omega), ← h0]; rfl
  refine ⟨key a ha, ?_⟩
  rw [BigI.is_valid, Bool.and_eq_true, key b.mag hb]
  constructor
  · rintro ⟨h1, h2⟩
    refine ⟨h1, fun hn h0 => ?_⟩
    rw [h1.eq_ofNat, UBig.is_zero_c, h0] at h2
    simp [BigI.is_neg, hn] at h2
  · intro h
    refine ⟨h.mag, ?_⟩
    rw [h.mag.eq_ofNat, UBig.is_zero_c]
    have := h.sgn
    simp only [BigI.is_neg]
    cases hn : b.neg
    · simp
    · simp [this hn]

/-- a vector with a superfluous zero, and minus zero -/
example : UBig.is_valid [5, 0] = false ∧ BigI.is_valid ⟨[0], true⟩ = false ∧ BigI.is_valid ⟨[5, 7], true⟩ = true := by decide

/-- **C82, raw parts.**  Numbers are rebuilt from their raw parts; vectors in normal form with a sign only if nonzero make valid integers. -/
theorem C82_raw (a : UBig) (b : BigI) (r : Ratio) :
    UBig.from_raw (UBig.into_raw a) = a ∧
    BigI.from_raw (BigI.into_raw b).1 (BigI.into_raw b).2 = b ∧
    Ratio.from_raw (Ratio.into_raw r).1 (Ratio.into_raw r).2.1 (Ratio.into_raw r).2.2.1 (Ratio.into_raw r).2.2.2 = r ∧
    (Valid a → IValid (BigI.from_raw a false) ∧ ival (BigI.from_raw a false) = val a ∧
      (val a ≠ 0 → IValid (BigI.from_raw a true) ∧ ival (BigI.from_raw a true) = -(val a : ℤ))) ∧
    (RValid r → rval r = (ival (Ratio.get_numer r) : ℚ) / ival (Ratio.get_denom r) ∧ 0 < ival (Ratio.get_denom r) ∧
      ival (Ratio.get_numer r) = (rval r).num ∧ ival (Ratio.get_denom r) = (rval r).den) := by
  refine ⟨rfl, rfl, rfl, fun h => ⟨⟨h, fun h => Bool.noConfusion h⟩, rfl, fun h0 => ⟨⟨h, fun _ => h0⟩, rfl⟩⟩, fun h => ?_⟩
  refine ⟨rfl, h.pos, ?_, ?_⟩
  · conv_lhs => rw [h.eq_ofRat]
    exact ival_ofInt _
  · conv_lhs => rw [h.eq_ofRat]
    exact ival_ofInt _

/-- -5/4 -/
example : ival (Ratio.get_numer ⟨⟨[4], false⟩, ⟨[5], true⟩⟩) = (rval ⟨⟨[4], false⟩, ⟨[5], true⟩⟩).num :=
  ((C82_raw [5] ⟨[5], true⟩ ⟨⟨[4], false⟩, ⟨[5], true⟩⟩).2.2.2.2 (by decide)).2.2.1
example : Ratio.into_raw ⟨⟨[4], false⟩, ⟨[5], true⟩⟩ = ([4], false, [5], true) := rfl

/-- **C82, defaults.**  The default of every type is zero. -/
theorem C82_default : (Valid UBig.default ∧ val UBig.default = 0) ∧ (IValid BigI.default ∧ ival BigI.default = 0) ∧
    (RValid Ratio.default ∧ rval Ratio.default = 0) ∧ (FValid F192.default ∧ fval F192.default = 0) :=
  ⟨by decide, by decide, ⟨by decide, by decide +kernel⟩, by decide, F192.fval_zero⟩

end Props
end Hmath
