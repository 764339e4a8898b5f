import Verif.Model.ErrText
import Verif.Props.BigInt
import Verif.Props.Convert
import Verif.Props.Fp192Str

/-!
# C80: the texts of range errors
-/

namespace Hmath
namespace Props
open UBig

/-- the sign and the leading five digits -/
def sciInt (z : Int) : List Char := (if z < 0 then ['-'] else []) ++ sciSpec z.natAbs 5

private theorem text_ubig {a : UBig} (ha : Valid a) (h : val a ≠ 0) : UBig.to_scientific_notation a 5 = pure (sciSpec (val a) 5) :=
  C48_to_scientific_notation ha 5 (by norm_num) h (Or.inl (by norm_num))

private theorem text_bigi {a : BigI} (ha : IValid a) (h : ival a ≠ 0) : BigI.to_scientific_notation a 5 = pure (sciInt (ival a)) :=
  C48_to_scientific_notation_bi ha 5 (by norm_num) h (Or.inl (by norm_num))

/-- The conversions of `UBigInt` answer with the number, or with the range of the type and the leading digits of the number. -/
theorem C80_unsigned {a : UBig} (ha : Valid a) :
    UBig.to_u32_text a = pure (if val a < 2 ^ 32 then .ok (val a) else .error ⟨"0~4.29e9".toList, sciSpec (val a) 5⟩) ∧
    UBig.to_u64_text a = pure (if val a < 2 ^ 64 then .ok (val a) else .error ⟨"0~1.84e19".toList, sciSpec (val a) 5⟩) ∧
    UBig.to_u128_text a = pure (if val a < 2 ^ 128 then .ok (val a) else .error ⟨"0~3.4e38".toList, sciSpec (val a) 5⟩) := by
  obtain ⟨h1, h2, h3⟩ := C18_to_unsigned ha
  refine ⟨?_, ?_, ?_⟩
  · rw [UBig.to_u32_text, withText, h1, pure_bind]
    by_cases h : val a < 2 ^ 32
    · rw [if_pos h, if_pos h]
    · rw [if_neg h, if_neg h, text_ubig ha (by norm_num at h; omega)]
      rfl
  · rw [UBig.to_u64_text, withText, h2, pure_bind]
    by_cases h : val a < 2 ^ 64
    · rw [if_pos h, if_pos h]
    · rw [if_neg h, if_neg h, text_ubig ha (by norm_num at h; omega)]
      rfl
  · rw [UBig.to_u128_text, withText, h3, pure_bind]
    by_cases h : val a < 2 ^ 128
    · rw [if_pos h, if_pos h]
    · rw [if_neg h, if_neg h, text_ubig ha (by norm_num at h; omega)]
      rfl

/-- `2^64` as a `u64` -/
example : UBig.to_u64_text [0, 0, 1] = pure (.error ⟨"0~1.84e19".toList, "1.8446e19".toList⟩) := by
  have h := (C80_unsigned (a := [0, 0, 1]) (by decide)).2.1
  have hs : sciSpec (val [0, 0, 1]) 5 = "1.8446e19".toList := by
    have : Nat.log 10 (val [0, 0, 1]) = 19 := (Nat.log_eq_iff (.inl (by decide))).2 ⟨by decide, by decide⟩
    unfold sciSpec
    rw [this]
    decide
  rwa [if_neg (by decide), hs] at h

private theorem parts {a : BigI} (ha : IValid a) : Valid a.mag ∧ val a.mag = (ival a).natAbs ∧ a.neg = decide (ival a < 0) := by
  refine ⟨ha.mag, by rw [ival]; split_ifs <;> omega, ?_⟩
  conv_lhs => rw [ha.eq_ofInt]
  rw [BigI.neg_ofInt]

/-- The conversions of `BigInt`.  When the absolute value does not fit into the unsigned type, the error is that of the unsigned type, with its
range and without the sign. -/
theorem C80_signed {a : BigI} (ha : IValid a) :
    BigI.to_i32_text a = pure (if -2 ^ 31 ≤ ival a ∧ ival a < 2 ^ 31 then .ok (ival a)
      else if (ival a).natAbs < 2 ^ 32 then .error ⟨"-2.14e-9~2.14e9".toList, sciInt (ival a)⟩
      else .error ⟨"0~4.29e9".toList, sciSpec (ival a).natAbs 5⟩) ∧
    BigI.to_i64_text a = pure (if -2 ^ 63 ≤ ival a ∧ ival a < 2 ^ 63 then .ok (ival a)
      else if (ival a).natAbs < 2 ^ 64 then .error ⟨"9.22e-18~9.22e18".toList, sciInt (ival a)⟩
      else .error ⟨"0~1.84e19".toList, sciSpec (ival a).natAbs 5⟩) ∧
    BigI.to_i128_text a = pure (if -2 ^ 127 < ival a ∧ ival a < 2 ^ 127 then .ok (ival a)
      else if (ival a).natAbs < 2 ^ 128 then .error ⟨"-1.7e38~1.7e38".toList, sciInt (ival a)⟩
      else .error ⟨"0~3.4e38".toList, sciSpec (ival a).natAbs 5⟩) := by
  obtain ⟨hm, hv, hs⟩ := parts ha
  obtain ⟨h1, h2, h3⟩ := C80_unsigned hm
  rw [hv] at h1 h2 h3
  have ht : ival a ≠ 0 → BigI.to_scientific_notation a 5 = pure (sciInt (ival a)) := text_bigi ha
  generalize ival a = z at *
  norm_num at h1 h2 h3 ⊢
  refine ⟨?_, ?_, ?_⟩
  · rw [BigI.to_i32_text, h1, pure_bind]
    by_cases h : z.natAbs < 4294967296
    · simp only [if_pos h, hs, Bool.and_eq_true, Bool.not_eq_true', decide_eq_false_iff_not, decide_eq_true_eq]
      split_ifs <;> first | omega | rfl | (congr 2; omega) | (rw [ht (by omega), pure_bind])
    · rw [if_neg h, if_neg (by omega), if_neg h]
  · rw [BigI.to_i64_text, h2, pure_bind]
    by_cases h : z.natAbs < 18446744073709551616
    · simp only [if_pos h, hs, Bool.and_eq_true, Bool.not_eq_true', decide_eq_false_iff_not, decide_eq_true_eq]
      split_ifs <;> first | omega | rfl | (congr 2; omega) | (rw [ht (by omega), pure_bind])
    · rw [if_neg h, if_neg (by omega), if_neg h]
  · rw [BigI.to_i128_text, h3, pure_bind]
    by_cases h : z.natAbs < 340282366920938463463374607431768211456
    · simp only [if_pos h, hs, Bool.and_eq_true, Bool.not_eq_true', decide_eq_false_iff_not, decide_eq_true_eq]
      split_ifs <;> first | omega | rfl | (congr 2; omega) | (rw [ht (by omega), pure_bind])
    · rw [if_neg h, if_neg (by omega), if_neg h]

example : BigI.to_i32_text ⟨[3000000000], true⟩ = pure (.error ⟨"-2.14e-9~2.14e9".toList, sciInt (-3000000000)⟩) := by
  have h := (C80_signed (a := ⟨[3000000000], true⟩) (by decide)).1
  rw [show ival ⟨[3000000000], true⟩ = -3000000000 by decide +kernel] at h
  rw [h]
  norm_num

/-- Negative numbers as `UBigInt` and as `u128`. -/
theorem C80_negative {a : BigI} (ha : IValid a) (hn : ival a < 0) :
    BigI.to_ubi_text a = pure (.error ⟨"0~inf".toList, sciInt (ival a)⟩) ∧
    (a.mag.length ≤ 2 ^ 32 → BigI.to_u128_text a = pure (.error ⟨"0~3.4e38".toList, '-' :: Nat.toDigits 10 (ival a).natAbs⟩)) := by
  obtain ⟨hm, hv, hs⟩ := parts ha
  have hneg : BigI.is_neg a = true := by rw [BigI.is_neg, hs, decide_eq_true hn]
  refine ⟨by rw [BigI.to_ubi_text, if_pos hneg, text_bigi ha (by omega), pure_bind], fun hl => ?_⟩
  rw [BigI.to_u128_text, if_pos hneg, BigI.to_string_dec, C16_to_string_dec hm hl, pure_bind, pure_bind, BigI.withSign, hneg, hv]
  rfl

example : BigI.to_u128_text ⟨[17], true⟩ = pure (.error ⟨"0~3.4e38".toList, "-17".toList⟩) := by
  have h := (C80_negative (a := ⟨[17], true⟩) (by decide) (by decide)).2 (by norm_num)
  rw [h]
  exact congrArg pure (by decide)

/-- Without the texts these are the functions of C18. -/
theorem C80_erase {a : UBig} (ha : Valid a) {z : BigI} (hz : IValid z) :
    (Except.mapError (fun _ : RangeErr => ConvErr.notInRange) <$> UBig.to_u32_text a = UBig.to_u32 a) ∧
    (Except.mapError (fun _ : RangeErr => ConvErr.notInRange) <$> UBig.to_u64_text a = UBig.to_u64 a) ∧
    (Except.mapError (fun _ : RangeErr => ConvErr.notInRange) <$> UBig.to_u128_text a = UBig.to_u128 a) ∧
    (Except.mapError (fun _ : RangeErr => ConvErr.notInRange) <$> BigI.to_i32_text z = BigI.to_i32 z) ∧
    (Except.mapError (fun _ : RangeErr => ConvErr.notInRange) <$> BigI.to_i64_text z = BigI.to_i64 z) ∧
    (Except.mapError (fun _ : RangeErr => ConvErr.notInRange) <$> BigI.to_i128_text z = BigI.to_i128 z) ∧
    (Except.mapError (fun _ : RangeErr => ConvErr.notInRange) <$> BigI.to_ubi_text z = pure (BigI.to_ubi z)) := by
  obtain ⟨h1, h2, h3⟩ := C80_unsigned ha
  obtain ⟨k1, k2, k3⟩ := C80_signed hz
  obtain ⟨u1, u2, u3⟩ := C18_to_unsigned ha
  obtain ⟨i1, i2, i3⟩ := C18_to_signed_partial hz
  refine ⟨?_, ?_, ?_, ?_, ?_, ?_, ?_⟩
  · rw [h1, u1, map_pure]; split_ifs <;> rfl
  · rw [h2, u2, map_pure]; split_ifs <;> rfl
  · rw [h3, u3, map_pure]; split_ifs <;> rfl
  · rw [k1, i1, map_pure]; split_ifs <;> rfl
  · rw [k2, i2, map_pure]; split_ifs <;> rfl
  · rw [k3, i3, map_pure]; split_ifs <;> rfl
  · by_cases hn : ival z < 0
    · have := (parts hz).2.2
      rw [(C80_negative hz hn).1, map_pure, BigI.to_ubi, this, if_pos (by simpa using hn)]
      rfl
    · have := (parts hz).2.2
      rw [BigI.to_ubi_text, BigI.is_neg, this, if_neg (by simpa using hn), map_pure, BigI.to_ubi, this, if_neg (by simpa using hn)]
      rfl

example : Except.mapError (fun _ : RangeErr => ConvErr.notInRange) <$> UBig.to_u32_text [0, 1] = UBig.to_u32 [0, 1] :=
  (C80_erase (a := [0, 1]) (by decide) (z := ⟨[5], true⟩) (by decide)).1

/-! ### the ranges -/

/-- the number that a decimal text denotes -/
def Denotes (s : List Char) (q : ℚ) : Prop := ∃ neg ds y, DecimalText s neg ds y ∧ q = (if neg then -1 else 1) * digitsVal 10 ds * 10 ^ y

/-- `s` is a range, the bounds of which are within one percent of `lo` and `hi` -/
def RangeText (s : List Char) (lo hi : ℚ) : Prop := ∃ a b p q, s = a ++ '~' :: b ∧ Denotes a p ∧ Denotes b q ∧
  |p - lo| ≤ |lo| / 100 ∧ |q - hi| ≤ |hi| / 100

private theorem denotes_zero : Denotes ['0'] 0 :=
  ⟨false, [0], 0, ⟨['0'], [], [], 0, rfl, Or.inl rfl, Or.inl rfl, Or.inl ⟨rfl, rfl⟩, by decide, by decide⟩, by norm_num [digitsVal]⟩

private theorem denotes_sci {neg neg' : Bool} {c : Char} {t u : List Char} {v : Nat} {x : Int} (hc : F192.isDigit c = true ∧ c ≠ '0')
    (ht : ∀ c ∈ t, F192.isDigit c = true) (hu : u ≠ [] ∧ ∀ c ∈ u, F192.isDigit c = true) (hv : v = digitsVal 10 (digitsOf 10 (c :: '.' :: t)))
    (hx : x = (if neg' then -1 else 1) * digitsVal 10 (digitsOf 10 u)) :
    Denotes ((if neg then ['-'] else []) ++ c :: '.' :: (t ++ 'e' :: ((if neg' then ['-'] else []) ++ u)))
      ((if neg then -1 else 1) * v * 10 ^ (x - (digitsOf 10 ('.' :: t)).length)) := by
  refine ⟨neg, digitsOf 10 (c :: '.' :: t), _, ⟨[c], '.' :: t, 'e' :: ((if neg' then ['-'] else []) ++ u), x, by simp,
    Or.inr ⟨c, [], rfl, first_iff.1 hc, by simp [Digits]⟩, frac_iff.1 (Or.inr ⟨t, rfl, fun c hc => Or.inl (ht c hc)⟩),
    Or.inr ⟨'e', _, rfl, Or.inl rfl, u, hu.1, fun c hc => isDigit_digitOf.1 (hu.2 c hc), ?_⟩, ?_, rfl⟩, by rw [hv]⟩
  · cases neg' with
    | false => exact Or.inl ⟨rfl, by rw [hx]; simp⟩
    | true => exact Or.inr (Or.inr ⟨rfl, by rw [hx]; simp⟩)
  · rw [← digitsOf_append]; rfl

/-- The ranges of the unsigned types and of `i128` are right. -/
theorem C80_ranges : RangeText "0~4.29e9".toList 0 (2 ^ 32 - 1) ∧ RangeText "0~1.84e19".toList 0 (2 ^ 64 - 1) ∧
    RangeText "0~3.4e38".toList 0 (2 ^ 128 - 1) ∧ RangeText "-1.7e38~1.7e38".toList (-2 ^ 127) (2 ^ 127 - 1) := by
  refine ⟨⟨['0'], "4.29e9".toList, 0, _, rfl, denotes_zero,
      denotes_sci (neg := false) (neg' := false) (c := '4') (t := ['2', '9']) (u := ['9']) (v := 429) (x := 9) (by decide) (by decide) (by decide) (by decide) (by decide), by norm_num, ?_⟩,
    ⟨['0'], "1.84e19".toList, 0, _, rfl, denotes_zero,
      denotes_sci (neg := false) (neg' := false) (c := '1') (t := ['8', '4']) (u := ['1', '9']) (v := 184) (x := 19) (by decide) (by decide) (by decide) (by decide) (by decide), by norm_num, ?_⟩,
    ⟨['0'], "3.4e38".toList, 0, _, rfl, denotes_zero,
      denotes_sci (neg := false) (neg' := false) (c := '3') (t := ['4']) (u := ['3', '8']) (v := 34) (x := 38) (by decide) (by decide) (by decide) (by decide) (by decide), by norm_num, ?_⟩,
    ⟨"-1.7e38".toList, "1.7e38".toList, _, _, rfl,
      denotes_sci (neg := true) (neg' := false) (c := '1') (t := ['7']) (u := ['3', '8']) (v := 17) (x := 38) (by decide) (by decide) (by decide) (by decide) (by decide),
      denotes_sci (neg := false) (neg' := false) (c := '1') (t := ['7']) (u := ['3', '8']) (v := 17) (x := 38) (by decide) (by decide) (by decide) (by decide) (by decide), ?_, ?_⟩⟩
  · rw [show (digitsOf 10 ['.', '2', '9']).length = 2 by decide]; norm_num [abs_le]
  · rw [show (digitsOf 10 ['.', '8', '4']).length = 2 by decide]; norm_num [abs_le]
  · rw [show (digitsOf 10 ['.', '4']).length = 1 by decide]; norm_num [abs_le]
  · rw [show (digitsOf 10 ['.', '7']).length = 1 by decide]; norm_num [abs_le]
  · rw [show (digitsOf 10 ['.', '7']).length = 1 by decide]; norm_num [abs_le]

example : |(4290000000 : ℚ) - (2 ^ 32 - 1)| ≤ |(2 ^ 32 - 1 : ℚ)| / 100 := by norm_num

/-- The lower bound that is reported for an `i32` is `-2.14 * 10^-9`, and the one for an `i64` is `9.22 * 10^-18`: -1 is accepted, but it is below. -/
theorem C80_range_counterexample : ∃ p q : ℚ, Denotes "-2.14e-9".toList p ∧ Denotes "9.22e-18".toList q ∧ -1 < p ∧ 0 < q ∧
    BigI.to_i32_text ⟨[2147483648], false⟩ = pure (.error ⟨"-2.14e-9".toList ++ '~' :: "2.14e9".toList, "2.1474e9".toList⟩) ∧
    BigI.to_i64_text ⟨[0, 2147483648], false⟩ = pure (.error ⟨"9.22e-18".toList ++ '~' :: "9.22e18".toList, "9.2233e18".toList⟩) ∧
    BigI.to_i32_text ⟨[1], true⟩ = pure (.ok (-1)) ∧ BigI.to_i64_text ⟨[1], true⟩ = pure (.ok (-1)) := by
  refine ⟨_, _,
      denotes_sci (neg := true) (neg' := true) (c := '2') (t := ['1', '4']) (u := ['9']) (v := 214) (x := -9) (by decide) (by decide) (by decide) (by decide) (by decide),
      denotes_sci (neg := false) (neg' := true) (c := '9') (t := ['2', '2']) (u := ['1', '8']) (v := 922) (x := -18) (by decide) (by decide) (by decide) (by decide) (by decide),
    ?_, ?_, ?_, ?_, ?_, ?_⟩
  · rw [show (digitsOf 10 ['.', '1', '4']).length = 2 by decide]; norm_num
  · rw [show (digitsOf 10 ['.', '2', '2']).length = 2 by decide]; norm_num
  · have h := (C80_signed (a := ⟨[2147483648], false⟩) (by decide)).1
    rw [show ival ⟨[2147483648], false⟩ = 2147483648 by decide, if_neg (by norm_num), if_pos (by norm_num)] at h
    rw [h, sciInt, sciSpec, show Int.natAbs 2147483648 = 2147483648 from rfl, show Nat.log 10 2147483648 = 9 from (Nat.log_eq_iff (.inl (by decide))).2 ⟨by decide, by decide⟩]
    exact congrArg pure (by decide)
  · have h := (C80_signed (a := ⟨[0, 2147483648], false⟩) (by decide)).2.1
    rw [show ival ⟨[0, 2147483648], false⟩ = 9223372036854775808 by decide, if_neg (by norm_num), if_pos (by norm_num)] at h
    rw [h, sciInt, sciSpec, show Int.natAbs 9223372036854775808 = 9223372036854775808 from rfl,
      show Nat.log 10 9223372036854775808 = 18 from (Nat.log_eq_iff (.inl (by decide))).2 ⟨by decide, by decide⟩]
    exact congrArg pure (by decide)
  · have h := (C80_signed (a := ⟨[1], true⟩) (by decide)).1
    rwa [show ival ⟨[1], true⟩ = -1 by decide, if_pos (by norm_num)] at h
  · have h := (C80_signed (a := ⟨[1], true⟩) (by decide)).2.1
    rwa [show ival ⟨[1], true⟩ = -1 by decide, if_pos (by norm_num)] at h

/-- `-2^32` as an `i32` is reported as `4.2949e9`, with the range of a `u32`. -/
theorem C80_sign_counterexample : IValid ⟨[0, 1], true⟩ ∧ ival ⟨[0, 1], true⟩ = -2 ^ 32 ∧
    BigI.to_i32_text ⟨[0, 1], true⟩ = pure (.error ⟨"0~4.29e9".toList, "4.2949e9".toList⟩) := by
  refine ⟨by decide, by decide, ?_⟩
  have h := (C80_signed (a := ⟨[0, 1], true⟩) (by decide)).1
  rw [show ival ⟨[0, 1], true⟩ = -4294967296 by decide, if_neg (by norm_num), if_neg (by norm_num)] at h
  rw [h, sciSpec, show Int.natAbs (-4294967296) = 4294967296 from rfl, show Nat.log 10 4294967296 = 9 from (Nat.log_eq_iff (.inl (by decide))).2 ⟨by decide, by decide⟩]
  exact congrArg pure (by decide)

end Props
end Hmath
