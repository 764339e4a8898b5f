import Verif.Model.Str
import Verif.Model.Convert

/-!
# The texts of the range errors

The functions of `Model/UBigInt.lean`, `Model/BigInt.lean` and `Model/Convert.lean` say only that there is an error.  Here the conversions to
integers are modelled with both texts of `ConversionError::NotInRange { permitted, error }`; `C80_erase` shows that without the texts they are
the same functions.
-/

namespace Hmath

/-- `ConversionError::NotInRange` (src/err.rs 7) -/
structure RangeErr where
  permitted : Str
  error : Str
deriving DecidableEq

/-- the text is made where the error is made -/
def withText {α} (r : M (Except ConvErr α)) (permitted : Str) (text : M Str) : M (Except RangeErr α) := do
  match ← r with
  | .ok n => pure (.ok n)
  | .error _ => do
    let t ← text
    pure (.error ⟨permitted, t⟩)

namespace UBig

/-- src/ubigint/convert.rs 16-24 -/
def to_u32_text (a : UBig) : M (Except RangeErr Nat) := withText (to_u32 a) "0~4.29e9".toList (to_scientific_notation a 5)
/-- src/ubigint/convert.rs 37-49 -/
def to_u64_text (a : UBig) : M (Except RangeErr Nat) := withText (to_u64 a) "0~1.84e19".toList (to_scientific_notation a 5)
/-- src/ubigint/convert.rs 69-77 -/
def to_u128_text (a : UBig) : M (Except RangeErr Nat) := withText (to_u128 a) "0~3.4e38".toList (to_scientific_notation a 5)

end UBig

namespace BigI

/-- src/bigint/convert.rs 19-30 -/
def to_i32_text (a : BigI) : M (Except RangeErr Int) := do
  match ← UBig.to_u32_text a.mag with
  | .ok n =>
    if !a.neg && n ≤ 2147483647 then pure (.ok n)
    else if a.neg && n ≤ 2147483648 then pure (.ok (-(n : Int)))
    else do
      let t ← to_scientific_notation a 5
      pure (.error ⟨"-2.14e-9~2.14e9".toList, t⟩)
  | .error e => pure (.error e)

/-- src/bigint/convert.rs 41-52 -/
def to_i64_text (a : BigI) : M (Except RangeErr Int) := do
  match ← UBig.to_u64_text a.mag with
  | .ok n =>
    if !a.neg && n ≤ 9223372036854775807 then pure (.ok n)
    else if a.neg && n ≤ 9223372036854775808 then pure (.ok (-(n : Int)))
    else do
      let t ← to_scientific_notation a 5
      pure (.error ⟨"9.22e-18~9.22e18".toList, t⟩)
  | .error e => pure (.error e)

/-- src/bigint/convert.rs 63-74 -/
def to_i128_text (a : BigI) : M (Except RangeErr Int) := do
  match ← UBig.to_u128_text a.mag with
  | .ok n =>
    if !a.neg && n ≤ 170141183460469231731687303715884105727 then pure (.ok n)
    else if a.neg && n < 170141183460469231731687303715884105728 then pure (.ok (-(n : Int)))
    else do
      let t ← to_scientific_notation a 5
      pure (.error ⟨"-1.7e38~1.7e38".toList, t⟩)
  | .error e => pure (.error e)

/-- src/bigint/convert.rs 81-89 -/
def to_ubi_text (a : BigI) : M (Except RangeErr UBig) :=
  if is_neg a then do
    let t ← to_scientific_notation a 5
    pure (.error ⟨"0~inf".toList, t⟩)
  else pure (.ok a.mag)

/-- src/bigint/convert/into.rs 65-77; `format!("{n}")` is the decimal text (src/bigint/convert.rs 172-176) -/
def to_u128_text (a : BigI) : M (Except RangeErr Nat) :=
  if is_neg a then do
    let t ← to_string_dec a
    pure (.error ⟨"0~3.4e38".toList, t⟩)
  else UBig.to_u128_text a.mag

end BigI
end Hmath
