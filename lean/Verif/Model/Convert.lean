import Verif.Model.Ratio

/-!
# The `From` / `TryFrom` conversions between machine integers and the number types

src/ubigint/convert/{from,into}.rs, src/bigint/convert/{from,into}.rs, src/ratio/convert/{from,into}.rs.
The by-reference and by-value impls generated by `impl_from_for_ref!`, `impl_tryfrom_for_ref!`,
`impl_ref_for_ubigints!`, `impl_ref_for_bigints!` and `impl_ref_for_ratios!` call each other and have one
model each.  A value of a machine integer type is an `Int` (or `Nat`) in the range of the type;
`n.into()` and lossless `as` casts between machine integers keep the value (`usize` / `isize` have
64 bits).
-/

namespace Hmath

/-- the lossless `Result<uN, _>` seen as a result with an integer -/
def okInt : Except ConvErr Nat → Except ConvErr Int
  | .ok n => .ok n
  | .error e => .error e

/-- `uN::try_from(n)?` for a signed machine integer `n` that is not wider than `uN` -/
def unsignedTryFrom (n : Int) : Except ConvErr Nat :=
  if n < 0 then .error .tryFromInt else .ok n.toNat

namespace UBig

/-- src/ubigint/convert/from.rs 27-35 -/
def from_bool (b : Bool) : UBig := if b then one else zero
/-- src/ubigint/convert/from.rs 103 `impl_trait_for_general!(From, u8, UBigInt, from_u32)` -/
def from_u8 (n : Nat) : UBig := from_u32 n
/-- src/ubigint/convert/from.rs 104 -/
def from_u16 (n : Nat) : UBig := from_u32 n
/-- src/ubigint/convert/from.rs 55-61 -/
def from_i8 (n : Int) : Except ConvErr UBig := (unsignedTryFrom n).map from_u32
/-- src/ubigint/convert/from.rs 63-69 -/
def from_i16 (n : Int) : Except ConvErr UBig := (unsignedTryFrom n).map from_u32
/-- src/ubigint/convert/from.rs 71-77 -/
def from_i32 (n : Int) : Except ConvErr UBig := (unsignedTryFrom n).map from_u32
/-- src/ubigint/convert/from.rs 79-85 -/
def from_i64 (n : Int) : Except ConvErr UBig := (unsignedTryFrom n).map from_u64
/-- src/ubigint/convert/from.rs 87-93 -/
def from_i128 (n : Int) : Except ConvErr UBig := (unsignedTryFrom n).map from_u128
/-- src/ubigint/convert/from.rs 95-101 -/
def from_isize (n : Int) : Except ConvErr UBig := (unsignedTryFrom n).map from_u64

/-- src/ubigint/convert/into.rs 31-35 -/
def to_bool (a : UBig) : Bool := !is_zero a
/-- src/ubigint/convert/into.rs 37-43 -/
def to_u8 (a : UBig) : M (Except ConvErr Int) := do
  let r ← to_u32 a
  pure (tryInto 0 255 (okInt r))
/-- src/ubigint/convert/into.rs 45-51 -/
def to_u16 (a : UBig) : M (Except ConvErr Int) := do
  let r ← to_u32 a
  pure (tryInto 0 65535 (okInt r))
/-- src/ubigint/convert/into.rs 58 -/
def to_i8 (a : UBig) : M (Except ConvErr Int) := do
  let r ← to_u32 a
  pure (tryInto (-128) 127 (okInt r))
/-- src/ubigint/convert/into.rs 59 -/
def to_i16 (a : UBig) : M (Except ConvErr Int) := do
  let r ← to_u32 a
  pure (tryInto (-32768) 32767 (okInt r))
/-- src/ubigint/convert/into.rs 60 -/
def to_i32 (a : UBig) : M (Except ConvErr Int) := do
  let r ← to_u32 a
  pure (tryInto (-2147483648) 2147483647 (okInt r))
/-- src/ubigint/convert/into.rs 61 -/
def to_i64 (a : UBig) : M (Except ConvErr Int) := do
  let r ← to_u64 a
  pure (tryInto (-9223372036854775808) 9223372036854775807 (okInt r))
/-- src/ubigint/convert/into.rs 62 -/
def to_isize (a : UBig) : M (Except ConvErr Int) := do
  let r ← to_u64 a
  pure (tryInto (-9223372036854775808) 9223372036854775807 (okInt r))
/-- src/ubigint/convert/into.rs 63 -/
def to_i128 (a : UBig) : M (Except ConvErr Int) := do
  let r ← to_u128 a
  pure (tryInto (-170141183460469231731687303715884105728)
    170141183460469231731687303715884105727 (okInt r))

/-- src/ubigint/convert/from.rs 133-139 -/
def from_bi (a : BigI) : Except ConvErr UBig := BigI.to_ubi a

end UBig

namespace BigI

/-- src/bigint/convert/from.rs 34-42 -/
def from_bool (b : Bool) : BigI := if b then one else zero
/-- src/bigint/convert/from.rs 62 -/
def from_i8 (n : Int) : M BigI := from_i32 n
/-- src/bigint/convert/from.rs 63 -/
def from_i16 (n : Int) : M BigI := from_i32 n
/-- src/bigint/convert/from.rs 67 -/
def from_u8 (n : Nat) : M BigI := from_i32 n
/-- src/bigint/convert/from.rs 68 -/
def from_u16 (n : Nat) : M BigI := from_i32 n
/-- src/bigint/convert/from.rs 69 -/
def from_u32 (n : Nat) : M BigI := from_i64 n
/-- src/bigint/convert/from.rs 73-77 -/
def from_isize (n : Int) : M BigI := from_i64 n
/-- src/bigint/convert/from.rs 79-83 -/
def from_u64 (n : Nat) : BigI := from_ubi (UBig.from_u64 n) false
/-- src/bigint/convert/from.rs 85-89 -/
def from_u128 (n : Nat) : BigI := from_ubi (UBig.from_u128 n) false
/-- src/bigint/convert/from.rs 91-95 -/
def from_usize (n : Nat) : BigI := from_ubi (UBig.from_u64 n) false
/-- src/bigint/convert/from.rs 105-109, src/ratio/convert/into.rs 52-56 -/
def from_ratio (a : Ratio) : M BigI := Ratio.truncate_bi a
/-- src/bigint/convert/from.rs 111-115 -/
def from_ubigint (a : UBig) : BigI := from_ubi a false

/-- src/bigint/convert/into.rs 36-40 -/
def to_bool (a : BigI) : Bool := !is_zero a
/-- src/bigint/convert/into.rs 42 -/
def to_i8 (a : BigI) : M (Except ConvErr Int) := do
  let r ← to_i32 a
  pure (UBig.tryInto (-128) 127 r)
/-- src/bigint/convert/into.rs 43 -/
def to_i16 (a : BigI) : M (Except ConvErr Int) := do
  let r ← to_i32 a
  pure (UBig.tryInto (-32768) 32767 r)
/-- src/bigint/convert/into.rs 47 -/
def to_isize (a : BigI) : M (Except ConvErr Int) := do
  let r ← to_i64 a
  pure (UBig.tryInto (-9223372036854775808) 9223372036854775807 r)
/-- src/bigint/convert/into.rs 50 -/
def to_u8 (a : BigI) : M (Except ConvErr Int) := do
  let r ← to_i32 a
  pure (UBig.tryInto 0 255 r)
/-- src/bigint/convert/into.rs 51 -/
def to_u16 (a : BigI) : M (Except ConvErr Int) := do
  let r ← to_i32 a
  pure (UBig.tryInto 0 65535 r)
/-- src/bigint/convert/into.rs 52 -/
def to_u32 (a : BigI) : M (Except ConvErr Int) := do
  let r ← to_i64 a
  pure (UBig.tryInto 0 4294967295 r)
/-- src/bigint/convert/into.rs 53 -/
def to_u64 (a : BigI) : M (Except ConvErr Int) := do
  let r ← to_i128 a
  pure (UBig.tryInto 0 18446744073709551615 r)
/-- src/bigint/convert/into.rs 54 -/
def to_usize (a : BigI) : M (Except ConvErr Int) := do
  let r ← to_i128 a
  pure (UBig.tryInto 0 18446744073709551615 r)
/-- src/bigint/convert/into.rs 65-77 (error text: Model/ErrText.lean) -/
def to_u128 (a : BigI) : M (Except ConvErr Int) :=
  if is_neg a then pure (.error .notInRange)
  else do
    let r ← UBig.to_u128 a.mag
    pure (okInt r)

end BigI

namespace Ratio

/-- src/ratio/convert/from.rs 34-42 -/
def from_bool (b : Bool) : Ratio := if b then one else zero
/-- src/ratio/convert/from.rs 60 -/
def from_i8 (n : Int) : M Ratio := from_i32 n
/-- src/ratio/convert/from.rs 61 -/
def from_i16 (n : Int) : M Ratio := from_i32 n
/-- src/ratio/convert/from.rs 65 -/
def from_u8 (n : Nat) : M Ratio := from_i32 n
/-- src/ratio/convert/from.rs 66 -/
def from_u16 (n : Nat) : M Ratio := from_i32 n
/-- src/ratio/convert/from.rs 67 -/
def from_u32 (n : Nat) : M Ratio := from_i64 n
/-- src/ratio/convert/from.rs 71-75 -/
def from_isize (n : Int) : M Ratio := from_i64 n
/-- src/ratio/convert/from.rs 77-81 -/
def from_u64 (n : Nat) : Ratio := from_bi (BigI.from_ubi (UBig.from_u64 n) false)
/-- src/ratio/convert/from.rs 83-87 -/
def from_u128 (n : Nat) : Ratio := from_bi (BigI.from_ubi (UBig.from_u128 n) false)
/-- src/ratio/convert/from.rs 89-93 -/
def from_usize (n : Nat) : Ratio := from_bi (BigI.from_ubi (UBig.from_u64 n) false)
/-- src/ratio/convert/from.rs 115-128 for parts that are `BigInt`s (`(denom, numer)`) -/
def from_pair (p : BigI × BigI) : M Ratio := from_denom_and_numer p.1 p.2
/-- src/ratio/convert/into.rs 58-67 for parts that are `BigInt`s (`(denom, numer)`) -/
def to_pair (a : Ratio) : BigI × BigI := (a.denom, a.numer)

/-- `impl_ratio_to_int!` (src/ratio/convert/into.rs 25-39): truncate, then convert the `BigInt`
with `f` -/
def toInt (f : BigI → M (Except ConvErr Int)) (a : Ratio) : M (Except ConvErr Int) := do
  let n ← truncate_bi a
  f n

/-- src/ratio/convert/into.rs 44 -/
def to_u8 : Ratio → M (Except ConvErr Int) := toInt BigI.to_u8
/-- src/ratio/convert/into.rs 44 -/
def to_u16 : Ratio → M (Except ConvErr Int) := toInt BigI.to_u16
/-- src/ratio/convert/into.rs 44 -/
def to_u32 : Ratio → M (Except ConvErr Int) := toInt BigI.to_u32
/-- src/ratio/convert/into.rs 44 -/
def to_u64 : Ratio → M (Except ConvErr Int) := toInt BigI.to_u64
/-- src/ratio/convert/into.rs 44 -/
def to_usize : Ratio → M (Except ConvErr Int) := toInt BigI.to_usize
/-- src/ratio/convert/into.rs 44 -/
def to_u128 : Ratio → M (Except ConvErr Int) := toInt BigI.to_u128
/-- src/ratio/convert/into.rs 44 -/
def to_i8 : Ratio → M (Except ConvErr Int) := toInt BigI.to_i8
/-- src/ratio/convert/into.rs 44 -/
def to_i16 : Ratio → M (Except ConvErr Int) := toInt BigI.to_i16
/-- src/ratio/convert/into.rs 44 -/
def to_i32 : Ratio → M (Except ConvErr Int) := toInt BigI.to_i32
/-- src/ratio/convert/into.rs 44 -/
def to_i64 : Ratio → M (Except ConvErr Int) := toInt BigI.to_i64
/-- src/ratio/convert/into.rs 44 -/
def to_isize : Ratio → M (Except ConvErr Int) := toInt BigI.to_isize
/-- src/ratio/convert/into.rs 44 -/
def to_i128 : Ratio → M (Except ConvErr Int) := toInt BigI.to_i128

/-- `UBigInt::try_from(&Ratio)` (src/ubigint/convert/from.rs 125-131) -/
def to_ubigint (a : Ratio) : M (Except ConvErr UBig) := do
  let n ← truncate_bi a
  pure (BigI.to_ubi n)

end Ratio

/-- src/complex.rs 7-10 -/
structure Complex where
  real_ : Ratio
  imag_ : Ratio
  deriving DecidableEq, Repr

namespace Complex

/-- src/complex.rs 13-15 -/
def real (z : Complex) : Ratio := z.real_
/-- src/complex.rs 17-19 -/
def imaginary (z : Complex) : Ratio := z.imag_
/-- src/complex/convert.rs 13-18 for `Ratio` arguments -/
def from_real_and_imag (re im : Ratio) : Complex := ⟨re, im⟩
/-- src/complex/arith/add.rs 6-11 -/
def add (a b : Complex) : M Complex := do
  let re ← Ratio.add a.real_ b.real_
  let im ← Ratio.add a.imag_ b.imag_
  pure ⟨re, im⟩
/-- src/complex/arith/add.rs 13-16 -/
def add_mut (a b : Complex) : M Complex := do
  let re ← Ratio.add_mut a.real_ b.real_
  let im ← Ratio.add_mut a.imag_ b.imag_
  pure ⟨re, im⟩
/-- src/complex/arith/add.rs 19-24 -/
def add_i32 (a : Complex) (o : Int) : M Complex := do
  let re ← Ratio.add_i32 a.real_ o
  pure ⟨re, a.imag_⟩
/-- src/complex/arith/add.rs 26-28 -/
def add_i32_mut (a : Complex) (o : Int) : M Complex := do
  let re ← Ratio.add_i32_mut a.real_ o
  pure ⟨re, a.imag_⟩

end Complex
end Hmath
