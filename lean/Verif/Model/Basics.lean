import Verif.Model.Ratio
import Verif.Model.Fp192

/-!
# Raw parts, default values and the validity checks of the library's own tests
-/

namespace Hmath

namespace UBig

/-- src/ubigint.rs 56-58 -/
def from_raw (vec : List Nat) : UBig := vec

/-- src/ubigint.rs 61-63 -/
def into_raw (a : UBig) : List Nat := a

/-- src/ubigint.rs 67 -/
def default : UBig := zero

/-- src/ubigint.rs 40-52, without the printing; `self.0[self.len() - 1]` is in range after the first check -/
def is_valid (a : UBig) : Bool :=
  if a.length = 0 then false
  else if a.length > 1 ∧ a.getD (a.length - 1) 0 = 0 then false
  else true

end UBig

namespace BigI

/-- src/bigint.rs 50-52 -/
def from_raw (vec : List Nat) (is_neg : Bool) : BigI := ⟨UBig.from_raw vec, is_neg⟩

/-- src/bigint.rs 55-57 -/
def into_raw (a : BigI) : List Nat × Bool := (UBig.into_raw a.mag, a.neg)

/-- src/bigint.rs 66 -/
def default : BigI := zero

/-- src/bigint.rs 60-62 -/
def is_valid (a : BigI) : Bool := UBig.is_valid a.mag && (!UBig.is_zero a.mag || !is_neg a)

end BigI

namespace Ratio

/-- src/ratio.rs 27-29 -/
def from_raw (denom : List Nat) (denom_neg : Bool) (numer : List Nat) (numer_neg : Bool) : Ratio :=
  ⟨BigI.from_raw denom denom_neg, BigI.from_raw numer numer_neg⟩

/-- src/ratio.rs 32-38 -/
def into_raw (a : Ratio) : List Nat × Bool × List Nat × Bool :=
  let (denom, denom_neg) := BigI.into_raw a.denom
  let (numer, numer_neg) := BigI.into_raw a.numer
  (denom, denom_neg, numer, numer_neg)

/-- src/ratio.rs 40-42 -/
def get_denom (a : Ratio) : BigI := a.denom

/-- src/ratio.rs 44-46 -/
def get_numer (a : Ratio) : BigI := a.numer

/-- src/ratio.rs 169 -/
def default : Ratio := zero

end Ratio

namespace F192

/-- src/fp192/consts.rs 25-28 -/
def MIN_POSITIVE : F192 := ⟨1, 0⟩

/-- src/fp192.rs 129-131 -/
def default : F192 := ZERO

end F192

end Hmath
