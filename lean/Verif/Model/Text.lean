import Verif.Model.Poly
import Verif.Model.RatioPrint

/-!
# Text of polynomials and matrices
-/

namespace Hmath

namespace Poly

/-- the text of a coefficient: `to_approx_string(n)` if `approx` is `Some(n)`, else `to_ratio_string()`
(src/poly.rs 196-200, 206-210) -/
def coeffText (approx : Option Nat) (a : Ratio) : M Str :=
  match approx with
  | some n => a.to_approx_string n
  | none => a.to_ratio_string

/-- what is pushed for the sign of a coefficient (src/poly.rs 185-193); `first` is `result.is_empty()` -/
def signText (first : Bool) (neg : Bool) : List Str :=
  if !first then (if neg then [" - ".toList] else [" + ".toList])
  else if neg then ["-".toList] else []

/-- what is pushed for the absolute value of a coefficient (src/poly.rs 195-211) -/
def absText (approx : Option Nat) (ind : Nat) (a : Ratio) : M (List Str) :=
  if !a.is_one then do
    let t ← coeffText approx a
    pure (if ind > 0 then [t, " * ".toList] else [t])
  else if ind == 0 then do
    let t ← coeffText approx a
    pure [t]
  else pure []

/-- what is pushed for the power (src/poly.rs 213-219) -/
def powText (ind : Nat) : List Str :=
  (if ind != 0 then ["x".toList] else []) ++ (if ind > 1 then ['^' :: Nat.toDigits 10 ind] else [])

/-- the `for` loop (src/poly.rs 178-220) -/
def textLoop (approx : Option Nat) : List (Ratio × Nat) → List Str → M (List Str)
  | [], result => pure result
  | (value, ind) :: rest, result =>
    if value.is_zero then textLoop approx rest result
    else do
      let result := result ++ signText result.isEmpty value.is_neg
      let t ← absText approx ind value.abs
      textLoop approx rest (result ++ t ++ powText ind)

/-- src/poly.rs 175-227 -/
def to_string (p : Poly) (approx : Option Nat) : M Str := do
  let result ← textLoop approx p.coeffs.reverse.zipIdx.reverse []
  let result := if result.isEmpty then ["0".toList] else result
  pure result.flatten

/-- src/poly.rs 167-169 -/
def to_approx_string (p : Poly) (max_len : Nat) : M Str := to_string p (some max_len)

/-- src/poly.rs 171-173 -/
def to_ratio_string (p : Poly) : M Str := to_string p none

end Poly

namespace Mat

/-- `join(", ")` on a vector of strings, with the brackets of the `format!` around it (src/matrix.rs 221-229) -/
def brackets (l : List Str) : Str := '[' :: (List.intercalate ", ".toList l ++ [']'])

/-- src/matrix.rs 220-230 -/
def to_ratio_string (A : Mat) : M Str := do
  let rows ← A.data.mapM (fun row => do
    let l ← row.mapM Ratio.to_ratio_string
    pure (brackets l))
  pure (brackets rows)

end Mat
end Hmath
