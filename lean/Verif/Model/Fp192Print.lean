import Verif.Model.Fp192Str

/-!
# 192-bit floating point numbers: printing

Model of src/fp192/convert/string.rs 226-352 and 487-502.  Formatting an integer is `Nat.toDigits`.

`exp` is an `i64` whose magnitude is at most `2^39` (it is a logarithm of an `i64` plus the number of rounds of loops over a
`u128`), so that its additions cannot overflow; they are not checked here.
-/

namespace Hmath
namespace F192

/-- `approx_log10` (src/fp192/convert/string.rs 233) -/
def approxLog10 (x : F192) : M Int := do
  let l ← fast_log2 x
  pure (((l * 21306).tdiv 70777).tdiv 16777216)

/-- the number scaled to about 21 digits, and the exponent (src/fp192/convert/string.rs 234-245) -/
def approxScale (x : F192) : M (F192 × Int) := do
  let l ← approxLog10 x
  if l > 22 then do
    let p ← pow10 (l - 20)
    let n ← div (abs x) p
    pure (n, l - 20)
  else if l < 18 then do
    let p ← pow10 (20 - l)
    let n ← mul (abs x) p
    pure (n, l - 20)
  else pure (abs x, 0)

/-- `while n >= upper_bound` (src/fp192/convert/string.rs 252-255) -/
def downLoop (n : Nat) (exp : Int) : Nat × Int :=
  if n ≥ 1000000000000000000000 then downLoop (n / 10) (exp + 1) else (n, exp)
termination_by n
decreasing_by omega

/-- `while n < lower_bound` (src/fp192/convert/string.rs 257-260) -/
def upLoop (n : Nat) (exp : Int) : M (Nat × Int) :=
  if n < 100000000000000000000 then do
    let n ← uMul B128 n 10
    upLoop n (exp - 1)
  else pure (n, exp)
partial_fixpoint

/-- rounding to 19 digits (src/fp192/convert/string.rs 262-268) -/
def roundDigits (n : Nat) (exp : Int) : Nat × Int :=
  (if n % 100 ≥ 50 then n / 100 + 1 else n / 100, exp + 2)

/-- `while n % 10 == 0` (src/fp192/convert/string.rs 270-273) -/
def stripLoop (n : Nat) (exp : Int) : M (Nat × Int) :=
  if n % 10 = 0 then stripLoop (n / 10) (exp + 1) else pure (n, exp)
partial_fixpoint

/-- the loop of `log10` (src/fp192/convert/string.rs 495-498) -/
def log10Loop (n result : Nat) : M Nat :=
  if n ≥ 10 then do
    let result ← u32Add result 1
    log10Loop (n / 10) result
  else pure result
termination_by n
decreasing_by omega

/-- src/fp192/convert/string.rs 487-502 -/
def log10 (n : Nat) : M Nat :=
  if n > 1000000000 then do
    let r ← log10 (n / 1000000000)
    u32Add r 9
  else log10Loop n 0
termination_by n
decreasing_by omega

/-- `format!("{}.{}e{}", ns.get(0..1).unwrap(), ns.get(1..).unwrap(), ..)` (src/fp192/convert/string.rs 290-298 and
333-341); `ns` has at least one digit -/
def sciText (n : Nat) (e : Int) : Str :=
  (Nat.toDigits 10 n).take 1 ++ '.' :: ((Nat.toDigits 10 n).drop 1 ++ 'e' :: intText e)
where
  /-- an integer as text -/
  intText (e : Int) : Str := (if e < 0 then ['-'] else []) ++ Nat.toDigits 10 e.natAbs

/-- the text for `exp >= 0` (src/fp192/convert/string.rs 278-299) -/
def posText (n : Nat) (exp : Int) (log10_n : Nat) : M Str := do
  let e := (exp % 4294967296).toNat
  let s ← u32Add e log10_n
  if s < 10 then do
    let r ← uMul B128 n (10 ^ e)
    pure (Nat.toDigits 10 r)
  else if log10_n = 0 then pure (Nat.toDigits 10 n ++ 'e' :: Nat.toDigits 10 e)
  else pure (sciText n s)

/-- `result.trim_end_matches('0')` -/
def trimEnd (s : Str) : Str := (trimZeros s.reverse).reverse

/-- the text for `exp < 0` (src/fp192/convert/string.rs 302-342).  An index `as usize` that is negative becomes too large for the
string. -/
def negText (n : Nat) (exp : Int) (log10_n : Nat) : M Str :=
  if (log10_n : Int) ≥ (-exp) % 4294967296 then
    let index := (log10_n : Int) + exp + 1
    let ns := Nat.toDigits 10 n
    if 0 ≤ index ∧ index ≤ ns.length then pure (ns.take index.toNat ++ '.' :: ns.drop index.toNat)
    else throw .unwrap
  else
    let zeros := (-exp - log10_n - 1).toNat
    if zeros < 8 then
      let result := '0' :: '.' :: (List.replicate zeros '0' ++ Nat.toDigits 10 n)
      let result := if result.length > 22 then result.take 22 else result
      pure (trimEnd result)
    else if log10_n = 0 then pure (Nat.toDigits 10 n ++ 'e' :: sciText.intText exp)
    else pure (sciText n (exp + log10_n))

/-- the text of `n * 10^exp` (src/fp192/convert/string.rs 275-343) -/
def digitText (n : Nat) (exp : Int) : M Str := do
  let log10_n ← log10 n
  if exp ≥ 0 then posText n exp log10_n else negText n exp log10_n

/-- src/fp192/convert/string.rs 227-352 -/
def to_approx_string (x : F192) : M Str :=
  if is_zero x then pure ['0']
  else do
    let p ← approxScale x
    let n ← to_u128 p.1
    let n ← unwrapO n
    let q := downLoop n p.2
    let q ← upLoop q.1 q.2
    let q := roundDigits q.1 q.2
    let q ← stripLoop q.1 q.2
    let ds ← digitText q.1 q.2
    pure (if is_neg x then '-' :: ds else ds)

end F192
end Hmath
