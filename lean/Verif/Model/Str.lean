import Verif.Model.BigInt

/-!
# Conversions from and to strings

Model of src/ubigint/convert.rs 78-282, 331-360 and src/bigint/convert.rs
90-173.  A string is the list of its characters (`s.chars()`), `String` results
are lists of characters; the formatting macros of the Rust standard library are
`Nat.toDigits` (most significant digit first, lower case) and `padL`.
-/

namespace Hmath

/-- a Rust `&str` / `String` as its characters -/
abbrev Str := List Char

/-- `char::to_digit(radix)` of the Rust standard library (`radix ≤ 36`) -/
def toDigit (radix : Nat) (c : Char) : Option Nat :=
  let v := c.toNat
  let d :=
    if 48 ≤ v ∧ v ≤ 57 then v - 48
    else if 97 ≤ v ∧ v ≤ 122 then v - 87
    else if 65 ≤ v ∧ v ≤ 90 then v - 55
    else radix
  if d < radix then some d else none

/-- the zero padding of `format!("{:0k}", ..)` -/
def padL (k : Nat) (s : Str) : Str := List.replicate (k - s.length) '0' ++ s

/-- `str::trim_start_matches('0')` -/
def trimZeros : Str → Str
  | [] => []
  | c :: s => if c = '0' then trimZeros s else c :: s

namespace UBig

/-- src/ubigint/convert.rs 286-291 -/
inductive Fsm where
  | init | initialZero | initNum | readNum
  deriving DecidableEq, Repr

/-- the local variables of `from_string` (src/ubigint/convert.rs 83-87) -/
structure FsmSt where
  st : Fsm
  buf : Nat
  ubi : UBig
  coeff : Nat
  base : Nat
  deriving DecidableEq, Repr

/-- state `Init` (src/ubigint/convert.rs 95-110) -/
def fsInit (s : FsmSt) (c : Char) : Except ConvErr FsmSt :=
  if c = '0' then .ok { s with st := .initialZero }
  else
    match toDigit 10 c with
    | some n => .ok { s with st := .readNum, buf := n, coeff := 10 }
    | none => .error (.invalidChar c)

/-- state `InitialZero` (src/ubigint/convert.rs 111-130) -/
def fsInitialZero (s : FsmSt) (c : Char) : Except ConvErr FsmSt :=
  if c.toLower = 'x' then .ok { s with st := .initNum, base := 16 }
  else if c.toLower = 'b' then .ok { s with st := .initNum, base := 2 }
  else if c.toLower = 'o' then .ok { s with st := .initNum, base := 8 }
  else .error (.invalidChar c)

/-- state `InitNum` (src/ubigint/convert.rs 131-142) -/
def fsInitNum (s : FsmSt) (c : Char) : Except ConvErr FsmSt :=
  match toDigit 16 c with
  | some n =>
    if n < s.base then .ok { s with st := .readNum, buf := n, coeff := s.base }
    else .error (.invalidChar c)
  | none => .error (.invalidChar c)

/-- the body of the accepting arm of state `ReadNum` (src/ubigint/convert.rs 146-156) -/
def fsPush (s : FsmSt) (n : Nat) : M FsmSt := do
  let b ← u32Mul s.buf s.base
  let b ← u32Add b n
  let k ← u32Mul s.coeff s.base
  if k > 0x8000000 then do
    let u ← mul_u32_mut s.ubi k
    let u ← add_u32_mut u b
    pure { s with buf := 0, ubi := u, coeff := 1 }
  else pure { s with buf := b, coeff := k }

/-- state `ReadNum` (src/ubigint/convert.rs 143-162) -/
def fsReadNum (s : FsmSt) (c : Char) : M (Except ConvErr FsmSt) :=
  match toDigit 16 c with
  | some n =>
    if n < s.base then do
      let r ← fsPush s n
      pure (.ok r)
    else pure (.error (.invalidChar c))
  | none => pure (.error (.invalidChar c))

/-- the `match curr_state` (src/ubigint/convert.rs 94-163) -/
def fsStep (s : FsmSt) (c : Char) : M (Except ConvErr FsmSt) :=
  match s.st with
  | .init => pure (fsInit s c)
  | .initialZero => pure (fsInitialZero s c)
  | .initNum => pure (fsInitNum s c)
  | .readNum => fsReadNum s c

/-- the `for` loop (src/ubigint/convert.rs 89-164) -/
def fsLoop : Str → FsmSt → M (Except ConvErr FsmSt)
  | [], s => pure (.ok s)
  | c :: cs, s =>
    if c = '_' ∧ s.st ≠ .init then fsLoop cs s
    else do
      match ← fsStep s c with
      | .ok s' => fsLoop cs s'
      | .error e => pure (.error e)

/-- the final `match` (src/ubigint/convert.rs 166-179) -/
def fsFinish (s : FsmSt) : M (Except ConvErr UBig) :=
  match s.st with
  | .initialZero => pure (.ok zero)
  | .readNum =>
    if s.coeff > 1 then do
      let u ← mul_u32_mut s.ubi s.coeff
      let u ← add_u32_mut u s.buf
      pure (.ok u)
    else pure (.ok s.ubi)
  | .init => pure (.error .noData)
  | .initNum => pure (.error .noData)

/-- src/ubigint/convert.rs 82-180 (also `FromStr`, `TryFrom<&str>`, `TryFrom<String>`) -/
def from_string (s : Str) : M (Except ConvErr UBig) := do
  match ← fsLoop s ⟨.init, 0, zero, 1, 10⟩ with
  | .ok st => fsFinish st
  | .error e => pure (.error e)

/-! ### printing -/

/-- the loop of `to_string_dec` (src/ubigint/convert.rs 213-218); `buffer.push` is `::`,
so no reversal is needed afterwards. -/
def decLoop (n : UBig) (buffer : List Str) : M (List Str) :=
  if n.length > 1 then do
    let r ← rem_u32 n 1000000000
    let x ← idx r 0
    let n ← div_u32_mut n 1000000000
    decLoop n (padL 9 (Nat.toDigits 10 x) :: buffer)
  else do
    let x ← idx n 0
    pure (Nat.toDigits 10 x :: buffer)
partial_fixpoint

/-- src/ubigint/convert.rs 209-222 -/
def to_string_dec (a : UBig) : M Str := do
  let buffer ← decLoop a []
  pure buffer.flatten

/-- the common tail of the `to_string_*` functions (src/ubigint/convert.rs 230-239,
254-263, 272-281): `top` is the reversed buffer without the prefix. -/
def finishDigits (pre : Str) (top : List Str) : M Str :=
  match top with
  | [] => throw .index
  | t :: rest =>
    let t := trimZeros t
    pure ((pre :: (if t.length = 0 then ['0'] else t) :: rest).flatten)

/-- src/ubigint/convert.rs 225-240 -/
def to_string_hex (a : UBig) (prefx : Bool) : M Str :=
  finishDigits (if prefx then ['0', 'x'] else [])
    (a.map (fun n => padL 8 (Nat.toDigits 16 n))).reverse

/-- the loop of `to_string_oct` (src/ubigint/convert.rs 247-252) -/
def octLoop (n : UBig) (buffer : List Str) : M (List Str) :=
  if n.length > 1 then do
    let r ← rem_pow2 n 0o10000000000
    let x ← idx r 0
    let n ← div_u32_mut n 0o10000000000
    octLoop n (padL 10 (Nat.toDigits 8 x) :: buffer)
  else do
    let x ← idx n 0
    pure (Nat.toDigits 8 x :: buffer)
partial_fixpoint

/-- src/ubigint/convert.rs 243-264 -/
def to_string_oct (a : UBig) (prefx : Bool) : M Str := do
  let buffer ← octLoop a []
  finishDigits (if prefx then ['0', 'o'] else []) buffer

/-- src/ubigint/convert.rs 267-282 -/
def to_string_bin (a : UBig) (prefx : Bool) : M Str :=
  finishDigits (if prefx then ['0', 'b'] else [])
    (a.map (fun n => padL 32 (Nat.toDigits 2 n))).reverse

/-! ### scientific notation -/

/-- src/ubigint/convert.rs 335-339; `digits` is the vector after the later `reverse`
(line 345), so `push` is `::`. -/
def sciLoop (n exp : Nat) (digits : List Nat) : Nat × List Nat :=
  if h : n > 0 then sciLoop (n / 10) (exp + 1) (n % 10 :: digits)
  else (exp, digits)
termination_by n
decreasing_by exact Nat.div_lt_self h (by decide)

/-- src/ubigint/convert.rs 347-349 on the reversed vector (`pop` removes the head) -/
def sciPop (max : Nat) : List Nat → List Nat
  | [] => []
  | x :: xs =>
    if xs.length + 1 > max ∨ (xs.length + 1 > 1 ∧ x = 0) then sciPop max xs else x :: xs

/-- src/ubigint/convert.rs 351-357 -/
def sciFormat : List Nat → Str
  | [] => ['0']
  | [d] => Nat.toDigits 10 d
  | d :: ds => Nat.toDigits 10 d ++ '.' :: (ds.map (Nat.toDigits 10)).flatten

/-- src/ubigint/convert.rs 331-360 -/
def sciOf (n max : Nat) : Str × Nat :=
  let x := sciLoop n 0 []
  let exp := if x.2.length > 0 then x.1 - 1 else x.1
  (sciFormat (sciPop max x.2.reverse).reverse, exp)

/-- src/ubigint/convert.rs 191-194 -/
def sciBig (n : UBig) (exp : Nat) : M (UBig × Nat) :=
  if n.length > 8 then do
    let n ← div_mut n [0, 0, 3211403009, 1849224548, 3668416493, 3913284084, 1593091]
    sciBig n (exp + 64)
  else pure (n, exp)
partial_fixpoint

/-- src/ubigint/convert.rs 197-200 -/
def sciSmall (n : UBig) (exp : Nat) : M (UBig × Nat) :=
  if n.length > 2 then do
    let n ← div_u32_mut n 1000000000
    sciSmall n (exp + 9)
  else pure (n, exp)
partial_fixpoint

/-- src/ubigint/convert.rs 183-207 (the exponent is a `usize`) -/
def to_scientific_notation (a : UBig) (max : Nat) : M Str := do
  let x ← sciBig a 0
  let x ← sciSmall x.1 x.2
  let t ← to_u64 x.1
  let n ← unwrapR t
  let d := sciOf n max
  pure (d.1 ++ 'e' :: Nat.toDigits 10 (x.2 + d.2))

end UBig

namespace BigI

/-- src/bigint/convert.rs 92-128 (`s.get(1..)` is `Some` because `-` is one byte) -/
def from_string (s : Str) : M (Except ConvErr BigI) :=
  match s with
  | [] => pure (.error .noData)
  | c :: cs =>
    if c = '-' then do
      match ← UBig.from_string cs with
      | .ok n => pure (.ok ⟨n, !UBig.is_zero n⟩)
      | .error e => pure (.error e)
    else do
      match ← UBig.from_string (c :: cs) with
      | .ok n => pure (.ok ⟨n, false⟩)
      | .error e => pure (.error e)

/-- `if self.is_neg() { "-" } else { "" }` followed by the digits -/
def withSign (a : BigI) (s : Str) : Str := (if BigI.is_neg a then ['-'] else []) ++ s

/-- src/bigint/convert.rs 131-137 -/
def to_scientific_notation (a : BigI) (max : Nat) : M Str := do
  let s ← UBig.to_scientific_notation a.mag max
  pure (withSign a s)
/-- src/bigint/convert.rs 140-146 -/
def to_string_dec (a : BigI) : M Str := do
  let s ← UBig.to_string_dec a.mag
  pure (withSign a s)
/-- src/bigint/convert.rs 149-155 -/
def to_string_hex (a : BigI) (prefx : Bool) : M Str := do
  let s ← UBig.to_string_hex a.mag prefx
  pure (withSign a s)
/-- src/bigint/convert.rs 158-164 -/
def to_string_oct (a : BigI) (prefx : Bool) : M Str := do
  let s ← UBig.to_string_oct a.mag prefx
  pure (withSign a s)
/-- src/bigint/convert.rs 167-173 -/
def to_string_bin (a : BigI) (prefx : Bool) : M Str := do
  let s ← UBig.to_string_bin a.mag prefx
  pure (withSign a s)

end BigI
end Hmath
