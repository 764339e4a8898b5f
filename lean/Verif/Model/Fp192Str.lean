import Verif.Model.Fp192Funcs
import Verif.Model.Str

/-!
# 192-bit floating point numbers: parsing and printing

Model of src/fp192/convert/string.rs 1-217 and 504-532.  A string is the list of its characters.
-/

namespace Hmath
namespace F192

/-! ### parsing -/

/-- `char::is_ascii_digit` -/
def isDigit (c : Char) : Bool := (toDigit 10 c).isSome

/-- src/fp192/convert/string.rs 6-13 -/
inductive PState where
  | init | initZero | readDigit | readBase (base : Nat) | readSubZero | readExp
  deriving DecidableEq, Repr

/-- the local variables of `from_str` (src/fp192/convert/string.rs 19-23); the buffers are in order.
`exp` counts characters down from zero, so that its decrement cannot overflow before the string exceeds the
address space; it is not checked here. -/
structure PSt where
  st : PState
  neg : Bool
  digits : Str
  exp : Int
  expBuf : Str
  deriving DecidableEq, Repr

/-- state `Init` (src/fp192/convert/string.rs 27-50) -/
def pInit (s : PSt) (c : Char) : Except ConvErr PSt :=
  if c = '-' then if s.neg then .error (.invalidChar c) else .ok { s with neg := true }
  else if c = '0' then .ok { s with st := .initZero }
  else if isDigit c then .ok { s with st := .readDigit, digits := s.digits ++ [c] }
  else .error (.invalidChar c)

/-- state `InitZero` (src/fp192/convert/string.rs 51-75) -/
def pInitZero (s : PSt) (c : Char) : Except ConvErr PSt :=
  if c = 'x' ∨ c = 'X' then .ok { s with st := .readBase 16 }
  else if c = 'o' ∨ c = 'O' then .ok { s with st := .readBase 8 }
  else if c = 'b' ∨ c = 'B' then .ok { s with st := .readBase 2 }
  else if c = 'e' ∨ c = 'E' then .ok { s with st := .readExp }
  else if c = '.' then .ok { s with st := .readSubZero }
  else .error (.invalidChar c)

/-- state `ReadBase` (src/fp192/convert/string.rs 76-87) -/
def pReadBase (s : PSt) (base : Nat) (c : Char) : Except ConvErr PSt :=
  match toDigit base c with
  | some n => .ok { s with digits := s.digits ++ [Char.ofNat (n + 32)] }
  | none => if c = '_' then .ok s else .error (.invalidChar c)

/-- state `ReadDigit` (src/fp192/convert/string.rs 88-106) -/
def pReadDigit (s : PSt) (c : Char) : Except ConvErr PSt :=
  if isDigit c then .ok { s with digits := s.digits ++ [c] }
  else if c = '_' then .ok s
  else if c = '.' then .ok { s with st := .readSubZero }
  else if c = 'e' ∨ c = 'E' then .ok { s with st := .readExp }
  else .error (.invalidChar c)

/-- state `ReadSubZero` (src/fp192/convert/string.rs 107-122) -/
def pReadSubZero (s : PSt) (c : Char) : Except ConvErr PSt :=
  if isDigit c then .ok { s with digits := s.digits ++ [c], exp := s.exp - 1 }
  else if c = '_' then .ok s
  else if c = 'e' ∨ c = 'E' then .ok { s with st := .readExp }
  else .error (.invalidChar c)

/-- the `match` of the loop (src/fp192/convert/string.rs 26-126) -/
def pStep (s : PSt) (c : Char) : Except ConvErr PSt :=
  match s.st with
  | .init => pInit s c
  | .initZero => pInitZero s c
  | .readBase b => pReadBase s b c
  | .readDigit => pReadDigit s c
  | .readSubZero => pReadSubZero s c
  | .readExp => .ok { s with expBuf := s.expBuf ++ [c] }

/-- the loop (src/fp192/convert/string.rs 25-127) -/
def pLoop : Str → PSt → Except ConvErr PSt
  | [], s => .ok s
  | c :: cs, s =>
    match pStep s c with
    | .ok s' => pLoop cs s'
    | .error e => .error e

/-- one more chunk of digits (src/fp192/convert/string.rs 149-150, 158-159) -/
def pushChunk (result : F192) (exp curr : Nat) : M F192 := do
  let e ← from_uint exp
  let r ← mul result e
  let c ← from_uint curr
  add r c

/-- the loop of the state `ReadBase` (src/fp192/convert/string.rs 141-155) -/
def baseLoop (base : Nat) : Str → Nat → Nat → F192 → M (Nat × Nat × F192)
  | [], curr, exp, result => pure (curr, exp, result)
  | c :: cs, curr, exp, result => do
    let n ← uSub c.toNat 32
    let exp ← u64Mul exp base
    let curr ← u64Mul curr base
    let curr ← u64Add curr n
    if exp > 72057594037927936 then do
      let r ← pushChunk result exp curr
      baseLoop base cs 0 1 r
    else baseLoop base cs curr exp result

/-- the end of the state `ReadBase` (src/fp192/convert/string.rs 136-163) -/
def finishBase (base : Nat) (digits : Str) : M F192 := do
  let p ← baseLoop base digits 0 1 ZERO
  if p.2.1 > 1 then pushChunk p.2.2 p.2.1 p.1 else pure p.2.2

/-- the value of a string of decimal digits -/
def decFold : Str → Nat → Option Nat
  | [], acc => some acc
  | c :: cs, acc =>
    match toDigit 10 c with
    | some d => decFold cs (acc * 10 + d)
    | none => none

/-- `str::parse` of the Rust standard library for an unsigned integer, without the range check -/
def parseUInt (s : Str) : Option Nat := if s = [] then none else decFold s 0

/-- `str::parse::<i64>` of the Rust standard library -/
def parseI64 (s : Str) : Option Int :=
  match s with
  | '-' :: t =>
    match parseUInt t with
    | some n => if n ≤ 9223372036854775808 then some (-n) else none
    | none => none
  | '+' :: t =>
    match parseUInt t with
    | some n => if n ≤ 9223372036854775807 then some n else none
    | none => none
  | s =>
    match parseUInt s with
    | some n => if n ≤ 9223372036854775807 then some n else none
    | none => none

/-- the second loop over the digits (src/fp192/convert/string.rs 196-200) -/
def singleLoop : Str → F192 → M F192
  | [], result => pure result
  | c :: cs, result => do
    let r ← mul_i32 result 10
    let d ← uSub c.toNat 48
    let d ← from_uint d
    let r ← add r d
    singleLoop cs r

/-- the loops over the digits (src/fp192/convert/string.rs 185-200); the value of six digits is below the bound of `u32` -/
def digitLoop (digits : Str) (result : F192) : M F192 :=
  if digits.length > 6 then do
    let r ← mul_i32 result 1000000
    let d ← unwrapO (parseUInt (digits.take 6))
    let d ← from_uint d
    let r ← add r d
    digitLoop (digits.drop 6) r
  else singleLoop digits result
termination_by digits.length

/-- src/fp192/convert/string.rs 516-532 -/
def pow10_worker (n : Nat) : M F192 :=
  if n < 37 then from_uint (10 ^ n)
  else do
    let r ← pow10_worker (n / 2)
    let r ← mul r r
    if n % 2 = 1 then do
      let ten ← from_uint 10
      mul r ten
    else pure r
termination_by n

/-- src/fp192/convert/string.rs 504-514 -/
def pow10 (n : Int) : M F192 := do
  let k ← i64Abs n
  if n < 0 then do
    let p ← pow10_worker k
    div ONE p
  else pow10_worker k

/-- the exponent when only 39 digits are used (src/fp192/convert/string.rs 180-182) -/
def cutExp (len : Nat) (exp : Int) : M Int := if len > 39 then i64Chk (exp + (len - 39)) else pure exp

/-- the digits and the exponent are known (src/fp192/convert/string.rs 176-215) -/
def finishNumber (neg : Bool) (digits : Str) (exp : Int) : M F192 :=
  if exp < -281474976710656 then pure ZERO
  else do
    let exp ← cutExp digits.length exp
    let r ← digitLoop (digits.take 39) ZERO
    let r := if neg then F192.neg r else r
    if exp ≠ 0 then do
      let p ← pow10 exp
      mul r p
    else pure r

/-- the end of the decimal states (src/fp192/convert/string.rs 164-215) -/
def finishDec (s : PSt) : M (Except ConvErr F192) :=
  if s.expBuf ≠ [] then
    match parseI64 s.expBuf with
    | none => pure (.error .tryFromInt)
    | some x => do
      let e ← i64Chk (s.exp + x)
      if s.digits = [] then pure (.ok ZERO)
      else do
        let r ← finishNumber s.neg s.digits e
        pure (.ok r)
  else do
    let r ← finishNumber s.neg s.digits s.exp
    pure (.ok r)

/-- src/fp192/convert/string.rs 18-217 -/
def from_str (s : Str) : M (Except ConvErr F192) :=
  match pLoop s ⟨.init, false, [], 0, []⟩ with
  | .error e => pure (.error e)
  | .ok p =>
    match p.st with
    | .init => pure (.error .noData)
    | .initZero => pure (.ok ZERO)
    | .readBase b => do
      let r ← finishBase b p.digits
      pure (.ok r)
    | _ => finishDec p

end F192
end Hmath
