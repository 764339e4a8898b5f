import Verif.Model.Ratio
import Verif.Model.Log
import Verif.Model.Casts
import Verif.Model.Tables

/-!
# Series and iterations over `Ratio`
(src/ratio/e.rs, pi.rs, ln2.rs, funcs/*.rs, src/consts.rs)

`for i in 0..iter` is a fold over `List.range iter`.  Products of `usize` loop counters such as
`i * 4 + 4` are taken without an overflow check (they would need `iter ≥ 2^61`); the following
`as i32` cast is modelled exactly.  `sinh_iter`, `cosh_iter`, `tanh_iter` are `todo!()`.
-/

namespace Hmath

/-- src/bigint/funcs.rs 68-70 -/
def BigI.factorial (n : Nat) : M BigI := do
  let f ← UBig.factorial n
  pure (BigI.from_ubi f false)

/-- src/bigint/funcs.rs 30-32 -/
def BigI.sqrt (a : BigI) : M BigI := do
  let s ← UBig.sqrt a.mag
  pure (BigI.from_ubi s a.neg)

namespace Ratio

/-! ### e, pi, ln 2 -/

/-- the loop body of `e_iter` (src/ratio/e.rs 10-12) -/
def eStep (s : BigI × Int) (_ : Nat) : M (BigI × Int) := do
  let numer ← BigI.mul_i32_mut s.1 s.2
  let numer ← BigI.add_i32_mut numer 1
  let curr_fac ← i32Add s.2 1
  pure (numer, curr_fac)

/-- src/ratio/e.rs 5-16 -/
def e_iter (k : Nat) : M Ratio := do
  let numer ← BigI.from_i64 330665665962404000
  let s ← (List.range k).foldlM eStep (numer, 20)
  let f ← uSub (s.2 % 4294967296).toNat 1
  let d ← BigI.factorial f
  from_denom_and_numer d s.1

/-- the loop body of `pi_iter` (src/ratio/pi.rs 13-19) -/
def piStep (s : Ratio × Ratio) (i : Nat) : M (Ratio × Ratio) := do
  let e ← idx PI_TABLE i
  let d ← BigI.from_i128 e.2
  let n ← BigI.from_i128 e.1
  let t ← (from_denom_and_numer_raw d n).mul s.2
  let result ← s.1.add_mut t
  let coeff ← s.2.div_i32_mut 256
  pure (result, coeff)

/-- src/ratio/pi.rs 8-23 -/
def pi_iter (k : Nat) : M Ratio := do
  let coeff ← from_denom_and_numer_i32 256 1
  let result ← from_denom_and_numer_i32 0x7ff8 0x19201
  let s ← (List.range k).foldlM piStep (result, coeff)
  pure s.1

/-- the loop body of `ln2_iter` (src/ratio/ln2.rs 11-14) -/
def ln2Step (s : Ratio × BigI) (i : Nat) : M (Ratio × BigI) := do
  let e ← idx LN2_TABLE i
  let d ← BigI.from_i64 e.1
  let n ← BigI.from_i64 e.2
  let t ← (from_denom_and_numer_raw d n).div_bi s.2
  let result ← s.1.add_mut t
  let coeff ← BigI.mul_i32_mut s.2 64
  pure (result, coeff)

/-- src/ratio/ln2.rs 6-18 -/
def ln2_iter (k : Nat) : M Ratio := do
  let result ← from_denom_and_numer_i32 11354112 7869871
  let coeff ← BigI.from_i64 4096
  let s ← (List.range k).foldlM ln2Step (result, coeff)
  pure s.1

/-- src/consts.rs 7-9 -/
def pi_const : Ratio :=
  ⟨⟨[0, 1996488704, 521357240, 2800251216, 760460394, 6200936], false⟩,
   ⟨[793201965, 2280519292, 3213394952, 1450523626, 2315958499, 19480815], false⟩⟩
/-- src/consts.rs 12-14 -/
def e_const : Ratio :=
  ⟨⟨[0, 1088391135, 3969445709, 745272361], false⟩,
   ⟨[483276161, 3835467358, 2883336425, 2025860318], false⟩⟩
/-- src/consts.rs 17-19 -/
def ln2_const : Ratio :=
  ⟨⟨[0, 0, 2136899584, 447791324, 2873720132, 2653150], false⟩,
   ⟨[1367771821, 4197651235, 226662770, 3985341647, 3890727296, 1839023], false⟩⟩

/-! ### exponential -/

/-- the loop body of `exp_iter`; state `(result, iterator, n)` (src/ratio/funcs/exp.rs 22-25) -/
def expStep (frac : Ratio) (s : Ratio × Ratio × Int) (_ : Nat) : M (Ratio × Ratio × Int) := do
  let result ← s.1.add_mut s.2.1
  let iterator ← s.2.1.mul_mut frac
  let iterator ← iterator.div_i32_mut s.2.2
  let n ← i32Add s.2.2 1
  pure (result, iterator, n)

/-- src/ratio/funcs/exp.rs 9-11 and 21-26 -/
def expSeries (frac : Ratio) (iter : Nat) : M Ratio := do
  let s ← (List.range iter).foldlM (expStep frac) (one, frac, 2)
  pure s.1

/-- the series with the `inverse_iter` detour (src/ratio/funcs/exp.rs 15-30) -/
def expFrac (frac e_approx : Ratio) (iter : Nat) : M Ratio := do
  let t ← from_denom_and_numer_i32 10 9
  let g ← frac.geq t
  if g then do
    let f ← one.sub frac
    let result ← expSeries f iter
    e_approx.div result
  else expSeries frac iter

/-- src/ratio/funcs/exp.rs 4-35 -/
def exp_iter (x : Ratio) (iter : Nat) : M Ratio := do
  let p ← x.truncate_and_frac
  let e_approx ← e_iter iter
  let result ← expFrac p.2 e_approx iter
  let t ← BigI.to_i32 p.1
  let t ← unwrapR t
  let q ← e_approx.pow_i32 t
  result.mul_mut q

/-! ### sine and cosine -/

/-- the loop body of `sin_iter_worker`; state `(result, numer, denom)`
(src/ratio/funcs/trigo.rs 60-76) -/
def sinStep (x_sq : Ratio) (s : Ratio × Ratio × BigI) (i : Nat) : M (Ratio × Ratio × BigI) := do
  let t ← s.2.1.div_bi s.2.2
  let result ← s.1.sub_mut t
  let denom ← BigI.mul_i32_mut s.2.2 (asI32 (i * 4 + 4))
  let denom ← BigI.mul_i32_mut denom (asI32 (i * 4 + 5))
  let numer ← s.2.1.mul_mut x_sq
  let t ← numer.div_bi denom
  let result ← result.add_mut t
  let denom ← BigI.mul_i32_mut denom (asI32 (i * 4 + 6))
  let denom ← BigI.mul_i32_mut denom (asI32 (i * 4 + 7))
  let numer ← numer.mul_mut x_sq
  pure (result, numer, denom)

/-- src/ratio/funcs/trigo.rs 54-83 -/
def sin_iter_worker (x : Ratio) (iter : Nat) : M Ratio := do
  let numer ← x.pow_i32 3
  let x_sq ← x.mul x
  let denom ← BigI.from_i32 6
  let s ← (List.range iter).foldlM (sinStep x_sq) (x, numer, denom)
  let t ← s.2.1.div_bi s.2.2
  s.1.sub_mut t

/-- the loop body of `cos_iter_worker` (src/ratio/funcs/trigo.rs 137-153) -/
def cosStep (x_sq : Ratio) (s : Ratio × Ratio × BigI) (i : Nat) : M (Ratio × Ratio × BigI) := do
  let t ← s.2.1.div_bi s.2.2
  let result ← s.1.sub_mut t
  let denom ← BigI.mul_i32_mut s.2.2 (asI32 (i * 4 + 3))
  let denom ← BigI.mul_i32_mut denom (asI32 (i * 4 + 4))
  let numer ← s.2.1.mul_mut x_sq
  let t ← numer.div_bi denom
  let result ← result.add_mut t
  let denom ← BigI.mul_i32_mut denom (asI32 (i * 4 + 5))
  let denom ← BigI.mul_i32_mut denom (asI32 (i * 4 + 6))
  let numer ← numer.mul_mut x_sq
  pure (result, numer, denom)

/-- src/ratio/funcs/trigo.rs 131-160 -/
def cos_iter_worker (x : Ratio) (iter : Nat) : M Ratio := do
  let x_sq ← x.mul x
  let denom ← BigI.from_i32 2
  let s ← (List.range iter).foldlM (cosStep x_sq) (one, x_sq, denom)
  let t ← s.2.1.div_bi s.2.2
  s.1.sub_mut t

/-- src/ratio/funcs/trigo.rs 21-23 and 98-100 -/
def subPeriods (pi_div : Ratio) : M Ratio := do
  let g ← pi_div.gt_i32 2
  if g then do
    let t ← pi_div.truncate_bi
    let t ← BigI.div_i32 t 2
    let t ← BigI.mul_i32 t 2
    pi_div.sub_bi_mut t
  else pure pi_div

/-- src/ratio/funcs/trigo.rs 25-28 -/
def sinFold (pi_div : Ratio) (neg : Bool) : M (Ratio × Bool) :=
  if pi_div.gt_one then do
    let p ← pi_div.sub_i32_mut 1
    pure (p, !neg)
  else pure (pi_div, neg)

/-- src/ratio/funcs/trigo.rs 30-32 -/
def sinHalf (pi_div : Ratio) : M Ratio := do
  let d ← pi_div.mul_i32 2
  if d.gt_one then one.sub pi_div else pure pi_div

/-- src/ratio/funcs/trigo.rs 16-19 -/
def absSign (pi_div : Ratio) : Ratio × Bool :=
  if pi_div.is_neg then (pi_div.negate_mut, true) else (pi_div, false)

/-- `if negate { result.neg_mut(); }` -/
def negIf (b : Bool) (r : Ratio) : Ratio := if b then r.negate_mut else r

/-- the argument `(1/2 - pi_div) * pi` (src/ratio/funcs/trigo.rs 43 and 120) -/
def coArg (pi_div pi : Ratio) : M Ratio := do
  let h ← from_denom_and_numer_i32 2 1
  let h ← h.sub pi_div
  h.mul pi

/-- src/ratio/funcs/trigo.rs 34-48 -/
def sinFinish (pi_div pi : Ratio) (neg : Bool) (iter : Nat) : M Ratio := do
  let q ← pi_div.mul_i32 4
  if q.lt_one then do
    let y ← pi_div.mul pi
    let r ← sin_iter_worker y iter
    pure (negIf neg r)
  else do
    let y ← coArg pi_div pi
    let r ← cos_iter_worker y iter
    pure (negIf neg r)

/-- src/ratio/funcs/trigo.rs 4-49 -/
def sin_iter (x : Ratio) (iter : Nat) : M Ratio := do
  let pi ← pi_iter iter
  let pi_div ← x.div pi
  let a := absSign pi_div
  let p ← subPeriods a.1
  let f ← sinFold p a.2
  let h ← sinHalf f.1
  sinFinish h pi f.2 iter

/-- src/ratio/funcs/trigo.rs 102-104 -/
def cosFold (pi_div : Ratio) : M Ratio :=
  if pi_div.gt_one then do
    let t ← from_i32 2
    t.sub pi_div
  else pure pi_div

/-- src/ratio/funcs/trigo.rs 106-109 -/
def cosHalf (pi_div : Ratio) : M (Ratio × Bool) := do
  let d ← pi_div.mul_i32 2
  if d.gt_one then do
    let p ← one.sub pi_div
    pure (p, true)
  else pure (pi_div, false)

/-- src/ratio/funcs/trigo.rs 111-125 -/
def cosFinish (pi_div pi : Ratio) (neg : Bool) (iter : Nat) : M Ratio := do
  let q ← pi_div.mul_i32 4
  if q.lt_one then do
    let y ← pi_div.mul pi
    let r ← cos_iter_worker y iter
    pure (negIf neg r)
  else do
    let y ← coArg pi_div pi
    let r ← sin_iter_worker y iter
    pure (negIf neg r)

/-- src/ratio/funcs/trigo.rs 83-126 -/
def cos_iter (x : Ratio) (iter : Nat) : M Ratio := do
  let pi ← pi_iter iter
  let pi_div ← x.div pi
  let p ← subPeriods (absSign pi_div).1
  let f ← cosFold p
  let h ← cosHalf f
  cosFinish h.1 pi h.2 iter

/-- src/ratio/funcs/trigo.rs 163-165 -/
def tan_iter (x : Ratio) (iter : Nat) : M Ratio := do
  let s ← sin_iter x iter
  let c ← cos_iter x iter
  s.div c

/-! ### logarithm -/

/-- cancelling factors of two (src/ratio/funcs/ln.rs 22-25 and 38-41) -/
def halveLoop : Nat → BigI → M (Nat × BigI)
  | 0, n => pure (0, n)
  | c + 1, n => do
    let r ← BigI.rem_pow2 n 2
    if BigI.is_zero r then do
      let n ← BigI.div_i32_mut n 2
      halveLoop c n
    else pure (c + 1, n)

/-- src/ratio/funcs/ln.rs 27-30 and 43-46 -/
def scaleOdd (c : Nat) (d : BigI) : M (Nat × BigI) :=
  if c % 32 = 31 then do
    let d ← BigI.mul_i32_mut d 2
    pure (c - 1, d)
  else pure (c, d)

/-- multiplying by the remaining power of two (src/ratio/funcs/ln.rs 27-33 and 43-49; the shift
`1 << (c % 32)` has `c % 32 ≤ 30` here) -/
def scaleUp (c : Nat) (d : BigI) : M BigI := do
  let p ← scaleOdd c d
  let d ← BigI.mul_i32_mut p.2 (2 ^ (p.1 % 32))
  pure (BigI.shift_left_mut d (p.1 / 32))

/-- `x / 2^l` (src/ratio/funcs/ln.rs 17-50) -/
def lnScale (x : Ratio) (l : Int) : M Ratio :=
  if l > 0 then do
    let p ← halveLoop l.natAbs x.numer
    let d ← scaleUp p.1 x.denom
    pure ⟨d, p.2⟩
  else do
    let p ← halveLoop l.natAbs x.denom
    let n ← scaleUp p.1 x.numer
    pure ⟨p.2, n⟩

/-- the loop body of `ln_iter`; state `(result, x_iter)` (src/ratio/funcs/ln.rs 59-62) -/
def lnStep (a : Ratio) (s : Ratio × Ratio) (k : Nat) : M (Ratio × Ratio) := do
  let x_iter ← s.2.mul_mut a
  let t ← x_iter.div_i32 (asI32 (2 * k + 2))
  let result ← s.1.sub_mut t
  let x_iter ← x_iter.mul_mut a
  let t ← x_iter.div_i32 (asI32 (2 * k + 3))
  let result ← result.add_mut t
  pure (result, x_iter)

/-- `log2_approx` (src/ratio/funcs/ln.rs 16) -/
def lnLog2 (x : Ratio) : M Int := do
  let a ← BigI.log2_accurate x.numer
  let b ← BigI.log2_accurate x.denom
  let d ← BigI.sub a b
  let r ← BigI.to_i64 (BigI.shift_right d 1)
  unwrapR r

/-- src/ratio/funcs/ln.rs 4-66 -/
def ln_iter (x : Ratio) (iter : Nat) : M Ratio :=
  if x.is_neg then throw .explicit
  else if x.is_zero then throw .explicit
  else do
    let l ← lnLog2 x
    let x_iter ← lnScale x l
    let a ← x_iter.sub_i32_mut 1
    let s ← (List.range iter).foldlM (lnStep a) (a, a)
    let c ← ln2_iter iter
    let b ← BigI.from_i64 l
    let t ← c.mul_bi b
    s.1.add t

/-- src/ratio/funcs/ln.rs 69-71 -/
def log_iter (base x : Ratio) (iter : Nat) : M Ratio := do
  let a ← ln_iter x iter
  let b ← ln_iter base iter
  a.div b

/-- src/ratio/funcs/pow.rs 4-11 -/
def pow_iter (a b : Ratio) (iter : Nat) : M Ratio :=
  if a.is_zero then pure zero
  else do
    let l ← ln_iter a iter
    let t ← b.mul l
    exp_iter t iter

/-! ### inverse trigonometric functions -/

/-- the loop body of `asin_iter`; state `(result, curr_coeff, curr_x_coeff)`
(src/ratio/funcs/atrigo.rs 26-30) -/
def asinStep (x_sqr : Ratio) (s : Ratio × Ratio × Ratio) (i : Nat) :
    M (Ratio × Ratio × Ratio) := do
  let t ← s.2.1.mul s.2.2
  let result ← s.1.add_mut t
  let c ← s.2.1.mul_i32_mut (asI32 ((2 * i + 3) * (2 * i + 3) * (2 * i + 4)))
  let c ← c.div_i32_mut (asI32 ((i + 2) * (i + 2) * (2 * i + 5) * 4))
  let xc ← s.2.2.mul_mut x_sqr
  pure (result, c, xc)

/-- src/ratio/funcs/atrigo.rs 5-36 -/
def asin_iter (x : Ratio) (iter : Nat) : M Ratio :=
  if x.gt_one then throw .explicit
  else if x.negate_mut.gt_one then throw .explicit
  else do
    let c ← from_denom_and_numer_i32 6 1
    let x_sqr ← x.mul x
    let xc ← x_sqr.mul x
    let s ← (List.range iter).foldlM (asinStep x_sqr) (x.negate_mut.negate_mut, c, xc)
    let t ← s.2.1.mul s.2.2
    s.1.add_mut t

/-- src/ratio/funcs/atrigo.rs 38-40 -/
def acos_iter (x : Ratio) (iter : Nat) : M Ratio := do
  let p ← pi_iter iter
  let p ← p.div_i32 2
  let a ← asin_iter x iter
  p.sub a

/-- the loop body of `atan_iter`; state `(result, curr_x_coeff, curr_coeff)`
(src/ratio/funcs/atrigo.rs 63-69) -/
def atanStep (x_sqr : Ratio) (s : Ratio × Ratio × Int) (_ : Nat) : M (Ratio × Ratio × Int) := do
  let t ← s.2.1.div_i32 s.2.2
  let result ← s.1.sub_mut t
  let c ← i32Add s.2.2 2
  let xc ← s.2.1.mul_mut x_sqr
  let t ← xc.div_i32 c
  let result ← result.add_mut t
  let c ← i32Add c 2
  let xc ← xc.mul_mut x_sqr
  pure (result, xc, c)

/-- the series of `atan_iter` (src/ratio/funcs/atrigo.rs 58-72) -/
def atanSeries (y : Ratio) (iter : Nat) : M Ratio := do
  let x_sqr ← y.mul y
  let xc ← x_sqr.mul y
  let s ← (List.range iter).foldlM (atanStep x_sqr) (y, xc, 3)
  let t ← s.2.1.div_i32 s.2.2
  s.1.sub_mut t

/-- src/ratio/funcs/atrigo.rs 53-56 and 74-77 -/
def atanPos (y : Ratio) (iter : Nat) : M Ratio :=
  if y.gt_one then do
    let z ← y.reci_mut
    let r ← atanSeries z iter
    let p ← pi_iter iter
    let p ← p.div_i32 2
    p.sub r
  else atanSeries y iter

/-- src/ratio/funcs/atrigo.rs 43-84 -/
def atan_iter (x : Ratio) (iter : Nat) : M Ratio := do
  let a := absSign x
  let r ← atanPos a.1 iter
  pure (negIf a.2 r)

/-! ### square root -/

/-- src/ratio/funcs/root.rs 4-9 -/
def sqrt_iter (x : Ratio) (iter : Nat) : M Ratio := do
  let d ← BigI.sqrt (BigI.shift_left x.denom (1 + iter))
  let n ← BigI.sqrt (BigI.shift_left x.numer (1 + iter))
  from_denom_and_numer d n

end Ratio
end Hmath
