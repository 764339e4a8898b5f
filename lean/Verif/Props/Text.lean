import Verif.Proofs.PolyText
import Verif.Proofs.Matrix
import Verif.Props.RatioStr
import Verif.Props.RatioPrint

/-!
# C77: text of polynomials and matrices

`Polynomial::to_ratio_string`, `Polynomial::to_approx_string` and `Matrix::to_ratio_string`.
-/

namespace Hmath
namespace Props
open Polynomial

/-- the length of an absolute value -/
theorem abs_lengths (q : ℚ) : (|q|).num.natAbs = q.num.natAbs ∧ (|q|).den = q.den := by
  rcases abs_cases q with ⟨h, -⟩ | ⟨h, -⟩ <;> rw [h] <;> simp

/-- **C77, polynomials.**  The text of a polynomial, read as a sum of terms, is the polynomial.  The powers in the text decrease, and no
coefficient in it is zero, unless it is the text `0`. -/
theorem C77_ratio {p : Poly} (hp : PValid p) (hl : ∀ x ∈ p.coeffs, x.numer.mag.length ≤ 2 ^ 32 ∧ x.denom.mag.length ≤ 2 ^ 32) :
    ∃ s l, Poly.to_ratio_string p = pure s ∧ readPoly readFrac s = some l ∧ sumTerms l = pval p ∧ (l.map Prod.fst).Pairwise (· > ·) ∧
      (s = ['0'] ∨ ∀ x ∈ l, x.2 ≠ 0) := by
  have hp' := Poly.eq_ofList hp
  obtain ⟨L, hL⟩ : ∃ L, L = p.coeffs.map rval := ⟨_, rfl⟩
  have hlen : ∀ q ∈ L, (ofNat q.num.natAbs).length ≤ 2 ^ 32 ∧ (ofNat q.den).length ≤ 2 ^ 32 := by
    intro q hq
    rw [hL] at hq
    obtain ⟨x, hx, rfl⟩ := List.mem_map.1 hq
    obtain ⟨-, l1, l2⟩ := lengths (hp x hx)
    rw [l1, l2]
    exact hl x hx
  rw [← hL] at hp'
  clear hl hp hL
  subst hp'
  obtain ⟨s, l, h1, h2, h3, h4, h5⟩ := Poly.to_string_c (approx := none) (num := readFrac) (v := fun q => |q|)
    (t := fun q => Nat.toDigits 10 q.num.natAbs ++ if q.den = 1 then [] else '/' :: Nat.toDigits 10 q.den) (L := L) (by
      intro q hq _
      obtain ⟨e1, e2⟩ := abs_lengths q
      obtain ⟨l1, l2⟩ := hlen q hq
      have := C28_to_ratio_string (a := ofRat |q|) (rvalid_ofRat _)
        (by rw [Ratio.numer_ofRat, BigI.mag_ofInt, e1]; exact l1)
        (by rw [Ratio.denom_ofRat, BigI.mag_ofInt, Int.natAbs_natCast, e2]; exact l2)
      rw [Poly.coeffText, this, rval_ofRat, intDigits, if_neg (by simp), e1, e2]
      simp) (fun q _ _ => Poly.good_frac q) (fun q h => h) (by decide +kernel)
  refine ⟨s, l, h1, h2, ?_, h4, h5.imp id fun h x hx => ?_⟩
  · rw [h3, Poly.pval_ofList]
    congr 1
    conv_rhs => rw [← List.map_id L]
    refine List.map_congr_left fun q _ => ?_
    simp only [id]
    split
    · rename_i h; exact h.symm
    · split
      · rename_i h; rw [abs_of_neg h, neg_neg]
      · rename_i h; rw [abs_of_nonneg (not_lt.1 h)]
  · obtain ⟨q, -, hq, he⟩ := h x hx
    intro h0
    rw [h0, abs_zero, abs_abs] at he
    exact hq (abs_eq_zero.1 he.symm)

/-- `-3/2 x^2 - x + 5` and `0` -/
example : readPoly readFrac "-3/2 * x^2 - x + 5".toList = some [(2, -(3 / 2)), (1, -1), (0, 5)] ∧
    readPoly readFrac "0".toList = some [(0, 0)] ∧ readPoly readFrac "x^12 - 7 * x".toList = some [(12, 1), (1, -7)] := by decide +kernel

example : (let p := Poly.ofList [-3 / 2, -1, 5]
    PValid p ∧ ∀ x ∈ p.coeffs, x.numer.mag.length ≤ 2 ^ 32 ∧ x.denom.mag.length ≤ 2 ^ 32) := by
  refine ⟨Poly.pvalid_ofList _, ?_⟩
  decide +kernel

/-- **C77, polynomials in decimal.**  If the coefficients that are not zero are in the range in which `C74_fixed` applies, then the text of
the polynomial, read as a sum of terms, is the polynomial whose coefficients are cut off to the places there is room for. -/
theorem C77_approx {p : Poly} (hp : PValid p) (hl : ∀ x ∈ p.coeffs, x.numer.mag.length ≤ 2 ^ 27 ∧ x.denom.mag.length ≤ 2 ^ 27)
    {k K : Nat} (hK : K = max k 6) (hK2 : K ≤ 2 ^ 32)
    (h1 : ∀ x ∈ p.coeffs, rval x ≠ 0 → (1 + 1 / 10 ^ 5) / 10 ^ (K - 2) ≤ |rval x| ∧ |rval x| < 10 ^ (K - 2) * (1 - 1 / 10 ^ 5))
    (h2 : ∀ x ∈ p.coeffs, rval x ≠ 0 → (1 + 1 / 10 ^ 5) / 10 ^ 9991 ≤ |rval x| ∧ |rval x| < 10 ^ 9991 * (1 - 1 / 10 ^ 5)) :
    ∃ s l, Poly.to_approx_string p k = pure s ∧ readPoly readDec s = some l ∧
      sumTerms l = polyOf (p.coeffs.map fun x => cutOff K (rval x)) ∧ (l.map Prod.fst).Pairwise (· > ·) := by
  have hp' := Poly.eq_ofList hp
  have hm : p.coeffs.map (fun x => cutOff K (rval x)) = (p.coeffs.map rval).map (cutOff K) := by rw [List.map_map]; rfl
  rw [hm]
  obtain ⟨L, hL⟩ : ∃ L, L = p.coeffs.map rval := ⟨_, rfl⟩
  have hall : ∀ q ∈ L, (ofNat q.num.natAbs).length ≤ 2 ^ 27 ∧ (ofNat q.den).length ≤ 2 ^ 27 ∧
      (q ≠ 0 → (1 + 1 / 10 ^ 5) / 10 ^ (K - 2) ≤ |q| ∧ |q| < 10 ^ (K - 2) * (1 - 1 / 10 ^ 5)) ∧
      (q ≠ 0 → (1 + 1 / 10 ^ 5) / 10 ^ 9991 ≤ |q| ∧ |q| < 10 ^ 9991 * (1 - 1 / 10 ^ 5)) := by
    intro q hq
    rw [hL] at hq
    obtain ⟨x, hx, rfl⟩ := List.mem_map.1 hq
    obtain ⟨-, l1, l2⟩ := lengths (hp x hx)
    rw [l1, l2]
    exact ⟨(hl x hx).1, (hl x hx).2, h1 x hx, h2 x hx⟩
  rw [← hL] at hp' ⊢
  clear hl hp hL hm h1 h2
  subst hp'
  obtain ⟨s, l, e1, e2, e3, e4, -⟩ := Poly.to_string_c (approx := some k) (num := readDec)
    (v := fun q => (⌊|q| * 10 ^ room K q⌋₊ : ℚ) / 10 ^ room K q) (t := fun q => fixedRat False |q| (room K q)) (L := L) (by
      intro q hq h0
      obtain ⟨e1, e2⟩ := abs_lengths q
      obtain ⟨l1, l2, l3, l4⟩ := hall q hq
      have hnn : ¬ |q| < 0 := by simp
      have := (C74_fixed (x := ofRat |q|) (k := k) (d := room K q) (rvalid_ofRat _)
        (by rw [Ratio.numer_ofRat, BigI.mag_ofInt, e1]; exact l1)
        (by rw [Ratio.denom_ofRat, BigI.mag_ofInt, Int.natAbs_natCast, e2]; exact l2) hK hK2
        (by rw [rval_ofRat, abs_abs]; exact (l3 h0).1) (by rw [rval_ofRat, abs_abs]; exact (l3 h0).2)
        (by rw [rval_ofRat, abs_abs]; exact (l4 h0).1) (by rw [rval_ofRat, abs_abs]; exact (l4 h0).2)
        (by rw [rval_ofRat, abs_abs, if_neg hnn, room])).1
      rw [Poly.coeffText, this, rval_ofRat, abs_abs]
      simp only [fixedRat, if_neg hnn, if_false]) (fun q _ _ => Poly.good_fixed |q| _) (by
      intro q h
      rw [h, one_mul]
      have : ((10 : ℚ) ^ room K q) = ((10 ^ room K q : Nat) : ℚ) := by push_cast; rfl
      rw [this, Nat.floor_natCast]
      exact div_self (by positivity)) (by decide +kernel)
  refine ⟨s, l, e1, e2, ?_, e4⟩
  rw [e3]
  congr 1
  refine List.map_congr_left fun q _ => ?_
  rw [cutOff]
  split
  · rename_i h; subst h; simp
  · split
    · rw [neg_one_mul]
    · rw [one_mul]

/-- `x^2 / 3 - 1/8` in 8 characters is read as `0.333333 x^2 - 0.125` -/
example : readPoly readDec "0.333333 * x^2 - 0.125".toList = some [(2, cutOff 8 (1 / 3)), (0, cutOff 8 (-1 / 8))] := by decide +kernel

example : (let p := Poly.ofList [1 / 3, 0, -1 / 8]
    (∀ x ∈ p.coeffs, x.numer.mag.length ≤ 2 ^ 27 ∧ x.denom.mag.length ≤ 2 ^ 27) ∧
    (∀ x ∈ p.coeffs, rval x ≠ 0 → (1 + 1 / 10 ^ 5) / 10 ^ (8 - 2) ≤ |rval x| ∧ |rval x| < 10 ^ (8 - 2) * (1 - 1 / 10 ^ 5))) := by
  decide +kernel

/-- **C77, matrices.**  The text of a matrix consists of its rows between brackets, each of them the entries in lowest terms between
brackets. -/
theorem C77_matrix {r c : Nat} {A : Mat} {B : Matrix (Fin r) (Fin c) ℚ} (hA : IsMat A B)
    (hl : ∀ row ∈ A.data, ∀ x ∈ row, x.numer.mag.length ≤ 2 ^ 32 ∧ x.denom.mag.length ≤ 2 ^ 32) :
    Mat.to_ratio_string A = pure (matText B) := by
  obtain ⟨e1, e2⟩ := Mat.isMat_eq hA
  have hv := hA.valid.entries
  have htext : ∀ row ∈ A.data, ∀ x ∈ row, Ratio.to_ratio_string x = pure (fracText (rval x)) := by
    intro row hrow x hx
    obtain ⟨h1, h2⟩ := hl row hrow x hx
    rw [C28_to_ratio_string (hv row hrow x hx) h1 h2, fracText, intDigits, List.append_nil]
    simp only [Rat.num_neg]
  rw [Mat.to_ratio_string, mapM_pure' (g := fun row => bracketText (row.map fun x => fracText (rval x)))]
  · rw [pure_bind, matText]
    congr 1
    rw [e2]
    conv_lhs => rw [e1]
    rw [Mat.ofFun]
    simp only [List.map_map]
    rw [Mat.brackets, bracketText]
    have : ∀ (n : Nat) (f : Nat → List Char), List.ofFn (fun i : Fin n => f i) = (List.range n).map f := by
      intro n f
      rw [List.ofFn_eq_map, ← List.map_coe_finRange_eq_range, List.map_map]; rfl
    have hr : ∀ i : Fin r, bracketText (List.ofFn fun j => fracText (Mat.mat (entry A) r c i j)) =
        (fun i : Nat => bracketText ((List.range c).map fun j => fracText (entry A i j))) i := by
      intro i
      simp only
      rw [← this c (fun j => fracText (entry A i j))]; rfl
    simp only [hr]
    rw [this r (fun i : Nat => bracketText ((List.range c).map fun j => fracText (entry A i j)))]
    have e : ((fun row : List Ratio => bracketText (row.map fun x => fracText (rval x))) ∘ fun i : Nat => (List.range c).map fun j => ofRat (entry A i j)) =
        fun i : Nat => bracketText ((List.range c).map fun j => fracText (entry A i j)) := by
      funext i
      simp only [Function.comp, List.map_map]
      congr 1
      exact List.map_congr_left fun j _ => by simp only [Function.comp, rval_ofRat]
    rw [e]
    rfl
  · intro row hrow
    rw [mapM_pure' (g := fun x => fracText (rval x)) (fun x hx => htext row hrow x hx), pure_bind]
    rfl

/-- a `2 × 2` matrix -/
example : matText (r := 2) (c := 2) (fun i j => if i = j then -3 / 6 else (i : Nat) + 4) = "[[-1/2, 4], [5, -1/2]]".toList := by decide +kernel

example : (let A := Mat.ofFun (fun i j => if i = j then -3 / 6 else i + 4) 2 2
    ∀ row ∈ A.data, ∀ x ∈ row, x.numer.mag.length ≤ 2 ^ 32 ∧ x.denom.mag.length ≤ 2 ^ 32) := by decide +kernel

end Props
end Hmath
