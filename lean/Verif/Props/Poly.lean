import Verif.Proofs.Poly

/-!
# Polynomials and interpolation (C37, C38, C49)

`pval p : ℚ[X]` is the Mathlib polynomial denoted by the coefficient vector of `p`;
`Polynomial.eval` and `Polynomial.derivative` are Mathlib's.
-/

namespace Hmath
namespace Props
open Poly Polynomial

/-- the integer `n` as a `Ratio` -/
private def rn (n : Nat) (neg : Bool := false) : Ratio := ⟨⟨[1], false⟩, ⟨[n], neg⟩⟩

/-- `3x² − 4x + 5` -/
def exP : Poly := ⟨[rn 3, rn 4 true, rn 5]⟩

/-! ## C37 constructors, evaluation, scaling, derivative -/

/-- `from_vec` keeps the denoted polynomial and drops leading zeros -/
theorem C37_from_vec {l : List Ratio} (h : ∀ x ∈ l, RValid x) :
    PValid (Poly.from_vec l) ∧ PNormal (Poly.from_vec l) ∧
      pval (Poly.from_vec l) = polyOf (l.map rval) := by
  have e := eq_ofList (p := ⟨l⟩) h
  have : Poly.from_vec l = ofList (strip (l.map rval)) := by
    rw [← from_vec_c]
    exact congrArg (fun p : Poly => Poly.from_vec p.coeffs) e
  rw [this]
  exact ⟨pvalid_ofList _, pnormal_strip _, by rw [pval_ofList, polyOf_strip]⟩

example : pval (Poly.from_vec [rn 0, rn 0, rn 3, rn 4]) = polyOf [0, 0, 3, 4] := by
  rw [(C37_from_vec (by decide)).2.2]
  exact congrArg polyOf (by decide +kernel)

/-- `from_vec_generic` converts every coefficient and denotes the same polynomial, -/
theorem C37_from_vec_generic {α : Type} {into : α → M Ratio} {val : α → ℚ} {l : List α}
    (h : ∀ x ∈ l, ComputesR (into x) (val x)) :
    ∃ f, Poly.from_vec_generic into l = pure f ∧ PValid f ∧ f.coeffs ≠ [] ∧
      pval f = polyOf (l.map val) := by
  rw [Poly.from_vec_generic]
  by_cases h0 : l = []
  · subst h0
    have := C37_from_vec (l := []) (by simp)
    exact ⟨_, rfl, this.1, this.2.1.1, this.2.2⟩
  · rw [if_neg (by simpa using h0), mapM_pure' (g := fun x => ofRat (val x)), pure_bind]
    · refine ⟨_, rfl, ?_, by simpa using h0, ?_⟩
      · intro x hx
        obtain ⟨y, _, rfl⟩ := List.mem_map.1 hx
        exact rvalid_ofRat _
      · rw [pval, List.map_map]
        refine congrArg polyOf (List.map_congr_left fun x _ => rval_ofRat _)
    · intro x hx
      obtain ⟨r, e, v, hr⟩ := h x hx
      rw [e, ← hr, ← v.eq_ofRat]

example : ∃ f, Poly.from_vec_generic Ratio.from_i32 [3, 0, -4] = pure f ∧ PValid f ∧
    f.coeffs ≠ [] ∧ pval f = polyOf ([3, 0, -4].map fun z : Int => (z : ℚ)) := by
  refine C37_from_vec_generic (val := fun z : Int => (z : ℚ)) fun x hx => ?_
  have hx' : IsI32 x := by
    unfold IsI32
    simp at hx
    omega
  exact computesR_of_eq (Ratio.from_i32_c hx' (by rintro rfl; simp at hx))

/-- … but it leaves leading zeros in place, so equal polynomials may compare different. -/
theorem C37_from_vec_generic_counterexample :
    ∃ f, Poly.from_vec_generic pure [rn 0, rn 1] = pure f ∧ ¬ PNormal f ∧
      pval f = pval (Poly.from_vec [rn 0, rn 1]) ∧ f ≠ Poly.from_vec [rn 0, rn 1] := by
  refine ⟨⟨[rn 0, rn 1]⟩, rfl, ?_, ?_, by decide⟩
  · rintro ⟨_, h⟩
    exact h (by decide) (rn 0) rfl (by decide +kernel)
  · rw [(C37_from_vec (l := [rn 0, rn 1]) (by decide)).2.2]
    rfl

theorem C37_calc {p : Poly} (hp : PValid p) {x : Ratio} (hx : RValid x) :
    ComputesR (p.calc_at x) ((pval p).eval (rval x)) := by
  rw [eq_ofList hp, hx.eq_ofRat, calc_c, pval_ofList, rval_ofRat]
  exact computesR_of_eq rfl

example : ComputesR (exP.calc_at (rn 7)) ((pval exP).eval (rval (rn 7))) :=
  C37_calc (by decide) (by decide)

theorem C37_mul_k {p : Poly} (hp : PValid p) {k : Ratio} (hk : RValid k) :
    ComputesP (p.mul_k k) (C (rval k) * pval p) := by
  rw [eq_ofList hp, hk.eq_ofRat, pval_ofList, rval_ofRat, ← polyOf_scale]
  exact computesP_strip (mul_k_c _ _)

example : ComputesP (exP.mul_k (rn 0)) (C (rval (rn 0)) * pval exP) :=
  C37_mul_k (by decide) (by decide)

theorem pnormal_iff (L : List ℚ) : PNormal (ofList L) ↔
    L ≠ [] ∧ (2 ≤ L.length → ∀ x, L.head? = some x → x ≠ 0) := by
  unfold PNormal ofList
  simp only [ne_eq, List.map_eq_nil_iff, List.length_map, List.head?_map, Option.map_eq_some_iff]
  refine and_congr Iff.rfl (imp_congr Iff.rfl ⟨fun h x hx => ?_, ?_⟩)
  · simpa using h (ofRat x) ⟨x, hx, rfl⟩
  · rintro h _ ⟨q, hq, rfl⟩
    rw [rval_ofRat]
    exact h q hq

/-- the in-place version: same polynomial, and a normalised vector stays normalised -/
theorem C37_mul_k_mut {p : Poly} (hp : PValid p) (hn : PNormal p) {k : Ratio} (hk : RValid k) :
    ComputesP (p.mul_k_mut k) (C (rval k) * pval p) := by
  rw [eq_ofList hp] at hn ⊢
  rw [hk.eq_ofRat, pval_ofList, rval_ofRat]
  generalize p.coeffs.map rval = L at *
  by_cases h0 : rval k = 0
  · rw [h0, Poly.mul_k_mut, Ratio.is_zero_c]
    simp only [decide_true, if_true]
    refine ⟨_, rfl, ?_⟩
    have := C37_from_vec (l := []) (by simp)
    refine ⟨this.1, this.2.1, ?_⟩
    rw [this.2.2]
    simp [polyOf]
  · rw [mul_k_mut_c _ h0]
    refine ⟨_, rfl, pvalid_ofList _, ?_, by rw [pval_ofList, polyOf_scale]⟩
    rw [pnormal_iff] at hn ⊢
    refine ⟨by simpa using hn.1, fun hl x hx => ?_⟩
    rw [List.head?_map, Option.map_eq_some_iff] at hx
    obtain ⟨q, hq, rfl⟩ := hx
    exact mul_ne_zero (hn.2 (by simpa using hl) q hq) h0

theorem exP_normal : PNormal exP := by
  refine ⟨by decide, fun _ x hx => ?_⟩
  injection hx with hx
  rw [← hx]
  decide +kernel

example : ComputesP (exP.mul_k_mut (rn 2)) (C (rval (rn 2)) * pval exP) :=
  C37_mul_k_mut (by decide) exP_normal (by decide)

/-- The exponent is cast by `as i32`, so the vector must be at most `2^31` long. -/
theorem C37_differentiate {p : Poly} (hp : PValid p) (h0 : p.coeffs ≠ [])
    (hl : p.coeffs.length ≤ 2147483648) :
    ComputesP p.differentiate (derivative (pval p)) := by
  rw [eq_ofList hp, pval_ofList]
  exact differentiate_c (by simpa using h0) (by simpa using hl)

example : ComputesP exP.differentiate (derivative (pval exP)) :=
  C37_differentiate (by decide) (by decide) (by decide)

theorem scaled_head {L : List ℚ} (hl : 2 ≤ L.length) {x : ℚ}
    (h : (scaled L).dropLast.head? = some x) : ∃ q, L.head? = some q ∧ x = q * ((L.length - 1 : ℕ) : ℚ) := by
  cases L with
  | nil => simp at hl
  | cons c L =>
    refine ⟨c, rfl, ?_⟩
    rw [scaled_cons] at h
    cases hs : scaled L with
    | nil =>
      have := scaled_length L
      rw [hs] at this
      simp at hl this
      omega
    | cons d S =>
      rw [hs] at h
      simp at h
      rw [← h]
      simp

/-- On normalised vectors the in-place version agrees. -/
theorem C37_differentiate_mut {p : Poly} (hp : PValid p) (hn : PNormal p)
    (hl : p.coeffs.length ≤ 2147483648) :
    ComputesP p.differentiate_mut (derivative (pval p)) := by
  have h0 := hn.1
  have hl' : (p.coeffs.map rval).length ≤ 2147483648 := by simpa using hl
  have h0' : p.coeffs.map rval ≠ [] := by simpa using h0
  rw [eq_ofList hp] at hn ⊢
  rw [pval_ofList]
  obtain ⟨L', h1, h2, h3, h4⟩ := differentiate_mut_c h0' hl'
  refine ⟨_, h1, pvalid_ofList _, ?_, by rw [pval_ofList, h2]⟩
  rw [pnormal_iff] at hn ⊢
  refine ⟨h4, fun h5 x hx => ?_⟩
  rcases h3 with h3 | h3
  · have h6 : 2 ≤ (p.coeffs.map rval).length := by
      rw [h3, List.length_dropLast, scaled_length] at h5
      omega
    rw [h3] at hx
    obtain ⟨q, hq, rfl⟩ := scaled_head h6 hx
    refine mul_ne_zero (hn.2 h6 q hq) ?_
    have : (p.coeffs.map rval).length - 1 ≠ 0 := by omega
    exact_mod_cast this
  · rw [h3] at h5
    simp at h5

example : ComputesP exP.differentiate_mut (derivative (pval exP)) :=
  C37_differentiate_mut (by decide) exP_normal (by decide)

/-! ## C49 Newton's method -/

theorem C49_newton_none {p : Poly} (hp : PValid p) (h0 : p.coeffs ≠ [])
    (hl : p.coeffs.length ≤ 2147483648) {x : Ratio} (hx : RValid x)
    (hd : (derivative (pval p)).eval (rval x) ≠ 0) :
    ComputesR (p.newton_method x none)
      (rval x - (pval p).eval (rval x) / (derivative (pval p)).eval (rval x)) := by
  obtain ⟨q, e, v, _, hq⟩ := C37_differentiate hp h0 hl
  obtain ⟨a, ea, va, ha⟩ := C37_calc v hx
  obtain ⟨b, eb, vb, hb⟩ := C37_calc hp hx
  rw [newton_method, primeAt, e, pure_bind, ea, pure_bind, eb, pure_bind]
  rw [hq] at ha
  rw [← ha] at hd ⊢
  rw [← hb, vb.eq_ofRat, va.eq_ofRat, Ratio.div_c hd, pure_bind, hx.eq_ofRat, Ratio.sub_c]
  simp only [rval_ofRat]
  exact computesR_of_eq rfl

/-- with a precomputed derivative `q` -/
theorem C49_newton_some {p q : Poly} (hp : PValid p) (hq : PValid q) {x : Ratio} (hx : RValid x)
    (hd : (pval q).eval (rval x) ≠ 0) :
    ComputesR (p.newton_method x (some q))
      (rval x - (pval p).eval (rval x) / (pval q).eval (rval x)) := by
  obtain ⟨a, ea, va, ha⟩ := C37_calc hq hx
  obtain ⟨b, eb, vb, hb⟩ := C37_calc hp hx
  rw [newton_method, primeAt, ea, pure_bind, eb, pure_bind]
  rw [← ha] at hd ⊢
  rw [← hb, vb.eq_ofRat, va.eq_ofRat, Ratio.div_c hd, pure_bind, hx.eq_ofRat, Ratio.sub_c]
  simp only [rval_ofRat]
  exact computesR_of_eq rfl

theorem exP_deriv : (derivative (pval exP)).eval (rval (rn 7)) = 38 := by
  have e : exP.coeffs.map rval = [3, -4, 5] := by decide +kernel
  have e7 : rval (rn 7) = 7 := by decide +kernel
  rw [pval, e, e7]
  simp [polyOf]
  norm_num

example : ComputesR (exP.newton_method (rn 7) none)
    (rval (rn 7) - (pval exP).eval (rval (rn 7)) / (derivative (pval exP)).eval (rval (rn 7))) :=
  C49_newton_none (by decide) (by decide) (by decide) (by decide) (by rw [exP_deriv]; norm_num)

/-! ## C38 interpolation -/

theorem points_eq {P : List (Ratio × Ratio)} (h : ∀ p ∈ P, RValid p.1 ∧ RValid p.2) :
    P = (P.map fun p => (rval p.1, rval p.2)).map fun p => (ofRat p.1, ofRat p.2) := by
  rw [List.map_map]
  conv_lhs => rw [← List.map_id P]
  refine List.map_congr_left fun p hp => ?_
  obtain ⟨h1, h2⟩ := h p hp
  exact Prod.ext h1.eq_ofRat h2.eq_ofRat

theorem polyOf_degree (L : List ℚ) : (polyOf L).degree < L.length := by
  induction L with
  | nil => simp [polyOf]
  | cons c L ih =>
    rw [polyOf, List.length_cons]
    refine lt_of_le_of_lt (degree_add_le _ _) (max_lt ?_ ?_)
    · refine lt_of_le_of_lt (degree_C_mul_X_pow_le _ _) ?_
      exact_mod_cast Nat.lt_succ_self _
    · refine lt_trans ih ?_
      exact_mod_cast Nat.lt_succ_self _

/-- Distinct abscissae: the polynomial of degree below the number of points that passes through
all of them. -/
theorem C38_from_points {P : List (Ratio × Ratio)} (h : ∀ p ∈ P, RValid p.1 ∧ RValid p.2)
    (h0 : P ≠ []) (hd : (P.map fun p => rval p.1).Nodup) :
    ∃ f, from_points P = pure (.ok f) ∧ PValid f ∧ PNormal f ∧
      (pval f).degree < P.length ∧ ∀ p ∈ P, (pval f).eval (rval p.1) = rval p.2 := by
  set Q := P.map fun p => (rval p.1, rval p.2) with hQ
  have hlen : Q.length = P.length := by simp [hQ]
  have hnd : ∀ i < Q.length, ∀ j < Q.length, (Q.getD i (0, 0)).1 = (Q.getD j (0, 0)).1 → i = j := by
    intro i hi j hj hij
    have hi' : i < P.length := by omega
    have hj' : j < P.length := by omega
    have := (List.Nodup.getElem_inj_iff hd (i := i) (j := j) (hi := by simpa using hi')
      (hj := by simpa using hj')).1
    apply this
    simpa [hQ, hi', hj'] using hij
  obtain ⟨L, h1, h2, h3⟩ := from_points_c Q (by simpa [hQ] using h0) hnd
  rw [← points_eq h] at h1
  obtain ⟨f, e, v, n, hf⟩ := computesP_strip (m := pure (Poly.from_vec (L.map ofRat))) rfl
  refine ⟨f, ?_, v, n, ?_, ?_⟩
  · rw [h1]
    have e' : some (Except.ok (ε := Panic) (Poly.from_vec (L.map ofRat))) = some (Except.ok f) := e
    injection e' with e'
    injection e' with e'
    rw [e']
  · rw [hf, ← hlen, ← h2]
    exact polyOf_degree L
  · intro p hp
    obtain ⟨i, hi, rfl⟩ := List.getElem_of_mem hp
    have := h3 i (by omega)
    rw [hf]
    simpa [hQ, hi] using this

/-- `(1, 2), (3, 5), (4, 7)` -/
def exPts : List (Ratio × Ratio) := [(rn 1, rn 2), (rn 3, rn 5), (rn 4, rn 7)]

example : ∃ f, from_points exPts = pure (.ok f) ∧ PValid f ∧ PNormal f ∧
    (pval f).degree < exPts.length ∧ ∀ p ∈ exPts, (pval f).eval (rval p.1) = rval p.2 :=
  C38_from_points (by decide) (by decide) (by decide +kernel)

/-- Repeated abscissae, and the empty list, give the error value. -/
theorem C38_from_points_duplicate {P : List (Ratio × Ratio)} (h : ∀ p ∈ P, RValid p.1 ∧ RValid p.2)
    (hd : P = [] ∨ ¬ (P.map fun p => rval p.1).Nodup) :
    from_points P = pure (.error .zeroDeterminant) := by
  rcases hd with rfl | hd
  · exact from_points_nil
  · rw [List.nodup_iff_injective_getElem] at hd
    unfold Function.Injective at hd
    push Not at hd
    obtain ⟨i, j, hij, hne⟩ := hd
    have hi : (i : ℕ) < P.length := by simpa using i.2
    have hj : (j : ℕ) < P.length := by simpa using j.2
    rw [points_eq h]
    refine from_points_dup _ i j (by simpa using hi) (by simpa using hj) ?_ ?_
    · exact fun e => hne (Fin.ext e)
    · simpa [hi, hj] using hij

example : from_points [(rn 1, rn 2), (rn 3, rn 5), (rn 1, rn 7)] = pure (.error .zeroDeterminant) :=
  C38_from_points_duplicate (by decide) (Or.inr (by decide +kernel))

/-- Two distinct abscissae: the line through both points. -/
theorem C38_linear {a b v1 v2 : Ratio} (ha : RValid a) (hb : RValid b) (h1 : RValid v1)
    (h2 : RValid v2) (hab : rval a ≠ rval b) :
    ∃ f, linear_2_points a b v1 v2 = pure f ∧ PValid f ∧ PNormal f ∧ (pval f).degree < 2 ∧
      (pval f).eval (rval a) = rval v1 ∧ (pval f).eval (rval b) = rval v2 := by
  have key := linear_c (rval a) (rval b) (rval v1) (rval v2)
  rw [← ha.eq_ofRat, ← hb.eq_ofRat, ← h1.eq_ofRat, ← h2.eq_ofRat] at key
  obtain ⟨f, e, v, n, hf⟩ := computesP_strip key
  refine ⟨f, e, v, n, ?_, ?_, ?_⟩
  · rw [hf]; exact polyOf_degree _
  · rw [hf]; simp [polyOf]; ring
  · rw [hf]
    have : rval b - rval a ≠ 0 := sub_ne_zero.2 (Ne.symm hab)
    simp [polyOf]
    field_simp
    ring

example : ∃ f, linear_2_points (rn 1) (rn 3) (rn 2) (rn 5) = pure f ∧ PValid f ∧ PNormal f ∧
    (pval f).degree < 2 ∧ (pval f).eval (rval (rn 1)) = rval (rn 2) ∧
      (pval f).eval (rval (rn 3)) = rval (rn 5) :=
  C38_linear (by decide) (by decide) (by decide) (by decide) (by decide +kernel)

/-- Equal abscissae: the constant `v1`, as documented. -/
theorem C38_linear_same {a b v1 v2 : Ratio} (ha : RValid a) (hb : RValid b) (h1 : RValid v1)
    (h2 : RValid v2) (hab : rval a = rval b) :
    ComputesP (linear_2_points a b v1 v2) (C (rval v1)) := by
  have key := linear_c (rval a) (rval b) (rval v1) (rval v2)
  rw [← ha.eq_ofRat, ← hb.eq_ofRat, ← h1.eq_ofRat, ← h2.eq_ofRat] at key
  have := computesP_strip key
  rw [hab] at this
  simpa [polyOf] using this

example : ComputesP (linear_2_points (rn 1) (rn 1) (rn 2) (rn 5)) (C (rval (rn 2))) :=
  C38_linear_same (by decide) (by decide) (by decide) (by decide) rfl

theorem C38_quadratic {a b c v1 v2 v3 : Ratio} (ha : RValid a) (hb : RValid b) (hc : RValid c)
    (h1 : RValid v1) (h2 : RValid v2) (h3 : RValid v3)
    (hab : rval a ≠ rval b) (hac : rval a ≠ rval c) (hbc : rval b ≠ rval c) :
    ∃ f, quadratic_3_points a b c v1 v2 v3 = pure f ∧ PValid f ∧ PNormal f ∧ (pval f).degree < 3 ∧
      (pval f).eval (rval a) = rval v1 ∧ (pval f).eval (rval b) = rval v2 ∧
      (pval f).eval (rval c) = rval v3 := by
  obtain ⟨L, key, hl, hL⟩ := quadratic_c hab hac hbc (rval v1) (rval v2) (rval v3)
  rw [← ha.eq_ofRat, ← hb.eq_ofRat, ← hc.eq_ofRat, ← h1.eq_ofRat, ← h2.eq_ofRat, ← h3.eq_ofRat] at key
  obtain ⟨f, e, v, n, hf⟩ := computesP_strip key
  refine ⟨f, e, v, n, ?_, ?_⟩
  · rw [hf]
    have := polyOf_degree L
    rwa [hl] at this
  · rw [hf]; exact hL

example : ∃ f, quadratic_3_points (rn 1) (rn 3) (rn 4) (rn 2) (rn 5) (rn 7) = pure f ∧ PValid f ∧
    PNormal f ∧ (pval f).degree < 3 ∧ (pval f).eval (rval (rn 1)) = rval (rn 2) ∧
    (pval f).eval (rval (rn 3)) = rval (rn 5) ∧ (pval f).eval (rval (rn 4)) = rval (rn 7) :=
  C38_quadratic (by decide) (by decide) (by decide) (by decide) (by decide) (by decide)
    (by decide +kernel) (by decide +kernel) (by decide +kernel)

/-- Coinciding abscissae with consistent values: the result still passes through all points
(inconsistent ones are dropped, as documented: every distinct abscissa keeps one of its values). -/
theorem C38_quadratic_degenerate {a b c v1 v2 v3 : Ratio} (ha : RValid a) (hb : RValid b)
    (hc : RValid c) (h1 : RValid v1) (h2 : RValid v2) (h3 : RValid v3)
    (h : rval a = rval b ∨ rval a = rval c ∨ rval b = rval c) :
    ∃ f, quadratic_3_points a b c v1 v2 v3 = pure f ∧ PValid f ∧ PNormal f ∧
      (pval f).eval (rval a) = rval v1 ∧
      ((pval f).eval (rval b) = rval v2 ∨ rval b = rval a) ∧
      ((pval f).eval (rval c) = rval v3 ∨ rval c = rval a ∨ rval c = rval b) := by
  have key := quadratic_degenerate h (rval v1) (rval v2) (rval v3)
  rw [← ha.eq_ofRat, ← hb.eq_ofRat, ← hc.eq_ofRat, ← h1.eq_ofRat, ← h2.eq_ofRat, ← h3.eq_ofRat] at key
  rw [key]
  by_cases hab : rval a = rval b
  · rw [if_pos hab]
    by_cases hac : rval a = rval c
    · obtain ⟨f, e, v, n, hf⟩ := C38_linear_same ha hc h1 h3 hac
      exact ⟨f, e, v, n, by rw [hf]; simp, Or.inr hab.symm, Or.inr (Or.inl hac.symm)⟩
    · obtain ⟨f, e, v, n, _, f1, f2⟩ := C38_linear ha hc h1 h3 hac
      exact ⟨f, e, v, n, f1, Or.inr hab.symm, Or.inl f2⟩
  · rw [if_neg hab]
    obtain ⟨f, e, v, n, _, f1, f2⟩ := C38_linear ha hb h1 h2 hab
    refine ⟨f, e, v, n, f1, Or.inl f2, Or.inr ?_⟩
    rcases h with h | h | h
    · exact absurd h hab
    · exact Or.inl h.symm
    · exact Or.inr h.symm

example : ∃ f, quadratic_3_points (rn 1) (rn 1) (rn 4) (rn 2) (rn 5) (rn 7) = pure f ∧ PValid f ∧
    PNormal f ∧ (pval f).eval (rval (rn 1)) = rval (rn 2) ∧
    ((pval f).eval (rval (rn 1)) = rval (rn 5) ∨ rval (rn 1) = rval (rn 1)) ∧
    ((pval f).eval (rval (rn 4)) = rval (rn 7) ∨ rval (rn 4) = rval (rn 1) ∨ rval (rn 4) = rval (rn 1)) :=
  C38_quadratic_degenerate (by decide) (by decide) (by decide) (by decide) (by decide) (by decide)
    (Or.inl rfl)

theorem C38_cubic {a b v1 v2 v3 v4 : Ratio} (ha : RValid a) (hb : RValid b)
    (h1 : RValid v1) (h2 : RValid v2) (h3 : RValid v3) (h4 : RValid v4) (hab : rval a ≠ rval b) :
    ∃ f, cubic_2_points a b v1 v2 v3 v4 = pure f ∧ PValid f ∧ PNormal f ∧ (pval f).degree < 4 ∧
      (pval f).eval (rval a) = rval v1 ∧ (pval f).eval (rval b) = rval v2 ∧
      (derivative (pval f)).eval (rval a) = rval v3 ∧
      (derivative (pval f)).eval (rval b) = rval v4 := by
  obtain ⟨L, key, hl, hL⟩ := cubic_c hab (rval v1) (rval v2) (rval v3) (rval v4)
  rw [← ha.eq_ofRat, ← hb.eq_ofRat, ← h1.eq_ofRat, ← h2.eq_ofRat, ← h3.eq_ofRat, ← h4.eq_ofRat] at key
  obtain ⟨f, e, v, n, hf⟩ := computesP_strip key
  refine ⟨f, e, v, n, ?_, ?_⟩
  · rw [hf]
    have := polyOf_degree L
    rwa [hl] at this
  · rw [hf]; exact hL

example : ∃ f, cubic_2_points (rn 1) (rn 3) (rn 2) (rn 5) (rn 7) (rn 9) = pure f ∧ PValid f ∧
    PNormal f ∧ (pval f).degree < 4 ∧ (pval f).eval (rval (rn 1)) = rval (rn 2) ∧
    (pval f).eval (rval (rn 3)) = rval (rn 5) ∧
    (derivative (pval f)).eval (rval (rn 1)) = rval (rn 7) ∧
    (derivative (pval f)).eval (rval (rn 3)) = rval (rn 9) :=
  C38_cubic (by decide) (by decide) (by decide) (by decide) (by decide) (by decide) (by decide +kernel)

/-- `a == b`: the tangent line at `a`; the `unreachable!()` branch is never taken. -/
theorem C38_cubic_same {a b v1 v2 v3 v4 : Ratio} (ha : RValid a) (hb : RValid b)
    (h1 : RValid v1) (h2 : RValid v2) (h3 : RValid v3) (h4 : RValid v4) (hab : rval a = rval b) :
    ∃ f, cubic_2_points a b v1 v2 v3 v4 = pure f ∧ PValid f ∧ PNormal f ∧ (pval f).degree < 2 ∧
      (pval f).eval (rval a) = rval v1 ∧ (derivative (pval f)).eval (rval a) = rval v3 := by
  have key := cubic_degenerate (rval a) (rval v1) (rval v2) (rval v3) (rval v4)
  conv at key => lhs; arg 2; rw [hab]
  rw [← ha.eq_ofRat, ← hb.eq_ofRat, ← h1.eq_ofRat, ← h2.eq_ofRat, ← h3.eq_ofRat, ← h4.eq_ofRat] at key
  obtain ⟨f, e, v, n, hf⟩ := computesP_strip key
  refine ⟨f, e, v, n, ?_, ?_, ?_⟩
  · rw [hf]; exact polyOf_degree _
  · rw [hf]; simp [polyOf]; ring
  · rw [hf]; simp [polyOf]

example : ∃ f, cubic_2_points (rn 1) (rn 1) (rn 2) (rn 5) (rn 7) (rn 9) = pure f ∧ PValid f ∧
    PNormal f ∧ (pval f).degree < 2 ∧ (pval f).eval (rval (rn 1)) = rval (rn 2) ∧
    (derivative (pval f)).eval (rval (rn 1)) = rval (rn 7) :=
  C38_cubic_same (by decide) (by decide) (by decide) (by decide) (by decide) (by decide) rfl

end Props
end Hmath
